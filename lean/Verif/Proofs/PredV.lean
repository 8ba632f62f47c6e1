import Verif.Proofs.PredNet

/-! # Neurons that are hit through `V` synapses only, in the predictive simulator -/
set_option linter.unusedSectionVars false
namespace Axon
open Spec
variable {K : Type*} [Field K] [LinearOrder K] [IsStrictOrderedRing K] [FloorRing K]

/-- The hits of a grouped list. -/
def ungroup (vs : List (K × List K)) : List (K × K) := vs.flatMap (fun v => v.2.map (fun w => (v.1, w)))

theorem group_insert (t w : K) : ∀ vs : List (K × List K), (vs.map Prod.fst).Pairwise (· < ·) → (∀ v ∈ vs, v.2 ≠ []) →
    ∃ vs' : List (K × List K), (vs'.map Prod.fst).Pairwise (· < ·) ∧ (∀ v ∈ vs', v.2 ≠ []) ∧
      (ungroup vs').Perm ((t, w) :: ungroup vs) ∧ ∀ v ∈ vs', v.1 = t ∨ ∃ u ∈ vs, u.1 = v.1 := by
  intro vs
  induction vs with
  | nil => intro _ _; exact ⟨[(t, [w])], by simp, by simp, by simp [ungroup], by simp⟩
  | cons v vs ih =>
    intro h1 h2
    have h1' := h1
    rw [List.map_cons, List.pairwise_cons] at h1
    rcases lt_trichotomy t v.1 with h | h | h
    · refine ⟨(t, [w]) :: v :: vs, ?_, ?_, by simp [ungroup], ?_⟩
      · rw [List.map_cons, List.pairwise_cons]
        refine ⟨?_, h1'⟩
        intro a ha
        rcases List.mem_cons.mp ha with rfl | ha
        · exact h
        · exact h.trans (h1.1 a ha)
      · intro u hu
        rcases List.mem_cons.mp hu with rfl | hu
        · simp
        · exact h2 u hu
      · intro u hu
        rcases List.mem_cons.mp hu with rfl | hu
        · exact .inl rfl
        · exact .inr ⟨u, hu, rfl⟩
    · refine ⟨(v.1, w :: v.2) :: vs, by rw [List.map_cons, List.pairwise_cons]; exact h1, ?_, by simp [ungroup, h], ?_⟩
      · intro u hu
        rcases List.mem_cons.mp hu with rfl | hu
        · simp
        · exact h2 u (by simp [hu])
      · intro u hu
        rcases List.mem_cons.mp hu with rfl | hu
        · exact .inr ⟨v, by simp, rfl⟩
        · exact .inr ⟨u, by simp [hu], rfl⟩
    · obtain ⟨vs', a, b, c, d⟩ := ih h1.2 (fun u hu => h2 u (by simp [hu]))
      refine ⟨v :: vs', ?_, ?_, ?_, ?_⟩
      · rw [List.map_cons, List.pairwise_cons]
        refine ⟨?_, a⟩
        intro x hx
        obtain ⟨u, hu, rfl⟩ := List.mem_map.mp hx
        rcases d u hu with h' | ⟨u', hu', h'⟩
        · rw [h']; exact h
        · rw [← h']; exact h1.1 _ (List.mem_map_of_mem hu')
      · intro u hu
        rcases List.mem_cons.mp hu with rfl | hu
        · exact h2 u (by simp)
        · exact b u hu
      · have e : ungroup (v :: vs') = v.2.map (fun w => (v.1, w)) ++ ungroup vs' := rfl
        have e' : ungroup (v :: vs) = v.2.map (fun w => (v.1, w)) ++ ungroup vs := rfl
        rw [e, e']
        exact (c.append_left _).trans List.perm_middle
      · intro u hu
        rcases List.mem_cons.mp hu with rfl | hu
        · exact .inr ⟨u, by simp, rfl⟩
        · rcases d u hu with h' | ⟨u', hu', h'⟩
          · exact .inl h'
          · exact .inr ⟨u', by simp [hu'], h'⟩

/-- Any list of hits can be grouped by time. -/
theorem group_exists : ∀ ws : List (K × K), ∃ vs : List (K × List K), (vs.map Prod.fst).Pairwise (· < ·) ∧ (∀ v ∈ vs, v.2 ≠ []) ∧
    (ungroup vs).Perm ws := by
  intro ws
  induction ws with
  | nil => exact ⟨[], by simp, by simp, by simp [ungroup]⟩
  | cons p ws ih =>
    obtain ⟨vs, a, b, c⟩ := ih
    obtain ⟨vs', a', b', c', -⟩ := group_insert p.1 p.2 vs a b
    exact ⟨vs', a', b', c'.trans (c.cons _)⟩

/-- The weight that arrives in `(lo, t]`. -/
def sumIn (ws : List (K × K)) (lo t : K) : K := (ws.map (fun p => if lo < p.1 ∧ p.1 ≤ t then p.2 else 0)).sum

theorem sumIn_perm {ws ws' : List (K × K)} (h : ws.Perm ws') (lo t : K) : sumIn ws lo t = sumIn ws' lo t := (h.map _).sum_eq

/-- Hit by `ws`, a neuron that starts empty at `lo` spikes at the times `L`. -/
def VOK (ws : List (K × K)) (lo : K) : List K → Prop
  | [] => ∀ t, sumIn ws lo t < 10
  | τ :: L => lo < τ ∧ (∀ t, t < τ → sumIn ws lo t < 10) ∧ 10 ≤ sumIn ws lo τ ∧ VOK ws τ L

theorem sumIn_append (a b : List (K × K)) (lo t : K) : sumIn (a ++ b) lo t = sumIn a lo t + sumIn b lo t := by
  simp [sumIn]

theorem sumIn_volley (T : K) (l : List K) (lo t : K) : sumIn (l.map (fun w => (T, w))) lo t = if lo < T ∧ T ≤ t then l.sum else 0 := by
  unfold sumIn
  rw [List.map_map]
  by_cases h : lo < T ∧ T ≤ t
  · rw [if_pos h]
    congr 1
    conv_rhs => rw [← List.map_id l]
    exact List.map_congr_left fun w _ => by simp [h]
  · rw [if_neg h]
    induction l with
    | nil => rfl
    | cons a l ih => simp [h]; exact ih

theorem sumIn_late {ws : List (K × K)} {lo t : K} (h : ∀ p ∈ ws, t < p.1) : sumIn ws lo t = 0 := by
  unfold sumIn
  refine List.sum_eq_zero fun x hx => ?_
  obtain ⟨p, hp, rfl⟩ := List.mem_map.mp hx
  rw [if_neg (fun hh => absurd hh.2 (not_le.mpr (h p hp)))]

theorem sumIn_lo {ws : List (K × K)} {lo lo' t : K} (h : ∀ p ∈ ws, lo < p.1) (h' : ∀ p ∈ ws, lo' < p.1) : sumIn ws lo t = sumIn ws lo' t := by
  unfold sumIn
  congr 1
  refine List.map_congr_left fun p hp => ?_
  simp [h p hp, h' p hp]

theorem mem_ungroup {vs : List (K × List K)} {p : K × K} : p ∈ ungroup vs → ∃ v ∈ vs, p.1 = v.1 := by
  intro h
  obtain ⟨v, hv, h⟩ := List.mem_flatMap.mp h
  obtain ⟨w, -, rfl⟩ := List.mem_map.mp h
  exact ⟨v, hv, rfl⟩

/-- The spikes from sums in windows: generalised, with the voltage `V` collected in `(lo, …]` so far. -/
theorem vrun_ok : ∀ (vs : List (K × List K)) (pre : List (K × K)) (lo V : K) (L : List K), (vs.map Prod.fst).Pairwise (· < ·) →
    (∀ p ∈ pre, ∀ v ∈ vs, p.1 < v.1) → (∀ v ∈ vs, lo < v.1) →
    (∀ t, (∀ v ∈ vs, t < v.1) → (∀ p ∈ pre, p.1 ≤ t) → sumIn pre lo t = V) → V < 10 →
    (∀ t, (∀ v ∈ vs, t < v.1) → sumIn pre lo t < 10) →
    VOK (pre ++ ungroup vs) lo L → vrun V (vs.map (fun v => (v.1, v.2.sum))) = L := by
  intro vs
  induction vs with
  | nil =>
    intro pre lo V L _ _ _ hV hV10 hlt h
    cases L with
    | nil => rfl
    | cons τ L =>
      obtain ⟨-, -, h3, -⟩ := h
      simp only [ungroup, List.flatMap_nil, List.append_nil] at h3
      exact absurd h3 (not_le.mpr (hlt τ (by simp)))
  | cons v vs ih =>
    intro pre lo V L hs hpre hlo hV hV10 hlt h
    rw [List.map_cons, List.pairwise_cons] at hs
    have hun : ungroup (v :: vs) = v.2.map (fun w => (v.1, w)) ++ ungroup vs := rfl
    have hrest : ∀ p ∈ ungroup vs, v.1 < p.1 := by
      intro p hp
      obtain ⟨u, hu, e⟩ := mem_ungroup hp
      rw [e]; exact hs.1 _ (List.mem_map_of_mem hu)
    have hle : ∀ p ∈ pre, p.1 ≤ v.1 := fun p hp => (hpre p hp v (by simp)).le
    -- the sum up to a time between the volley and the next one
    have hpre0 : ∀ t, v.1 ≤ t → sumIn pre lo t = V := by
      intro t ht
      have e1 : sumIn pre lo t = sumIn pre lo v.1 := by
        unfold sumIn
        congr 1
        refine List.map_congr_left fun p hp => ?_
        simp [hle p hp, (hle p hp).trans ht]
      rw [e1]
      -- a time before the volley, after all of `pre`
      rcases List.eq_nil_or_concat' pre with hnil | -
      · subst hnil
        have := hV lo hlo (by simp)
        simpa [sumIn] using this
      · obtain ⟨m, hm1, hm2⟩ : ∃ m, (∀ p ∈ pre, p.1 ≤ m) ∧ m < v.1 := by
          clear hV hV10 hlt h hle e1 ih
          induction pre with
          | nil => exact ⟨v.1 - 1, by simp, by linarith⟩
          | cons q pre ih2 =>
            obtain ⟨m, h1, h2⟩ := ih2 (fun p hp => hpre p (by simp [hp]))
            refine ⟨max q.1 m, ?_, max_lt (hpre q (by simp) v (by simp)) h2⟩
            intro p hp
            rcases List.mem_cons.mp hp with rfl | hp
            · exact le_max_left _ _
            · exact (h1 p hp).trans (le_max_right _ _)
        have e2 := hV m (fun u hu => by
          rcases List.mem_cons.mp hu with rfl | hu
          · exact hm2
          · exact hm2.trans (hs.1 _ (List.mem_map_of_mem hu))) hm1
        rw [← e2]
        unfold sumIn
        congr 1
        refine List.map_congr_left fun p hp => ?_
        simp [hle p hp, hm1 p hp]
    have hat : sumIn (pre ++ ungroup (v :: vs)) lo v.1 = V + v.2.sum := by
      rw [hun, sumIn_append, sumIn_append, sumIn_volley, if_pos ⟨hlo v (by simp), le_rfl⟩, sumIn_late hrest, hpre0 _ le_rfl, add_zero]
    have hbefore : ∀ t, t < v.1 → sumIn (pre ++ ungroup (v :: vs)) lo t < 10 := by
      intro t ht
      rw [hun, sumIn_append, sumIn_append, sumIn_volley, if_neg (fun hh => absurd hh.2 (not_le.mpr ht)), sumIn_late (fun p hp => ht.trans (hrest p hp)), add_zero, add_zero]
      refine hlt t fun u hu => ?_
      rcases List.mem_cons.mp hu with rfl | hu
      · exact ht
      · exact ht.trans (hs.1 _ (List.mem_map_of_mem hu))
    simp only [List.map_cons, vrun]
    split
    next h10 =>
      cases L with
      | nil =>
        have := h v.1
        rw [hat] at this
        exact absurd h10 (not_le.mpr this)
      | cons τ L =>
        obtain ⟨h1, h2, h3, h4⟩ := h
        have hτ : τ = v.1 := by
          rcases lt_trichotomy τ v.1 with hh | hh | hh
          · exact absurd h3 (not_le.mpr (hbefore τ hh))
          · exact hh
          · have := h2 v.1 hh
            rw [hat] at this
            exact absurd h10 (not_le.mpr this)
        subst hτ
        congr 1
        have hpre' : ∀ p ∈ pre ++ v.2.map (fun w => (v.1, w)), p.1 ≤ v.1 := by
          intro p hp
          rcases List.mem_append.mp hp with hp | hp
          · exact hle p hp
          · obtain ⟨w, -, rfl⟩ := List.mem_map.mp hp; exact le_rfl
        have hz : ∀ t, sumIn (pre ++ v.2.map (fun w => (v.1, w))) v.1 t = 0 := by
          intro t
          unfold sumIn
          refine List.sum_eq_zero fun x hx => ?_
          obtain ⟨p, hp, rfl⟩ := List.mem_map.mp hx
          rw [if_neg (fun hh => absurd hh.1 (not_lt.mpr (hpre' p hp)))]
        refine ih (pre ++ v.2.map (fun w => (v.1, w))) v.1 0 L hs.2 ?_ (fun u hu => hs.1 _ (List.mem_map_of_mem hu)) (fun t _ _ => hz t) (by norm_num) (fun t _ => by rw [hz]; norm_num) ?_
        · intro p hp u hu
          exact lt_of_le_of_lt (hpre' p hp) (hs.1 _ (List.mem_map_of_mem hu))
        · rw [hun, ← List.append_assoc] at h4; exact h4
    next h10 =>
      rw [hun, ← List.append_assoc] at h
      refine ih (pre ++ v.2.map (fun w => (v.1, w))) lo (V + v.2.sum) L hs.2 ?_ (fun u hu => hlo u (by simp [hu])) ?_ (not_le.mp h10) ?_ h
      · intro p hp u hu
        have hu' := hs.1 _ (List.mem_map_of_mem hu)
        rcases List.mem_append.mp hp with hp | hp
        · exact hpre p hp u (by simp [hu])
        · obtain ⟨w, -, rfl⟩ := List.mem_map.mp hp; exact hu'
      · intro t h1 h2
        rw [sumIn_append, sumIn_volley]
        by_cases ht : v.1 ≤ t
        · rw [if_pos ⟨hlo v (by simp), ht⟩, hpre0 t ht]
        · by_cases hnil : v.2 = []
          · rw [hnil]
            simp only [List.sum_nil, ite_self, add_zero]
            refine hV t ?_ (fun p hp => h2 p (by simp [hp]))
            intro u hu
            rcases List.mem_cons.mp hu with rfl | hu
            · exact not_le.mp ht
            · exact h1 u hu
          · obtain ⟨w, hw⟩ := List.exists_mem_of_ne_nil _ hnil
            exact absurd (h2 (v.1, w) (List.mem_append_right _ (List.mem_map.mpr ⟨w, hw, rfl⟩))) ht
      · intro t h1
        rw [sumIn_append, sumIn_volley]
        by_cases ht : v.1 ≤ t
        · rw [if_pos ⟨hlo v (by simp), ht⟩, hpre0 t ht]; exact not_le.mp h10
        · rw [if_neg (fun hh => ht hh.2), add_zero]
          refine hlt t fun u hu => ?_
          rcases List.mem_cons.mp hu with rfl | hu
          · exact not_le.mp ht
          · exact h1 u hu

/-- Settles conditions on sums over explicit lists of hits by cases on the order of the times. -/
macro "vok_tac" : tactic => `(tactic| (simp only [VOK, sumIn, List.map_cons, List.map_nil, List.sum_cons, List.sum_nil, ite_and]; repeat' (first | (intro _) | (apply And.intro) | linarith | split)))

/-- A neuron that is hit through `V` synapses only: its spikes from the weights arriving in time windows. -/
theorem Fits.sums {E : PEnv K} {n : ℕ} (hpar : E.net.par n = stdPar) (hs : Sane E.exp E.dt) {inj : List (ℕ × K)} {LS : ℕ → List K}
    (ws : List (K × K)) (lo : K) (hlo : ∀ p ∈ ws, lo < p.1)
    (ha : (ws.map (fun p => Item.hit p.1 .V p.2)).Perm (arriving E.net inj LS n)) (hL : VOK ws lo (LS n)) : Fits E inj LS n := by
  obtain ⟨vs, h1, h2, h3⟩ := group_exists ws
  have hL' : VOK (ungroup vs) lo (LS n) := by
    have : ∀ (L : List K) (lo : K), VOK ws lo L → VOK (ungroup vs) lo L := by
      intro L
      induction L with
      | nil => intro lo h t; rw [sumIn_perm h3]; exact h t
      | cons τ L ih =>
        rintro lo ⟨a, b, c, d⟩
        exact ⟨a, fun t ht => by rw [sumIn_perm h3]; exact b t ht, by rw [sumIn_perm h3]; exact c, ih τ d⟩
    exact this _ _ hL
  refine Fits.ofV hpar hs vs h1 h2 ?_ ?_
  · refine List.Perm.trans ?_ ha
    refine List.Perm.trans ?_ (h3.map _)
    unfold ungroup
    rw [List.map_flatMap]
    refine List.Perm.of_eq (List.flatMap_congr fun v _ => ?_)
    simp
  · refine vrun_ok vs [] lo 0 (LS n) h1 (by simp) ?_ (by simp [sumIn]) (by norm_num) (by simp [sumIn]) (by simpa using hL')
    intro v hv
    obtain ⟨w, hw⟩ := List.exists_mem_of_ne_nil _ (h2 v hv)
    exact hlo (v.1, w) (h3.subset (List.mem_flatMap.mpr ⟨v, hv, List.mem_map.mpr ⟨w, hw, rfl⟩⟩))

end Axon
