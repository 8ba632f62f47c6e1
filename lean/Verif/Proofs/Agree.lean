import Verif.Spec.Agree
import Verif.Props.PredReplay
import Verif.Proofs.PredNet
import Verif.Proofs.Train
import Verif.Props.Simulator

/-! # The two simulators on networks of potential synapses -/
set_option linter.unusedSectionVars false
namespace Axon
open Spec
variable {K : Type*} [Field K] [LinearOrder K] [IsStrictOrderedRing K] [FloorRing K]

/-- A state with a potential only. -/
def vst (V : K) : NState K := ⟨V, 0, 0, 0⟩

theorem predict_vst {exp : K → K} {dt : K} (hs : Sane exp dt) {p : Params K} (htm : 0 < p.tm) (htf : 0 < p.tf) {V : K} {r : Option ℤ}
    (h : predictSteps exp p (vst V) dt = .ok r) : r = if p.Vt ≤ V then some 0 else none := by
  have hE : ∀ d, expectedV exp p (vst V) d = V := by intro d; simp [expectedV, vst]
  obtain ⟨h1, h2⟩ := C31_prediction_is_first_crossing exp hs.exp p (vst V) dt hs.pos hs.steps htm htf (by simp [vst]) (by simp [vst])
  have hms : (0 : ℤ) < maxSteps dt := by
    have := maxSteps_gt (x := 0) hs.pos le_rfl (by linarith [hs.small])
    simpa using this
  split
  next hV =>
    have := (h1 0).mpr ⟨hms, ⟨le_rfl, by rw [hE]; exact hV⟩, fun m hm => hm.1⟩
    rw [h] at this; simpa using this
  next hV =>
    have := h2.mpr (fun m _ _ => by rw [hE]; exact not_le.mp hV)
    rw [h] at this; simpa using this

theorem pass_vst (exp : K → K) (p : Params K) (V t l : K) : (if t = l then vst V else pass exp p (vst V) (t - l)) = vst V := by
  split
  · rfl
  · simp [pass, vst]

theorem bumps_vst {V : K} {hs : List (SynKind × K)} (h : ∀ q ∈ hs, q.1 = .V) : bumps (vst V) hs = some (vst (V + (hs.map Prod.snd).sum)) := by
  induction hs generalizing V with
  | nil => simp [bumps]
  | cons q hs ih =>
    obtain ⟨k, w⟩ := q
    have : k = .V := h (k, w) (by simp)
    subst this
    simp only [bumps, bump, vst, Option.bind_some, List.map_cons, List.sum_cons]
    have := ih (V := V + w) (fun q hq => h q (by simp [hq]))
    rw [vst] at this
    rw [this, add_assoc]; rfl

/-- One volley on a neuron whose synapses all act on the potential. -/
theorem reacts_vst {E : PEnv K} {n : ℕ} (hs : Sane E.exp E.dt) (htm : 0 < (E.net.par n).tm) (htf : 0 < (E.net.par n).tf) {V l : K} {v : Volley K} {vs L}
    (hv : ∀ q ∈ v.hits, q.1 = .V) (hsort : ((v :: vs).map Volley.time).Pairwise (· < ·)) (h : Reacts E n (vst V) l (v :: vs) L) :
    if (E.net.par n).Vt ≤ V + (v.hits.map Prod.snd).sum then ∃ L', L = v.time :: L' ∧ Reacts E n (vst (E.net.par n).Vreset) v.time vs L'
    else Reacts E n (vst (V + (v.hits.map Prod.snd).sum)) v.time vs L := by
  cases h with
  | @quiet _ _ _ _ _ s' r h1 h2 h3 h4 =>
    rw [pass_vst, bumps_vst hv] at h1
    simp only [Option.some.injEq] at h1
    subst h1
    have := predict_vst hs htm htf h2
    split at this
    next hV =>
      exfalso
      obtain ⟨v', hv', hlt⟩ := h3 0 this
      rw [List.map_cons, List.pairwise_cons] at hsort
      have := hsort.1 v'.time (List.mem_map.mpr ⟨v', List.mem_of_mem_head? hv', rfl⟩)
      simp at hlt; linarith
    next hV => rw [if_neg hV]; exact h4
  | @fires _ _ _ _ L s' m h1 h2 h3 h4 =>
    rw [pass_vst, bumps_vst hv] at h1
    simp only [Option.some.injEq] at h1
    subst h1
    have := predict_vst hs htm htf h2
    split at this
    next hV =>
      simp only [Option.some.injEq] at this
      subst this
      rw [if_pos hV]
      exact ⟨L, by simp, h4⟩
    next hV => cases this

/-- The spikes are among the times of the volleys. -/
theorem reacts_sublist {E : PEnv K} {n : ℕ} (hs : Sane E.exp E.dt) (htm : 0 < (E.net.par n).tm) (htf : 0 < (E.net.par n).tf) :
    ∀ (vs : List (Volley K)) {V l : K} {L}, (∀ v ∈ vs, ∀ q ∈ v.hits, q.1 = .V) → (vs.map Volley.time).Pairwise (· < ·) →
      Reacts E n (vst V) l vs L → L.Sublist (vs.map Volley.time) := by
  intro vs
  induction vs with
  | nil => intro V l L _ _ h; cases h; exact List.Sublist.refl _
  | cons v vs ih =>
    intro V l L h1 h2 h
    have h3 := reacts_vst hs htm htf (h1 v (by simp)) h2 h
    rw [List.map_cons, List.pairwise_cons] at h2
    rw [List.map_cons]
    split at h3
    · obtain ⟨L', rfl, h4⟩ := h3
      exact (ih (fun v hv => h1 v (by simp [hv])) h2.2 h4).cons_cons _
    · exact (ih (fun v hv => h1 v (by simp [hv])) h2.2 h3).cons _

/-- The weight a list of volleys brings at time `x`. -/
def weightAt (vs : List (Volley K)) (x : K) : K := (vs.map (fun v => if v.time = x then (v.hits.map Prod.snd).sum else 0)).sum

theorem weightAt_none {vs : List (Volley K)} {x : K} (h : ∀ v ∈ vs, v.time ≠ x) : weightAt vs x = 0 := by
  unfold weightAt
  refine List.sum_eq_zero ?_
  intro y hy
  obtain ⟨v, hv, rfl⟩ := List.mem_map.mp hy
  rw [if_neg (h v hv)]

/-- Volleys on the time grid, and the same weights step by step. -/
theorem reacts_steps {E : PEnv K} {n : ℕ} (hs : Sane E.exp E.dt) (htm : 0 < (E.net.par n).tm) (htf : 0 < (E.net.par n).tf)
    (hres : (E.net.par n).Vreset < (E.net.par n).Vt) (m : ℕ) (v : ℕ → K) (f : ℕ → Bool) :
    ∀ (vs : List (Volley K)) (a : ℕ) {l : K} {L}, (∀ u ∈ vs, ∀ q ∈ u.hits, q.1 = .V) → (vs.map Volley.time).Pairwise (· < ·) →
      (∀ u ∈ vs, ∃ j : ℕ, a < j ∧ u.time = j * E.dt) → v a < (E.net.par n).Vt →
      (∀ i, a ≤ i → i < m → (v (i + 1), f (i + 1)) = if (E.net.par n).Vt ≤ v i + weightAt vs (((i + 1 : ℕ) : K) * E.dt) then ((E.net.par n).Vreset, true)
        else (v i + weightAt vs (((i + 1 : ℕ) : K) * E.dt), false)) →
      Reacts E n (vst (v a)) l vs L → ∀ i, a < i → i ≤ m → (f i = true ↔ (i : K) * E.dt ∈ L) := by
  have inj : ∀ a b : ℕ, (a : K) * E.dt = b * E.dt → a = b := by
    intro a b h
    exact_mod_cast mul_right_cancel₀ hs.pos.ne' h
  have idle : ∀ (vs : List (Volley K)) (a j : ℕ), (∀ u ∈ vs, ∃ k : ℕ, j ≤ k ∧ u.time = k * E.dt) → v a < (E.net.par n).Vt → 
      (∀ i, a ≤ i → i < m → (v (i + 1), f (i + 1)) = if (E.net.par n).Vt ≤ v i + weightAt vs (((i + 1 : ℕ) : K) * E.dt) then ((E.net.par n).Vreset, true)
        else (v i + weightAt vs (((i + 1 : ℕ) : K) * E.dt), false)) →
      ∀ i, a ≤ i → i < j → i ≤ m → v i = v a ∧ (a < i → f i = false) := by
    intro vs a j hvs ha hstep i
    induction i with
    | zero => intro h1 _ _; exact ⟨by rw [Nat.le_zero.mp h1], fun h => by omega⟩
    | succ i ih =>
      intro h1 h2 h3
      rcases Nat.eq_or_lt_of_le h1 with h1 | h1
      · exact ⟨by rw [h1], fun h => by omega⟩
      · obtain ⟨e1, -⟩ := ih (by omega) (by omega) (by omega)
        have h := hstep i (by omega) (by omega)
        rw [weightAt_none (by
          intro u hu e
          obtain ⟨k, hk, ek⟩ := hvs u hu
          rw [ek] at e
          have := inj _ _ e; omega), add_zero, e1, if_neg (not_le.mpr ha)] at h
        rw [Prod.mk.injEq] at h
        exact ⟨h.1, fun _ => h.2⟩
  intro vs
  induction vs with
  | nil =>
    intro a l L _ _ _ ha hstep h i hi him
    cases h
    have := (idle [] a (i + 1) (by simp) ha hstep i hi.le (by omega) him).2 hi
    simp [this]
  | cons u vs ih =>
    intro a l L h1 h2 h3 ha hstep h i hi him
    obtain ⟨j, haj, hj⟩ := h3 u (by simp)
    have h2' := h2
    rw [List.map_cons, List.pairwise_cons] at h2
    have hlater : ∀ w ∈ vs, ∃ k : ℕ, j < k ∧ w.time = k * E.dt := by
      intro w hw
      obtain ⟨k, -, ek⟩ := h3 w (by simp [hw])
      refine ⟨k, ?_, ek⟩
      have := h2.1 w.time (List.mem_map.mpr ⟨w, hw, rfl⟩)
      rw [hj, ek] at this
      exact_mod_cast lt_of_mul_lt_mul_right this hs.pos.le
    have hge : ∀ w ∈ u :: vs, ∃ k : ℕ, j ≤ k ∧ w.time = k * E.dt := by
      intro w hw
      rcases List.mem_cons.mp hw with rfl | hw
      · exact ⟨j, le_rfl, hj⟩
      · obtain ⟨k, hk, ek⟩ := hlater w hw; exact ⟨k, hk.le, ek⟩
    have hmemL : ∀ x ∈ L, ∃ w ∈ u :: vs, x = w.time := by
      intro x hx
      obtain ⟨w, hw, e⟩ := List.mem_map.mp ((reacts_sublist hs htm htf (u :: vs) h1 h2' h).subset hx)
      exact ⟨w, hw, e.symm⟩
    rcases lt_or_ge i j with hij | hij
    · have := (idle (u :: vs) a j hge ha hstep i hi.le hij him).2 hi
      rw [this]
      refine ⟨fun h => by simp at h, fun hm => ?_⟩
      exfalso
      obtain ⟨w, hw, e⟩ := hmemL _ hm
      obtain ⟨k, hk, ek⟩ := hge w hw
      rw [ek] at e
      have := inj _ _ e; omega
    · have hvj : v (j - 1) = v a := (idle (u :: vs) a j hge ha hstep (j - 1) (by omega) (by omega) (by omega)).1
      have hst := hstep (j - 1) (by omega) (by omega)
      rw [show j - 1 + 1 = j by omega] at hst
      have hw : weightAt (u :: vs) ((j : K) * E.dt) = (u.hits.map Prod.snd).sum := by
        have := weightAt_none (vs := vs) (x := (j : K) * E.dt) (by
          intro w hw e
          obtain ⟨k, hk, ek⟩ := hlater w hw
          rw [ek] at e
          have := inj _ _ e; omega)
        unfold weightAt at this ⊢
        rw [List.map_cons, List.sum_cons, this, hj]; simp
      rw [hw, hvj] at hst
      have hr := reacts_vst hs htm htf (h1 u (by simp)) h2' h
      have hstep' : ∀ i, j ≤ i → i < m → (v (i + 1), f (i + 1)) = if (E.net.par n).Vt ≤ v i + weightAt vs (((i + 1 : ℕ) : K) * E.dt) then ((E.net.par n).Vreset, true)
        else (v i + weightAt vs (((i + 1 : ℕ) : K) * E.dt), false) := by
        intro i hi him
        have := hstep i (by omega) him
        have e : weightAt (u :: vs) (((i + 1 : ℕ) : K) * E.dt) = weightAt vs (((i + 1 : ℕ) : K) * E.dt) := by
          unfold weightAt
          rw [List.map_cons, List.sum_cons, if_neg (by
            rw [hj]; intro e; have := inj _ _ e; omega), zero_add]
        rw [e] at this; exact this
      split at hr
      next hV =>
        obtain ⟨L', rfl, hr⟩ := hr
        rw [if_pos hV, Prod.mk.injEq] at hst
        rcases Nat.eq_or_lt_of_le hij with e | hlt
        · subst e
          simp [hst.2, hj]
        · have := ih j (fun w hw => h1 w (by simp [hw])) h2.2 hlater (by rw [hst.1]; exact hres) hstep' (by rw [hst.1]; exact hr) i hlt him
          rw [this, List.mem_cons]
          refine ⟨Or.inr, fun h => h.resolve_left fun e => ?_⟩
          rw [hj] at e
          have := inj _ _ e; omega
      next hV =>
        rw [if_neg hV, Prod.mk.injEq] at hst
        rcases Nat.eq_or_lt_of_le hij with e | hlt
        · subst e
          rw [hst.2]
          refine ⟨fun h => by simp at h, fun hm => ?_⟩
          exfalso
          have := (reacts_sublist hs htm htf vs (fun w hw => h1 w (by simp [hw])) h2.2 hr).subset hm
          obtain ⟨w, hw, e⟩ := List.mem_map.mp this
          have := h2.1 w.time (List.mem_map.mpr ⟨w, hw, rfl⟩)
          rw [hj, e] at this
          exact absurd this (lt_irrefl _)
        · exact ih j (fun w hw => h1 w (by simp [hw])) h2.2 hlater (by rw [hst.1]; exact not_le.mp hV) hstep' (by rw [hst.1]; exact hr) i hlt him

/-- What an item brings at time `x`. -/
def itemW (x : K) : Item K → K
  | .hit t _ w => if t = x then w else 0
  | _ => 0

theorem weightAt_items (vs : List (Volley K)) (x : K) : weightAt vs x = ((vs.flatMap Volley.items).map (itemW x)).sum := by
  unfold weightAt
  induction vs with
  | nil => rfl
  | cons v vs ih =>
    rw [List.map_cons, List.sum_cons, List.flatMap_cons, List.map_append, List.sum_append, ih]
    congr 1
    unfold Volley.items
    rw [List.map_map]
    by_cases h : v.time = x
    · rw [if_pos h]; congr 1
      refine List.map_congr_left fun q _ => ?_
      simp [itemW, h]
    · rw [if_neg h, eq_comm]
      refine List.sum_eq_zero ?_
      intro y hy
      obtain ⟨q, -, rfl⟩ := List.mem_map.mp hy
      simp [itemW, h]

/-- A neuron that spikes at every volley. -/
theorem reacts_all {E : PEnv K} {n : ℕ} (hs : Sane E.exp E.dt) (htm : 0 < (E.net.par n).tm) (htf : 0 < (E.net.par n).tf)
    (hr : 0 ≤ (E.net.par n).Vreset) :
    ∀ (vs : List (Volley K)) {V l : K} {L}, 0 ≤ V → (∀ v ∈ vs, ∀ q ∈ v.hits, q.1 = .V) → (∀ v ∈ vs, (E.net.par n).Vt ≤ (v.hits.map Prod.snd).sum) →
      (vs.map Volley.time).Pairwise (· < ·) → Reacts E n (vst V) l vs L → L = vs.map Volley.time := by
  intro vs
  induction vs with
  | nil => intro V l L _ _ _ _ h; cases h; rfl
  | cons v vs ih =>
    intro V l L hV h1 hw h2 h
    have h3 := reacts_vst hs htm htf (h1 v (by simp)) h2 h
    rw [List.map_cons, List.pairwise_cons] at h2
    have := hw v (by simp)
    rw [if_pos (by linarith)] at h3
    obtain ⟨L', rfl, h4⟩ := h3
    rw [List.map_cons, ih hr (fun v hv => h1 v (by simp [hv])) (fun v hv => hw v (by simp [hv])) h2.2 h4]

section core
variable {E : PEnv K} {s0 : ℕ → NState K} {last : ℕ → K} {inj : List (ℕ × K)} {L : ℕ → List K}

/-- Everything known about the volleys on one neuron. -/
theorem neuron_volleys (hV : PotentialOnly E.net E.dt) (hrest : Resting E.net s0) (hcon : Consistent E s0 last inj L) {n : ℕ} (hn : n ∈ E.net.neurons) :
    ∃ vs : List (Volley K), (vs.map Volley.time).Pairwise (· < ·) ∧ (∀ v ∈ vs, v.hits ≠ []) ∧ (∀ v ∈ vs, ∀ q ∈ v.hits, q.1 = .V) ∧
      (vs.flatMap Volley.items).Perm (arriving E.net inj L n) ∧ Reacts E n (vst (s0 n).V) (last n) vs (L n) := by
  obtain ⟨vs, h1, h2, h3, h4⟩ := hcon n
  refine ⟨vs, h1, h2, ?_, h3, ?_⟩
  · intro v hv q hq
    have : Item.hit v.time q.1 q.2 ∈ arriving E.net inj L n :=
      h3.mem_iff.mp (List.mem_flatMap.mpr ⟨v, hv, List.mem_map.mpr ⟨q, hq, rfl⟩⟩)
    unfold arriving at this
    rcases List.mem_append.mp this with h | h
    · obtain ⟨x, -, e⟩ := List.mem_map.mp h
      simp only [Item.hit.injEq] at e; exact e.2.1.symm
    · obtain ⟨s, hs, h⟩ := List.mem_flatMap.mp h
      obtain ⟨t, -, e⟩ := List.mem_map.mp h
      simp only [Item.hit.injEq] at e
      rw [← e.2.1]; exact (hV s (List.mem_of_mem_filter hs)).1
  · have : s0 n = vst (s0 n).V := by
      obtain ⟨-, e1, e2, e3⟩ := hrest n hn
      rw [vst]
      cases hh : s0 n
      rw [hh] at e1 e2 e3
      simp only at e1 e2 e3
      simp [e1, e2, e3]
    rw [← this]; exact h4

/-- Where a spike comes from. -/
theorem spike_source (hs : Sane E.exp E.dt) (hpos : ∀ n ∈ E.net.neurons, 0 < (E.net.par n).tm ∧ 0 < (E.net.par n).tf) (hV : PotentialOnly E.net E.dt)
    (hrest : Resting E.net s0) (hcon : Consistent E s0 last inj L) {n : ℕ} (hn : n ∈ E.net.neurons) {x : K} (hx : x ∈ L n) :
    (n, x) ∈ inj ∨ ∃ s ∈ E.net.syns, s.post = n ∧ ∃ t ∈ L s.pre, x = t + s.delay := by
  obtain ⟨vs, h1, h2, h3, h4, h5⟩ := neuron_volleys hV hrest hcon hn
  have := (reacts_sublist hs (hpos n hn).1 (hpos n hn).2 vs h3 h1 h5).subset hx
  obtain ⟨v, hv, rfl⟩ := List.mem_map.mp this
  obtain ⟨q, hq⟩ := List.exists_mem_of_ne_nil _ (h2 v hv)
  have : Item.hit v.time q.1 q.2 ∈ arriving E.net inj L n :=
    h4.mem_iff.mp (List.mem_flatMap.mpr ⟨v, hv, List.mem_map.mpr ⟨q, hq, rfl⟩⟩)
  unfold arriving at this
  rcases List.mem_append.mp this with h | h
  · obtain ⟨y, hy, e⟩ := List.mem_map.mp h
    simp only [Item.hit.injEq] at e
    obtain ⟨h6, h7⟩ := List.mem_filter.mp hy
    simp only [decide_eq_true_eq] at h7
    left; rw [← e.1, ← h7]; exact h6
  · obtain ⟨s, hs, h⟩ := List.mem_flatMap.mp h
    obtain ⟨t, ht, e⟩ := List.mem_map.mp h
    simp only [Item.hit.injEq] at e
    obtain ⟨h6, h7⟩ := List.mem_filter.mp hs
    exact Or.inr ⟨s, h6, by simpa using h7, t, ht, e.1.symm⟩

theorem outside_silent (wf : WellFormed E.net) (hg : GridInputs E.net E.dt s0 inj) (hcon : Consistent E s0 last inj L) {n : ℕ} (hn : n ∉ E.net.neurons) :
    L n = [] := by
  obtain ⟨vs, h1, h2, h3, h4⟩ := hcon n
  have harr : arriving E.net inj L n = [] := by
    unfold arriving
    rw [List.filter_eq_nil_iff.mpr, List.filter_eq_nil_iff.mpr]
    · rfl
    · intro s hs hh; exact hn (by simp at hh; rw [← hh]; exact wf.target s hs)
    · intro q hq hh; exact hn (by simp at hh; rw [← hh]; exact (hg.2 q hq).1.1)
  rw [harr] at h3
  cases vs with
  | nil => generalize L n = x at h4; cases h4; rfl
  | cons v vs =>
    have := h3.eq_nil
    simp only [List.flatMap_cons, List.append_eq_nil_iff] at this
    exact absurd (List.map_eq_nil_iff.mp this.1) (h2 v (by simp))

theorem spikes_nodup (hs : Sane E.exp E.dt) (hpos : ∀ n ∈ E.net.neurons, 0 < (E.net.par n).tm ∧ 0 < (E.net.par n).tf) (hV : PotentialOnly E.net E.dt)
    (hrest : Resting E.net s0) (hcon : Consistent E s0 last inj L) {n : ℕ} (hn : n ∈ E.net.neurons) : (L n).Pairwise (· < ·) := by
  obtain ⟨vs, h1, h2, h3, h4, h5⟩ := neuron_volleys hV hrest hcon hn
  exact h1.sublist (reacts_sublist hs (hpos n hn).1 (hpos n hn).2 vs h3 h1 h5)

/-- All spikes are on the time grid; those of neurons without injected spikes come after time 0. -/
theorem spikes_grid (hs : Sane E.exp E.dt) (hpos : ∀ n ∈ E.net.neurons, 0 < (E.net.par n).tm ∧ 0 < (E.net.par n).tf) (wf : WellFormed E.net)
    (hV : PotentialOnly E.net E.dt) (hg : GridInputs E.net E.dt s0 inj) (hrest : Resting E.net s0) (hcon : Consistent E s0 last inj L) :
    ∀ n, ∀ x ∈ L n, ∃ j : ℕ, x = j * E.dt ∧ ((∀ q ∈ inj, q.1 ≠ n) → 0 < j) := by
  set P := (E.net.syns.flatMap (fun s => L s.pre)).toFinset with hP
  have key : ∀ c, ∀ n, ∀ x ∈ L n, (P.filter (· < x)).card < c → ∃ j : ℕ, x = j * E.dt ∧ ((∀ q ∈ inj, q.1 ≠ n) → 0 < j) := by
    intro c
    induction c with
    | zero => intro n x _ h; omega
    | succ c ih =>
      intro n x hx hc
      have hn : n ∈ E.net.neurons := by
        by_contra hn
        rw [outside_silent wf hg hcon hn] at hx; cases hx
      rcases spike_source hs hpos hV hrest hcon hn hx with h | ⟨s, hsy, rfl, t, ht, rfl⟩
      · obtain ⟨-, j, hj⟩ := hg.2 _ h
        exact ⟨j, hj, fun h' => absurd rfl (h' _ h)⟩
      · obtain ⟨-, k, hk, hd⟩ := hV s hsy
        have hd0 : 0 < s.delay := by rw [hd]; exact mul_pos (by exact_mod_cast hk) hs.pos
        have htP : t ∈ P := List.mem_toFinset.mpr (List.mem_flatMap.mpr ⟨s, hsy, ht⟩)
        obtain ⟨j, hj, -⟩ := ih s.pre t ht (by
          refine lt_of_lt_of_le (Finset.card_lt_card (Finset.ssubset_iff_subset_ne.mpr ⟨?_, ?_⟩)) (Nat.lt_succ_iff.mp hc)
          · intro y hy
            obtain ⟨h1, h2⟩ := Finset.mem_filter.mp hy
            exact Finset.mem_filter.mpr ⟨h1, by linarith⟩
          · intro e
            have : t ∈ P.filter (· < t + s.delay) := Finset.mem_filter.mpr ⟨htP, by linarith⟩
            rw [← e] at this
            exact absurd (Finset.mem_filter.mp this).2 (lt_irrefl _))
        exact ⟨j + k, by rw [hj, hd]; push_cast; ring, fun _ => by omega⟩
  intro n x hx
  exact key _ n x hx (Nat.lt_succ_self _)

/-- An input spikes exactly when it is told to. -/
theorem input_spikes (hs : Sane E.exp E.dt) (hpos : ∀ n ∈ E.net.neurons, 0 < (E.net.par n).tm ∧ 0 < (E.net.par n).tf) (wf : WellFormed E.net)
    (hV : PotentialOnly E.net E.dt) (hg : GridInputs E.net E.dt s0 inj) (hrest : Resting E.net s0) (hcon : Consistent E s0 last inj L)
    {n : ℕ} (hin : PureInput E.net s0 n) (x : K) : x ∈ L n ↔ (n, x) ∈ inj := by
  obtain ⟨hn, hno, hV0, hr⟩ := hin
  constructor
  · intro hx
    rcases spike_source hs hpos hV hrest hcon hn hx with h | ⟨s, hsy, e, -⟩
    · exact h
    · exact absurd e (hno s hsy)
  · intro hx
    obtain ⟨vs, h1, h2, h3, h4, h5⟩ := neuron_volleys hV hrest hcon hn
    have harr : arriving E.net inj L n = (inj.filter (fun q => q.1 = n)).map (fun q => .hit q.2 .V (E.net.par n).Vt) := by
      unfold arriving
      have h0 : E.net.syns.filter (fun s => s.post = n) = [] := List.filter_eq_nil_iff.mpr (fun s hsy => by simpa using hno s hsy)
      rw [h0]; simp
    have hall := reacts_all hs (hpos n hn).1 (hpos n hn).2 hr vs hV0 h3 (by
      intro v hv
      have hw : ∀ q ∈ v.hits, q.2 = (E.net.par n).Vt := by
        intro q hq
        have : Item.hit v.time q.1 q.2 ∈ arriving E.net inj L n :=
          h4.mem_iff.mp (List.mem_flatMap.mpr ⟨v, hv, List.mem_map.mpr ⟨q, hq, rfl⟩⟩)
        rw [harr] at this
        obtain ⟨y, -, e⟩ := List.mem_map.mp this
        simp only [Item.hit.injEq] at e; exact e.2.2.symm
      have hvt : 0 < (E.net.par n).Vt := lt_of_le_of_lt hr (wf.reset n hn)
      have hne := h2 v hv
      generalize v.hits = hs at hw hne
      cases hs with
      | nil => exact absurd rfl hne
      | cons q hs =>
        have : 0 ≤ (hs.map Prod.snd).sum := List.sum_nonneg (by
          intro x hx
          obtain ⟨y, hy, rfl⟩ := List.mem_map.mp hx
          rw [hw y (by simp [hy])]; exact hvt.le)
        simp only [List.map_cons, List.sum_cons, hw q (by simp)]; linarith) h1 h5
    have : Item.hit x .V (E.net.par n).Vt ∈ vs.flatMap Volley.items := by
      rw [h4.mem_iff, harr]
      exact List.mem_map.mpr ⟨(n, x), List.mem_filter.mpr ⟨hx, by simp⟩, rfl⟩
    obtain ⟨v, hv, h⟩ := List.mem_flatMap.mp this
    obtain ⟨q, -, e⟩ := List.mem_map.mp h
    simp only [Item.hit.injEq] at e
    rw [hall]
    exact List.mem_map.mpr ⟨v, hv, e.1⟩

theorem arrInj_grid {dt : K} (hdt : 0 < dt) (j k : ℕ) (hk : 0 < k) : arrInj dt ((j : K) * dt) ((k : K) * dt) = j + k := by
  unfold arrInj firstStep
  have : ((j : K) * dt + k * dt) / dt = ((j + k : ℕ) : K) := by push_cast; field_simp
  rw [this, Nat.ceil_natCast]; omega

theorem arrInt_grid {dt : K} (hdt : 0 < dt) (j k : ℕ) (hk : 0 < k) : arrInt dt j ((k : K) * dt) = j + k := by
  rw [C14_internal_delay dt hdt]
  have : ((k : K) * dt) / dt = (k : K) := by field_simp
  rw [this, Nat.ceil_natCast]; omega

/-- Sum of weights in a list without repetitions. -/
theorem sum_once {l : List K} (h : l.Nodup) (d x w : K) :
    (l.map (fun t => if t + d = x then w else 0)).sum = if x - d ∈ l then w else 0 := by
  induction l with
  | nil => simp
  | cons a l ih =>
    rw [List.nodup_cons] at h
    rw [List.map_cons, List.sum_cons, ih h.2]
    by_cases ha : a + d = x
    · have hx : x - d = a := by rw [← ha]; ring
      rw [if_pos ha, hx, if_neg h.1, if_pos (by simp)]; ring
    · have hx : x - d ≠ a := fun e => ha (by rw [← e]; ring)
      rw [if_neg ha]; simp [hx]

theorem run_input_other (hV : PotentialOnly E.net E.dt) (F : ℕ → ℕ → Bool) {k : SynKind} (hk : k ≠ .V) (n i : ℕ) : input E.net E.dt inj F k n i = 0 := by
  unfold input
  rw [List.filter_eq_nil_iff.mpr]
  · rfl
  · intro s hs hh
    simp only [decide_eq_true_eq] at hh
    exact hk (by rw [← hh.2, (hV s hs).1])

theorem nstep_vst (p : Params K) (dt V : K) (a : SynKind → K) (h : ∀ k, k ≠ .V → a k = 0) :
    nstep p dt (vst V) a = if p.Vt ≤ V + a .V then (vst p.Vreset, true) else (vst (V + a .V), false) := by
  unfold nstep vst
  simp [h .ge (by decide), h .gf (by decide), h .gate (by decide)]

/-- In the stepped engine only the potentials ever differ from zero. -/
theorem run_vst (hV : PotentialOnly E.net E.dt) (hrest : Resting E.net s0) {S : ℕ → ℕ → NState K} {F : ℕ → ℕ → Bool} (hrun : IsRun E.net E.dt inj s0 S F)
    {n : ℕ} (hn : n ∈ E.net.neurons) : ∀ i, S i n = vst (S i n).V := by
  intro i
  induction i with
  | zero =>
    rw [(hrun.start n).1]
    obtain ⟨-, h1, h2, h3⟩ := hrest n hn
    cases h : s0 n with
    | mk V ge gf gate => rw [h] at h1 h2 h3; simp at h1 h2 h3; subst h1 h2 h3; rfl
  | succ i ih =>
    have := hrun.step i n hn
    rw [ih, nstep_vst _ _ _ _ (fun k hk => run_input_other hV F hk n (i + 1))] at this
    split at this <;> (rw [(Prod.mk.inj this).1]; rfl)

theorem run_step_V (hV : PotentialOnly E.net E.dt) (hrest : Resting E.net s0) {S : ℕ → ℕ → NState K} {F : ℕ → ℕ → Bool} (hrun : IsRun E.net E.dt inj s0 S F)
    {n : ℕ} (hn : n ∈ E.net.neurons) (i : ℕ) :
    ((S (i + 1) n).V, F (i + 1) n) = if (E.net.par n).Vt ≤ (S i n).V + input E.net E.dt inj F .V n (i + 1) then ((E.net.par n).Vreset, true)
      else ((S i n).V + input E.net E.dt inj F .V n (i + 1), false) := by
  have := hrun.step i n hn
  rw [run_vst hV hrest hrun hn i, nstep_vst _ _ _ _ (fun k hk => run_input_other hV F hk n (i + 1))] at this
  split at this
  · rename_i h
    rw [if_pos h]
    obtain ⟨h1, h2⟩ := Prod.mk.inj this
    rw [h1, h2]; rfl
  · rename_i h
    rw [if_neg h]
    obtain ⟨h1, h2⟩ := Prod.mk.inj this
    rw [h1, h2]; rfl

/-- Inputs are not excited by anything in the stepped engine. -/
theorem run_input_silent (hV : PotentialOnly E.net E.dt) (hrest : Resting E.net s0) {S : ℕ → ℕ → NState K} {F : ℕ → ℕ → Bool}
    (hrun : IsRun E.net E.dt inj s0 S F) {n : ℕ} (hn : n ∈ E.net.neurons) (hno : ∀ s ∈ E.net.syns, s.post ≠ n) : ∀ i, F i n = false := by
  have h0 : ∀ i, input E.net E.dt inj F .V n i = 0 := by
    intro i
    unfold input
    rw [List.filter_eq_nil_iff.mpr]
    · rfl
    · intro s hs hh
      simp only [decide_eq_true_eq] at hh
      exact hno s hs hh.1
  have : ∀ i, (S i n).V < (E.net.par n).Vt ∧ F i n = false := by
    intro i
    induction i with
    | zero => rw [(hrun.start n).1]; exact ⟨(hrest n hn).1, (hrun.start n).2⟩
    | succ i ih =>
      have := run_step_V hV hrest hrun hn i
      rw [h0, add_zero, if_neg (not_le.mpr ih.1)] at this
      obtain ⟨h1, h2⟩ := Prod.mk.inj this
      rw [h1, h2]; exact ⟨ih.1, rfl⟩
  exact fun i => (this i).2

/-- What one synapse brings in one step. -/
theorem synapse_brings (hs : Sane E.exp E.dt) (hpos : ∀ n ∈ E.net.neurons, 0 < (E.net.par n).tm ∧ 0 < (E.net.par n).tf) (wf : WellFormed E.net)
    (hV : PotentialOnly E.net E.dt) (hg : GridInputs E.net E.dt s0 inj) (hrest : Resting E.net s0) (hcon : Consistent E s0 last inj L)
    {S : ℕ → ℕ → NState K} {F : ℕ → ℕ → Bool} (hrun : IsRun E.net E.dt inj s0 S F) {i : ℕ}
    (ih : ∀ j < i, ∀ n, (∀ q ∈ inj, q.1 ≠ n) → (F j n = true ↔ (j : K) * E.dt ∈ L n)) {s : Synapse K} (hsy : s ∈ E.net.syns) :
    ((L s.pre).map (fun t => if t + s.delay = (i : K) * E.dt then s.weight else 0)).sum = (arrivals E.dt inj F s i : K) * s.weight := by
  have hnd : (L s.pre).Nodup := by
    by_cases hn : s.pre ∈ E.net.neurons
    · exact (spikes_nodup hs hpos hV hrest hcon hn).imp (fun h => h.ne)
    · rw [outside_silent wf hg hcon hn]; exact List.nodup_nil
  rw [sum_once hnd]
  obtain ⟨-, k, hk, hd⟩ := hV s hsy
  have hcast : ∀ a b : ℕ, (a : K) * E.dt = b * E.dt → a = b := by
    intro a b h
    exact_mod_cast mul_right_cancel₀ hs.pos.ne' h
  have harr : arrivals E.dt inj F s i = if (i : K) * E.dt - s.delay ∈ L s.pre then 1 else 0 := by
    unfold arrivals
    by_cases hq : ∃ q ∈ inj, q.1 = s.pre
    · obtain ⟨q0, hq0, e0⟩ := hq
      have hin : PureInput E.net s0 s.pre := by rw [← e0]; exact (hg.2 q0 hq0).1
      have hF := run_input_silent hV hrest hrun hin.1 hin.2.1
      have h2 : (List.range i).countP (fun j => decide (F j s.pre = true ∧ arrInt E.dt j s.delay = i)) = 0 := by
        rw [List.countP_eq_zero]; intro j _; simp [hF j]
      have h1 : inj.countP (fun q => decide (q.1 = s.pre ∧ arrInj E.dt q.2 s.delay = i)) = inj.count (s.pre, (i : K) * E.dt - s.delay) := by
        unfold List.count
        refine List.countP_congr ?_
        intro q hq
        obtain ⟨-, j, hj⟩ := hg.2 q hq
        simp only [decide_eq_true_eq, beq_iff_eq]
        rw [hj, hd, arrInj_grid hs.pos j k hk]
        constructor
        · rintro ⟨h1, h2⟩
          refine Prod.ext h1 ?_
          rw [hj, ← h2]; push_cast; ring
        · intro h
          refine ⟨by rw [h], hcast _ _ ?_⟩
          have := congrArg Prod.snd h
          simp only [hj] at this
          push_cast; rw [add_mul, this]; ring
      rw [h1, h2, add_zero, hg.1.count]
      congr 1
      exact propext (input_spikes hs hpos wf hV hg hrest hcon hin _).symm
    · have hno : ∀ q ∈ inj, q.1 ≠ s.pre := fun q hq' e => hq ⟨q, hq', e⟩
      have h1 : inj.countP (fun q => decide (q.1 = s.pre ∧ arrInj E.dt q.2 s.delay = i)) = 0 := by
        rw [List.countP_eq_zero]; intro q hq'; simp [hno q hq']
      rw [h1, zero_add]
      by_cases hki : k ≤ i
      · rw [countP_range_unique _ (i - k)]
        · have hx : (i : K) * E.dt - s.delay = ((i - k : ℕ) : K) * E.dt := by rw [hd, Nat.cast_sub hki]; ring
          have hf := ih (i - k) (by omega) s.pre hno
          rw [hx, hd, arrInt_grid hs.pos _ _ hk]
          have e : i - k + k = i := by omega
          have e' : i - k < i := by omega
          simp only [← hf, e, e', true_and, and_true, decide_eq_true_eq]
        · intro j hj
          simp only [decide_eq_true_eq] at hj
          rw [hd, arrInt_grid hs.pos _ _ hk] at hj
          omega
      · have h2 : (List.range i).countP (fun j => decide (F j s.pre = true ∧ arrInt E.dt j s.delay = i)) = 0 := by
          rw [List.countP_eq_zero]; intro j _ h
          simp only [decide_eq_true_eq] at h
          rw [hd, arrInt_grid hs.pos _ _ hk] at h
          omega
        rw [h2, if_neg]
        intro h
        obtain ⟨j, hj, -⟩ := spikes_grid hs hpos wf hV hg hrest hcon _ _ h
        have : i = j + k := hcast _ _ (by push_cast; rw [add_mul, ← hj, hd]; ring)
        omega
  rw [harr]
  split <;> simp

/-- What a neuron receives in one step. -/
theorem step_input (hs : Sane E.exp E.dt) (hpos : ∀ n ∈ E.net.neurons, 0 < (E.net.par n).tm ∧ 0 < (E.net.par n).tf) (wf : WellFormed E.net)
    (hV : PotentialOnly E.net E.dt) (hg : GridInputs E.net E.dt s0 inj) (hrest : Resting E.net s0) (hcon : Consistent E s0 last inj L)
    {S : ℕ → ℕ → NState K} {F : ℕ → ℕ → Bool} (hrun : IsRun E.net E.dt inj s0 S F) {i : ℕ}
    (ih : ∀ j < i, ∀ n, (∀ q ∈ inj, q.1 ≠ n) → (F j n = true ↔ (j : K) * E.dt ∈ L n)) {n : ℕ} (hno : ∀ q ∈ inj, q.1 ≠ n) :
    ((arriving E.net inj L n).map (itemW ((i : K) * E.dt))).sum = input E.net E.dt inj F .V n i := by
  have h0 : inj.filter (fun q => q.1 = n) = [] := List.filter_eq_nil_iff.mpr (fun q hq => by simpa using hno q hq)
  unfold arriving input
  rw [h0]
  have hf : E.net.syns.filter (fun s => decide (s.post = n ∧ s.kind = .V)) = E.net.syns.filter (fun s => decide (s.post = n)) := by
    refine List.filter_congr ?_
    intro s hsy
    simp [(hV s hsy).1]
  rw [hf]
  have hsub : ∀ s ∈ E.net.syns.filter (fun s => decide (s.post = n)), s ∈ E.net.syns := fun s h => (List.mem_filter.mp h).1
  generalize E.net.syns.filter (fun s => decide (s.post = n)) = l at hsub
  rw [List.map_nil, List.nil_append]
  induction l with
  | nil => rfl
  | cons s l ihl =>
    rw [List.flatMap_cons, List.map_append, List.sum_append, ihl (fun s hs => hsub s (by simp [hs])), List.map_cons, List.sum_cons, List.map_map,
      ← synapse_brings hs hpos wf hV hg hrest hcon hrun ih (hsub s (by simp))]
    rfl

/-- The two engines agree on every neuron that is not an input. -/
theorem engines_agree (hs : Sane E.exp E.dt) (hpos : ∀ n ∈ E.net.neurons, 0 < (E.net.par n).tm ∧ 0 < (E.net.par n).tf) (wf : WellFormed E.net)
    (hV : PotentialOnly E.net E.dt) (hg : GridInputs E.net E.dt s0 inj) (hrest : Resting E.net s0) (hcon : Consistent E s0 last inj L)
    {S : ℕ → ℕ → NState K} {F : ℕ → ℕ → Bool} (hrun : IsRun E.net E.dt inj s0 S F) :
    ∀ i n, (∀ q ∈ inj, q.1 ≠ n) → (F i n = true ↔ (i : K) * E.dt ∈ L n) := by
  intro i
  induction i using Nat.strong_induction_on with
  | _ i ih =>
    intro n hno
    by_cases hn : n ∈ E.net.neurons
    · rcases Nat.eq_zero_or_pos i with rfl | hi
      · rw [(hrun.start n).2]
        constructor
        · intro h; cases h
        · intro h
          obtain ⟨j, hj, h0⟩ := spikes_grid hs hpos wf hV hg hrest hcon _ _ h
          have := h0 hno
          have : (0 : ℕ) = j := by exact_mod_cast mul_right_cancel₀ hs.pos.ne' hj
          omega
      · obtain ⟨vs, h1, h2, h3, h4, h5⟩ := neuron_volleys hV hrest hcon hn
        refine reacts_steps hs (hpos n hn).1 (hpos n hn).2 (wf.reset n hn) i (fun i => (S i n).V) (fun i => F i n) vs 0 (l := last n) h3 h1 ?_ ?_ ?_ ?_ i hi le_rfl
        · intro u hu
          obtain ⟨q, hq⟩ := List.exists_mem_of_ne_nil _ (h2 u hu)
          have hm : Item.hit u.time q.1 q.2 ∈ arriving E.net inj L n :=
            h4.mem_iff.mp (List.mem_flatMap.mpr ⟨u, hu, List.mem_map.mpr ⟨q, hq, rfl⟩⟩)
          unfold arriving at hm
          rcases List.mem_append.mp hm with hm | hm
          · obtain ⟨y, hy, -⟩ := List.mem_map.mp hm
            obtain ⟨hy1, hy2⟩ := List.mem_filter.mp hy
            exact absurd (by simpa using hy2) (hno y hy1)
          · obtain ⟨s, hsy, hm⟩ := List.mem_flatMap.mp hm
            obtain ⟨t, ht, e⟩ := List.mem_map.mp hm
            simp only [Item.hit.injEq] at e
            obtain ⟨-, k, hk, hd⟩ := hV s (List.mem_filter.mp hsy).1
            obtain ⟨j, hj, -⟩ := spikes_grid hs hpos wf hV hg hrest hcon _ _ ht
            exact ⟨j + k, by omega, by rw [← e.1, hj, hd]; push_cast; ring⟩
        · show (S 0 n).V < _
          rw [(hrun.start n).1]; exact (hrest n hn).1
        · intro i' _ hi'
          have := run_step_V hV hrest hrun hn i'
          rw [← step_input hs hpos wf hV hg hrest hcon hrun (fun j hj => ih j (by omega)) hno] at this
          rw [weightAt_items, (h4.map _).sum_eq]
          exact this
        · show Reacts E n (vst (S 0 n).V) (last n) vs (L n)
          rw [(hrun.start n).1]; exact h5
    · rw [(hrun.outside i n hn).2, outside_silent wf hg hcon hn]; simp

end core

end Axon
