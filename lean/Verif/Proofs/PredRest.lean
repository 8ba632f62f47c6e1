import Verif.Proofs.PredV
import Verif.Proofs.Behaviour

/-! # Neurons that come to rest in the predictive simulator, and what happens when they are used again -/
set_option linter.unusedSectionVars false
namespace Axon
open Spec
variable {K : Type*} [Field K] [LinearOrder K] [IsStrictOrderedRing K] [FloorRing K]

/-- From the description of a neuron's future to a record of its past. -/
theorem Done.extend {E : PEnv K} {n : ℕ} {s0 : NState K} {l0 : K} : ∀ {ws : List (Volley K)} {vs L s l o L'},
    Done E n s0 l0 vs L s l o → RestOf E n s l o ws L' → (ws.map Volley.time).Pairwise (· < ·) → (∀ w ∈ ws, w.hits ≠ []) →
    (∀ w ∈ ws, (∀ v ∈ vs, v.time < w.time) ∧ ∀ y ∈ L, y ≤ w.time) → ∃ s' l', Done E n s0 l0 (vs ++ ws) (L ++ L') s' l' none := by
  intro ws
  induction ws with
  | nil =>
    intro vs L s l o L' h hr _ _ _
    cases o with
    | none =>
      cases hr
      exact ⟨s, l, by simpa using h⟩
    | some x =>
      rcases hr with ⟨-, L2, rfl, h2⟩ | ⟨⟨v, hv, -⟩, -⟩
      · cases h2
        exact ⟨_, l, by simpa using h.fire⟩
      · simp at hv
  | cons w ws ih =>
    intro vs L s l o L' h hr hso hne hb
    rw [List.map_cons, List.pairwise_cons] at hso
    have main : ∀ {L s l o L'}, Done E n s0 l0 vs L s l o → (∀ x ∈ o, w.time < x) → (∀ y ∈ L, y ≤ w.time) → Reacts E n s l (w :: ws) L' →
        ∃ s' l', Done E n s0 l0 (vs ++ w :: ws) (L ++ L') s' l' none := by
      intro L s l o L' h ho hL hr
      obtain ⟨s', r, h1, h2, h3⟩ := reacts_cons hr
      have hd := Done.volley h ho (hb w (by simp)).1 hL (hne w (by simp)) h1 h2
      obtain ⟨s2, l2, h4⟩ := ih hd h3 hso.2 (fun u hu => hne u (by simp [hu])) (by
        intro u hu
        have hlt : w.time < u.time := hso.1 _ (List.mem_map_of_mem hu)
        refine ⟨?_, fun y hy => (hL y hy).trans hlt.le⟩
        intro v hv
        rcases List.mem_append.mp hv with hv | hv
        · exact ((hb w (by simp)).1 v hv).trans hlt
        · simp at hv; rw [hv]; exact hlt)
      exact ⟨s2, l2, by simpa using h4⟩
    cases o with
    | none => exact main h (by simp) (hb w (by simp)).2 hr
    | some x =>
      rcases hr with ⟨hx, L2, rfl, h2⟩ | ⟨⟨v, hv, hx⟩, h2⟩
      · have hxw : x ≤ w.time := hx w (by simp)
        obtain ⟨s', l', h3⟩ := main h.fire (by simp) (by
          intro y hy
          rcases List.mem_append.mp hy with hy | hy
          · exact (hb w (by simp)).2 y hy
          · simp at hy; rw [hy]; exact hxw) h2
        exact ⟨s', l', by simpa using h3⟩
      · simp at hv; subst hv
        exact main h (by simpa using hx) (hb w (by simp)).2 h2

theorem Spec.Reacts.toDone {E : PEnv K} {n : ℕ} {s : NState K} {l : K} {vs : List (Volley K)} {L : List K} (h : Reacts E n s l vs L)
    (h1 : (vs.map Volley.time).Pairwise (· < ·)) (h2 : ∀ v ∈ vs, v.hits ≠ []) : ∃ s' l', Done E n s l vs L s' l' none := by
  obtain ⟨s', l', h3⟩ := Done.extend (Done.start (E := E) (n := n) (s0 := s) (l0 := l)) (o := none) (ws := vs) (L' := L) h h1 h2 (by simp)
  exact ⟨s', l', by simpa using h3⟩

/-- Two stretches of a neuron's life, one after the other. -/
theorem Done.append {E : PEnv K} {n : ℕ} {s0 s : NState K} {l0 l : K} {vs L} (h : Done E n s0 l0 vs L s l none) {ws L' s' l' o'}
    (h' : Done E n s l ws L' s' l' o') (hb : ∀ w ∈ ws, (∀ v ∈ vs, v.time < w.time) ∧ ∀ y ∈ L, y ≤ w.time) :
    Done E n s0 l0 (vs ++ ws) (L ++ L') s' l' o' := by
  induction h' with
  | start => simpa using h
  | @volley ws L' s1 l1 o v s2 r _ h2 h3 h4 h5 h6 h7 ih =>
    rw [← List.append_assoc]
    have hbv := hb v (by simp)
    refine Done.volley (ih fun w hw => hb w (by simp [hw])) h2 ?_ ?_ h5 h6 h7
    · intro u hu
      rcases List.mem_append.mp hu with hu | hu
      · exact hbv.1 u hu
      · exact h3 u hu
    · intro y hy
      rcases List.mem_append.mp hy with hy | hy
      · exact hbv.2 y hy
      · exact h4 y hy
  | @fire ws L' s1 l1 x _ ih =>
    rw [← List.append_assoc]
    exact (ih hb).fire

theorem pass_rest (exp : K → K) (p : Params K) (V d : K) : pass exp p ⟨V, 0, 0, 0⟩ d = ⟨V, 0, 0, 0⟩ := by
  simp [pass]

/-- For a neuron at rest it does not matter since when. -/
theorem Done.restart {E : PEnv K} {n : ℕ} {V l0 : K} (l1 : K) {vs L s l o} (h : Done E n ⟨V, 0, 0, 0⟩ l0 vs L s l o) :
    (vs = [] ∧ L = [] ∧ s = ⟨V, 0, 0, 0⟩ ∧ o = none) ∨ Done E n ⟨V, 0, 0, 0⟩ l1 vs L s l o := by
  induction h with
  | start => exact .inl ⟨rfl, rfl, rfl, rfl⟩
  | @volley vs L s l o v s' r h1 h2 h3 h4 h5 h6 h7 ih =>
    right
    rcases ih with ⟨rfl, rfl, rfl, rfl⟩ | ih
    · refine Done.volley (Done.start) (by simp) (by simp) (by simp) h5 ?_ h7
      rw [pass_rest] at h6 ⊢
      simpa using h6
    · exact Done.volley ih h2 h3 h4 h5 h6 h7
  | @fire vs L s l x _ ih =>
    right
    rcases ih with ⟨_, _, _, h⟩ | ih
    · cases h
    · exact ih.fire

theorem Done.restart' {E : PEnv K} {n : ℕ} {V l0 : K} (l1 : K) {vs L s l o} (h : Done E n ⟨V, 0, 0, 0⟩ l0 vs L s l o) :
    ∃ l', Done E n ⟨V, 0, 0, 0⟩ l1 vs L s l' o := by
  rcases h.restart l1 with ⟨rfl, rfl, rfl, rfl⟩ | h
  · exact ⟨l1, Done.start⟩
  · exact ⟨l, h⟩

/-- Everything later by `D`. -/
theorem Done.shift {E : PEnv K} {n : ℕ} {s0 : NState K} {l0 : K} (D : K) {vs L s l o} (h : Done E n s0 l0 vs L s l o) :
    Done E n s0 (l0 + D) (vs.map (fun v => ⟨v.time + D, v.hits⟩)) (L.map (· + D)) s (l + D) (o.map (· + D)) := by
  induction h with
  | start => exact Done.start
  | @volley vs L s l o v s' r _ h2 h3 h4 h5 h6 h7 ih =>
    rw [List.map_append]
    have := Done.volley (v := ⟨v.time + D, v.hits⟩) ih ?_ ?_ ?_ h5 ?_ h7
    · have e : (Option.map (fun m : ℤ => v.time + (m : K) * E.dt) r).map (· + D) = r.map (fun m : ℤ => (v.time + D) + (m : K) * E.dt) := by
        cases r with
        | none => rfl
        | some m => simp; ring
      rw [e]
      exact this
    · intro x hx
      simp only [Option.mem_def, Option.map_eq_some_iff] at hx
      obtain ⟨y, hy, rfl⟩ := hx
      have := h2 y hy
      simpa using this
    · intro u hu
      obtain ⟨w, hw, rfl⟩ := List.mem_map.mp hu
      simpa using h3 w hw
    · intro y hy
      obtain ⟨w, hw, rfl⟩ := List.mem_map.mp hy
      simpa using h4 w hw
    · simpa [add_sub_add_right_eq_sub] using h6
  | @fire vs L s l x _ ih =>
    rw [List.map_append]
    exact ih.fire

/-- The last thing that happened to it was its own spike: it has been reset. -/
theorem Done.reset {E : PEnv K} {n : ℕ} {s0 : NState K} {l0 : K} {vs L s l} (h : Done E n s0 l0 vs L s l none) {y : K} (hy : y ∈ L)
    (hlt : ∀ v ∈ vs, v.time < y) : s = ⟨(E.net.par n).Vreset, 0, 0, 0⟩ := by
  generalize (none : Option K) = o at h
  cases h with
  | start => simp at hy
  | @volley vs L s l o v s' r _ h2 h3 h4 h5 h6 h7 => exact absurd (h4 y hy) (not_le.mpr (hlt v (by simp)))
  | fire _ => rfl

/-- The voltage a neuron that is hit through `V` synapses only ends up with. -/
def vend (V : K) : List (K × K) → K
  | [] => V
  | (_, w) :: r => if 10 ≤ V + w then vend 0 r else vend (V + w) r

theorem vend_append (a b : List (K × K)) : ∀ V : K, vend V (a ++ b) = vend (vend V a) b := by
  induction a with
  | nil => intro V; rfl
  | cons x a ih =>
    intro V
    simp only [List.cons_append, vend]
    split <;> exact ih _

theorem vrun_append (a b : List (K × K)) : ∀ V : K, vrun V (a ++ b) = vrun V a ++ vrun (vend V a) b := by
  induction a with
  | nil => intro V; rfl
  | cons x a ih =>
    intro V
    simp only [List.cons_append, vend, vrun]
    split
    · rw [ih]; rfl
    · exact ih _

/-- The last of the list, or `lo`. -/
def lastOr (lo : K) : List K → K
  | [] => lo
  | a :: l => lastOr a l

theorem lastOr_mem : ∀ (l : List K) (lo : K), l ≠ [] → lastOr lo l ∈ l := by
  intro l
  induction l with
  | nil => intro lo h; exact absurd rfl h
  | cons a l ih =>
    intro lo _
    by_cases hl : l = []
    · subst hl; simp [lastOr]
    · exact List.mem_cons_of_mem _ (ih a hl)

/-- What is left is what has arrived since the last spike. -/
theorem vend_eq : ∀ (vs : List (K × K)) (V lo : K), (vs.map Prod.fst).Pairwise (· < ·) → (∀ v ∈ vs, lo < v.1) →
    vend V vs = (if vrun V vs = [] then V else 0) + (vs.map (fun p => if lastOr lo (vrun V vs) < p.1 then p.2 else 0)).sum := by
  intro vs
  induction vs with
  | nil => intro V lo _ _; simp [vend, vrun]
  | cons v vs ih =>
    intro V lo h1 h2
    rw [List.map_cons, List.pairwise_cons] at h1
    have hlt : ∀ u ∈ vs, v.1 < u.1 := fun u hu => h1.1 _ (List.mem_map_of_mem hu)
    have hmem : ∀ V, ∀ y ∈ vrun V vs, v.1 < y := by
      clear ih h1 h2
      induction vs with
      | nil => intro V y hy; simp [vrun] at hy
      | cons u vs ih =>
        intro V y hy
        simp only [vrun] at hy
        split at hy
        · rcases List.mem_cons.mp hy with rfl | hy
          · exact hlt u (by simp)
          · exact ih (fun w hw => hlt w (by simp [hw])) _ y hy
        · exact ih (fun w hw => hlt w (by simp [hw])) _ y hy
    simp only [vend, vrun]
    split
    next hge =>
      rw [ih 0 v.1 h1.2 hlt]
      have : ¬ lastOr v.1 (vrun 0 vs) < v.1 := by
        by_cases hv : vrun 0 vs = []
        · simp [hv, lastOr]
        · exact not_lt.mpr (hmem 0 _ (lastOr_mem _ _ hv)).le
      have e : lastOr lo (v.1 :: vrun 0 vs) = lastOr v.1 (vrun 0 vs) := rfl
      rw [e]
      simp only [List.map_cons, List.sum_cons, zero_add, ite_self, reduceCtorEq, if_false]
      rw [if_neg this, zero_add]
    next hlt' =>
      rw [ih (V + v.2) lo h1.2 (fun u hu => h2 u (by simp [hu]))]
      by_cases hv : vrun (V + v.2) vs = []
      · simp [hv, lastOr, h2 v (by simp)]; ring
      · have : ¬ lastOr lo (vrun (V + v.2) vs) < v.1 := by
          exact not_lt.mpr (hmem _ _ (lastOr_mem _ _ hv)).le
        simp [hv, this]

theorem Done.ofV {E : PEnv K} {n : ℕ} (hpar : E.net.par n = stdPar) (hs : Sane E.exp E.dt) {V0 l0 : K} {vs L s l o}
    (h : Done E n (lin V0 0) l0 vs L s l o) (f : Volley K → List K) (hV : ∀ v ∈ vs, v.hits = (f v).map (fun w => (.V, w))) :
    ((o = none ∧ s = lin (vend V0 (vs.map (fun v => (v.time, (f v).sum)))) 0) ∨
    ((∃ u ∈ vs, o = some u.time) ∧ vend V0 (vs.map (fun v => (v.time, (f v).sum))) = 0)) ∧
    vrun V0 (vs.map (fun v => (v.time, (f v).sum))) = L ++ o.toList := by
  induction h with
  | start => exact ⟨.inl ⟨rfl, rfl⟩, rfl⟩
  | @volley vs L s l o v s' r _ h2 h3 h4 h5 h6 h7 ih =>
    have hv := hV v (by simp)
    obtain ⟨ih1, ih2⟩ := ih (fun u hu => hV u (by simp [hu]))
    rcases ih1 with ⟨rfl, rfl⟩ | ⟨⟨u, hu, rfl⟩, -⟩
    · rw [pass_lin hpar, hv, bumps_V] at h6
      simp only [zero_div, zero_mul, add_zero, Option.some.injEq] at h6
      subst h6
      rw [List.map_append, vend_append, vrun_append, ih2]
      simp only [List.map_cons, List.map_nil, vend, vrun]
      split
      next hge =>
        have := predict_first hpar hs.exp hs.pos hs.steps (s := lin (vend V0 (vs.map (fun v => (v.time, (f v).sum))) + (f v).sum) 0) (m := 0) le_rfl (by simp)
          (by have := maxSteps_gt (dt := E.dt) (x := 0) hs.pos le_rfl (by linarith [hs.small]); simpa using this) le_rfl
          (by rw [expected_lin]; simpa using hge) (by intro k k0 k1; omega)
        rw [this] at h7
        simp only [Except.ok.injEq] at h7
        subst h7
        exact ⟨.inr ⟨⟨v, by simp, by simp⟩, rfl⟩, by simp⟩
      next hlt =>
        have := predict_never hpar hs.pos hs.steps (s := lin (vend V0 (vs.map (fun v => (v.time, (f v).sum))) + (f v).sum) 0) (by
          intro d hd; rw [expected_lin]; simpa using hlt)
        rw [this] at h7
        simp only [Except.ok.injEq] at h7
        subst h7
        exact ⟨.inl ⟨rfl, rfl⟩, by simp⟩
    · exact absurd (h2 _ rfl) (not_lt.mpr (h3 u hu).le)
  | @fire vs L s l x _ ih =>
    obtain ⟨ih1, ih2⟩ := ih hV
    rcases ih1 with ⟨h, -⟩ | ⟨-, h⟩
    · cases h
    · refine ⟨.inl ?_, by simpa using ih2⟩
      rw [hpar, h]; exact ⟨rfl, rfl⟩

/-- Neuron `x`, hit by the injected spikes and the spikes `LS` of the others, spikes as `LS` says and is at rest afterwards. -/
def RestsAs (E : PEnv K) (V l0 : K) (inj : List (ℕ × K)) (LS : ℕ → List K) (x : ℕ) : Prop :=
  ∃ (vs : List (Volley K)) (l : K), (vs.flatMap Volley.items).Perm (arriving E.net inj LS x) ∧
    Done E x ⟨V, 0, 0, 0⟩ l0 vs (LS x) ⟨V, 0, 0, 0⟩ l none

/-- The same for the neurons of the library, which rest at voltage 0. -/
abbrev Rests (E : PEnv K) (inj : List (ℕ × K)) (LS : ℕ → List K) (x : ℕ) : Prop := RestsAs E 0 0 inj LS x

theorem Rests.fits {E : PEnv K} {inj LS x} (h : Rests E inj LS x) : Fits E inj LS x := by
  obtain ⟨vs, l, h1, h2⟩ := h
  refine ⟨vs, h2.sorted.1, h2.sorted.2, h1, ?_⟩
  have := h2.reacts (ws := []) (L' := []) Reacts.done (by simp)
  rwa [List.append_nil, List.append_nil] at this

/-- Its last spike came after all hits. -/
theorem Fits.rests_spike {E : PEnv K} {n : ℕ} (hpar : E.net.par n = stdPar) {inj : List (ℕ × K)} {LS : ℕ → List K} (h : Fits E inj LS n) {y : K}
    (hy : y ∈ LS n) (hlt : ∀ i ∈ arriving E.net inj LS n, i.time < y) : Rests E inj LS n := by
  obtain ⟨vs, h1, h2, h3, h4⟩ := h
  obtain ⟨s', l', h5⟩ := h4.toDone h1 h2
  have hr := h5.reset hy (by
    intro v hv
    obtain ⟨x, hx⟩ := List.exists_mem_of_ne_nil _ (h2 v hv)
    exact hlt (Item.hit v.time x.1 x.2) (h3.mem_iff.mp (List.mem_flatMap.mpr ⟨v, hv, List.mem_map.mpr ⟨x, hx, rfl⟩⟩)))
  refine ⟨vs, l', h3, ?_⟩
  rw [hr, hpar] at h5
  exact h5

/-- The weights that arrived through `V` synapses since its last spike cancel. -/
theorem Fits.rests_V {E : PEnv K} {n : ℕ} (hpar : E.net.par n = stdPar) (hs : Sane E.exp E.dt) {inj : List (ℕ × K)} {LS : ℕ → List K}
    (h : Fits E inj LS n) (ws : List (K × K)) (lo : K) (hlo : ∀ p ∈ ws, lo < p.1)
    (ha : (ws.map (fun p => Item.hit p.1 .V p.2)).Perm (arriving E.net inj LS n))
    (h0 : (ws.map (fun p => if lastOr lo (LS n) < p.1 then p.2 else 0)).sum = 0) : Rests E inj LS n := by
  obtain ⟨vs, h1, h2, h3, h4⟩ := h
  obtain ⟨s', l', h5⟩ := h4.toDone h1 h2
  have hk : ∀ v ∈ vs, ∀ x ∈ v.hits, x.1 = .V ∧ lo < v.time := by
    intro v hv x hx
    have hm : Item.hit v.time x.1 x.2 ∈ ws.map (fun p => Item.hit p.1 .V p.2) :=
      (h3.trans ha.symm).mem_iff.mp (List.mem_flatMap.mpr ⟨v, hv, List.mem_map.mpr ⟨x, hx, rfl⟩⟩)
    obtain ⟨p, hp, e⟩ := List.mem_map.mp hm
    simp only [Item.hit.injEq] at e
    exact ⟨e.2.1.symm, by rw [← e.1]; exact hlo p hp⟩
  obtain ⟨h6, h7⟩ := h5.ofV hpar hs (fun v => v.hits.map Prod.snd) (by
    intro v hv
    rw [List.map_map]
    conv_lhs => rw [← List.map_id v.hits]
    refine List.map_congr_left fun x hx => ?_
    simp only [id, Function.comp, ← (hk v hv x hx).1])
  simp only [Option.toList, List.append_nil] at h7
  rcases h6 with ⟨-, rfl⟩ | ⟨⟨u, -, h⟩, -⟩
  · refine ⟨vs, l', h3, ?_⟩
    rw [vend_eq _ 0 lo (by rw [List.map_map]; exact h1) (by
      intro p hp
      obtain ⟨v, hv, rfl⟩ := List.mem_map.mp hp
      obtain ⟨x, hx⟩ := List.exists_mem_of_ne_nil _ (h2 v hv)
      exact (hk v hv x hx).2), h7] at h5
    have e : (List.map (fun p : K × K => if lastOr lo (LS n) < p.1 then p.2 else 0) (vs.map (fun v => (v.time, (v.hits.map Prod.snd).sum)))).sum = 0 := by
      refine Eq.trans ?_ h0
      have e1 : (vs.flatMap Volley.items).map (fun i => match i with | .hit t _ w => if lastOr lo (LS n) < t then w else 0 | _ => 0) =
          vs.flatMap (fun v => v.hits.map (fun x => if lastOr lo (LS n) < v.time then x.2 else 0)) := by
        rw [List.map_flatMap]
        refine List.flatMap_congr fun v _ => ?_
        rw [Volley.items, List.map_map]
        rfl
      have e2 := ((h3.trans ha.symm).map (fun i => match i with | .hit t _ w => if lastOr lo (LS n) < t then w else 0 | _ => 0)).sum_eq
      rw [e1, List.map_map, List.flatMap_def, List.sum_flatten, List.map_map] at e2
      rw [List.map_map]
      refine Eq.trans ?_ e2
      congr 1
      refine List.map_congr_left fun v _ => ?_
      simp only [Function.comp]
      by_cases hc : lastOr lo (LS n) < v.time
      · simp [hc]
      · rw [if_neg hc]
        symm
        apply List.sum_eq_zero
        intro x hx
        obtain ⟨u, -, rfl⟩ := List.mem_map.mp hx
        exact if_neg hc
    rw [e] at h5
    simpa using h5
  · cases h

/-- Receives nothing. -/
theorem RestsAs.none {E : PEnv K} {V l0 : K} {n : ℕ} {inj : List (ℕ × K)} {LS : ℕ → List K}
    (ha : arriving E.net inj LS n = []) (hL : LS n = []) : RestsAs E V l0 inj LS n :=
  ⟨[], l0, by rw [ha]; simp, hL ▸ Done.start⟩

/-- Everything that happens on `inj` and `LS` happens between `A` and `B`. -/
def Within (net : Net K) (inj : List (ℕ × K)) (LS : ℕ → List K) (A B : K) (x : ℕ) : Prop :=
  (∀ i ∈ arriving net inj LS x, A ≤ i.time ∧ i.time ≤ B) ∧ ∀ y ∈ LS x, y ≤ B

theorem arriving_append (net : Net K) (inj1 inj2 : List (ℕ × K)) (L1 L2 : ℕ → List K) (n : ℕ) :
    (arriving net inj1 L1 n ++ arriving net inj2 L2 n).Perm (arriving net (inj1 ++ inj2) (fun x => L1 x ++ L2 x) n) := by
  have hflat : ∀ ss : List (Synapse K), ((ss.flatMap (fun s => (L1 s.pre).map (fun t => Item.hit (t + s.delay) s.kind s.weight))) ++
      (ss.flatMap (fun s => (L2 s.pre).map (fun t => Item.hit (t + s.delay) s.kind s.weight)))).Perm
      (ss.flatMap (fun s => (L1 s.pre ++ L2 s.pre).map (fun t => Item.hit (t + s.delay) s.kind s.weight))) := by
    intro ss
    induction ss with
    | nil => simp
    | cons s ss ih =>
      simp only [List.flatMap_cons, List.map_append]
      rw [← Multiset.coe_eq_coe] at ih ⊢
      simp only [← Multiset.coe_add, ← List.map_append] at ih ⊢
      rw [← ih]
      simp only [List.map_append, ← Multiset.coe_add]
      abel
  unfold arriving
  rw [List.filter_append, List.map_append, ← Multiset.coe_eq_coe]
  have := hflat (net.syns.filter (fun s => s.post = n))
  rw [← Multiset.coe_eq_coe] at this
  simp only [← Multiset.coe_add] at this ⊢
  rw [← this]
  abel

/-- One use after another. -/
theorem RestsAs.append {E : PEnv K} {V l0 : K} {inj1 inj2 : List (ℕ × K)} {L1 L2 : ℕ → List K} {x : ℕ} (h1 : RestsAs E V l0 inj1 L1 x)
    (h2 : RestsAs E V l0 inj2 L2 x)
    {A1 B1 A2 B2 : K} (w1 : Within E.net inj1 L1 A1 B1 x) (w2 : Within E.net inj2 L2 A2 B2 x) (hlt : B1 < A2) :
    RestsAs E V l0 (inj1 ++ inj2) (fun x => L1 x ++ L2 x) x := by
  obtain ⟨vs, l, a1, a2⟩ := h1
  obtain ⟨ws, m, b1, b2⟩ := h2
  obtain ⟨m', b3⟩ := b2.restart' l
  refine ⟨vs ++ ws, m', ?_, ?_⟩
  · rw [List.flatMap_append]
    exact (a1.append b1).trans (arriving_append _ _ _ _ _ _)
  · refine a2.append b3 fun w hw => ?_
    have hw' : A2 ≤ w.time := by
      obtain ⟨y, hy⟩ := List.exists_mem_of_ne_nil _ (b2.sorted.2 w hw)
      exact (w2.1 (Item.hit w.time y.1 y.2) (b1.mem_iff.mp (List.mem_flatMap.mpr ⟨w, hw, List.mem_map.mpr ⟨y, hy, rfl⟩⟩))).1
    refine ⟨fun v hv => ?_, fun y hy => (w1.2 y hy).trans (hlt.le.trans hw')⟩
    obtain ⟨y, hy⟩ := List.exists_mem_of_ne_nil _ (a2.sorted.2 v hv)
    exact ((w1.1 (Item.hit v.time y.1 y.2) (a1.mem_iff.mp (List.mem_flatMap.mpr ⟨v, hv, List.mem_map.mpr ⟨y, hy, rfl⟩⟩))).2.trans_lt hlt).trans_le hw'

theorem Within.append {net : Net K} {inj1 inj2 : List (ℕ × K)} {L1 L2 : ℕ → List K} {x : ℕ} {A1 B1 A2 B2 : K}
    (w1 : Within net inj1 L1 A1 B1 x) (w2 : Within net inj2 L2 A2 B2 x) (hA : A1 ≤ A2) (hB : B1 ≤ B2) :
    Within net (inj1 ++ inj2) (fun x => L1 x ++ L2 x) A1 B2 x := by
  refine ⟨fun i hi => ?_, fun y hy => ?_⟩
  · rcases List.mem_append.mp ((arriving_append net inj1 inj2 L1 L2 x).mem_iff.mpr hi) with h | h
    · exact ⟨(w1.1 i h).1, (w1.1 i h).2.trans hB⟩
    · exact ⟨hA.trans (w2.1 i h).1, (w2.1 i h).2⟩
  · rcases List.mem_append.mp hy with h | h
    · exact (w1.2 y h).trans hB
    · exact w2.2 y h

end Axon

namespace Axon
open Spec
variable {K : Type*} [Field K] [LinearOrder K] [IsStrictOrderedRing K] [FloorRing K]

/-- One use of a network: the injected spikes, all spikes, and the time it takes. -/
structure Use (K : Type*) where
  inj : List (ℕ × K)
  LS : ℕ → List K
  lo : K
  hi : K

/-- Any number of uses, one after another. -/
theorem rests_many {E : PEnv K} {V l0 : K} {x : ℕ} : ∀ us : List (Use K), (∀ u ∈ us, RestsAs E V l0 u.inj u.LS x ∧ Within E.net u.inj u.LS u.lo u.hi x) →
    us.Pairwise (fun u u' => u.hi < u'.lo) → RestsAs E V l0 (us.flatMap Use.inj) (fun x => us.flatMap (fun u => u.LS x)) x ∧
      ∀ A B, (∀ u ∈ us, A ≤ u.lo ∧ u.hi ≤ B) → Within E.net (us.flatMap Use.inj) (fun x => us.flatMap (fun u => u.LS x)) A B x := by
  intro us
  have hnil : arriving E.net [] (fun _ => ([] : List K)) x = [] := by
    unfold arriving
    simp
  induction us with
  | nil =>
    intro _ _
    refine ⟨RestsAs.none hnil rfl, fun A B _ => ⟨?_, ?_⟩⟩
    · intro i hi
      simp only [List.flatMap_nil] at hi
      rw [hnil] at hi
      simp at hi
    · intro y hy; simp at hy
  | cons u us ih =>
    intro h hp
    rw [List.pairwise_cons] at hp
    obtain ⟨h1, h2⟩ := h u (by simp)
    obtain ⟨i1, i2⟩ := ih (fun v hv => h v (by simp [hv])) hp.2
    simp only [List.flatMap_cons]
    cases us with
    | nil =>
      simp only [List.flatMap_nil, List.append_nil]
      exact ⟨h1, fun A B hAB => ⟨fun i hi => ⟨(hAB u (by simp)).1.trans (h2.1 i hi).1, (h2.1 i hi).2.trans (hAB u (by simp)).2⟩,
        fun y hy => (h2.2 y hy).trans (hAB u (by simp)).2⟩⟩
    | cons v us =>
      -- the earliest start and the latest end of the later uses
      obtain ⟨A2, hA2, hA2'⟩ : ∃ A2, (∀ w ∈ v :: us, A2 ≤ w.lo) ∧ u.hi < A2 := by
        have := hp.1
        clear i1 i2 ih h hp h1 h2
        generalize v :: us = l at this
        induction l with
        | nil => exact ⟨u.hi + 1, by simp, by linarith⟩
        | cons w l ih =>
          obtain ⟨A, a1, a2⟩ := ih (fun w hw => this w (by simp [hw]))
          refine ⟨min A w.lo, ?_, lt_min a2 (this w (by simp))⟩
          intro z hz
          rcases List.mem_cons.mp hz with rfl | hz
          · exact min_le_right _ _
          · exact (min_le_left _ _).trans (a1 z hz)
      obtain ⟨B2, hB2⟩ : ∃ B2, ∀ w ∈ v :: us, w.hi ≤ B2 := by
        clear i1 i2 ih h hp h1 h2 hA2
        generalize v :: us = l
        induction l with
        | nil => exact ⟨0, by simp⟩
        | cons w l ih =>
          obtain ⟨B, b⟩ := ih
          refine ⟨max B w.hi, ?_⟩
          intro z hz
          rcases List.mem_cons.mp hz with rfl | hz
          · exact le_max_right _ _
          · exact (b z hz).trans (le_max_left _ _)
      have w2 := i2 A2 B2 fun w hw => ⟨hA2 w hw, hB2 w hw⟩
      refine ⟨h1.append i1 h2 w2 hA2', fun A B hAB => ?_⟩
      have w2' := i2 A B fun w hw => hAB w (by simp only [List.mem_cons] at hw ⊢; exact .inr hw)
      have w1' : Within E.net u.inj u.LS A B x := ⟨fun i hi => ⟨(hAB u (by simp)).1.trans (h2.1 i hi).1, (h2.1 i hi).2.trans (hAB u (by simp)).2⟩,
        fun y hy => (h2.2 y hy).trans (hAB u (by simp)).2⟩
      exact w1'.append w2' le_rfl le_rfl

/-- Nothing happens before the first injected spike. -/
theorem causal {E : PEnv K} (hdt : 0 < E.dt) (hdel : ∀ s ∈ E.net.syns, 0 < s.delay) {s0 l0} {inj : List (ℕ × K)} {L : ℕ → List K}
    (h : Consistent E s0 l0 inj L) (ns : List ℕ) (hns : ∀ n ∉ ns, L n = []) :
    (∀ n, ∀ y ∈ L n, ∃ q ∈ inj, q.2 ≤ y) ∧ ∀ n, ∀ i ∈ arriving E.net inj L n, ∃ q ∈ inj, q.2 ≤ i.time := by
  have arr : ∀ n, ∀ i ∈ arriving E.net inj L n, (∃ q ∈ inj, q.2 = i.time) ∨ ∃ m, ∃ y ∈ L m, y < i.time := by
    intro n i hi
    unfold arriving at hi
    rcases List.mem_append.mp hi with hi | hi
    · obtain ⟨q, hq, rfl⟩ := List.mem_map.mp hi
      exact .inl ⟨q, (List.mem_filter.mp hq).1, rfl⟩
    · obtain ⟨s, hs, hi⟩ := List.mem_flatMap.mp hi
      obtain ⟨y, hy, rfl⟩ := List.mem_map.mp hi
      refine .inr ⟨s.pre, y, hy, ?_⟩
      have := hdel s (List.mem_filter.mp hs).1
      show y < y + s.delay
      linarith
  have main : ∀ k : ℕ, ∀ n, ∀ y ∈ L n, ((ns.flatMap L).filter (fun z => z < y)).length ≤ k → ∃ q ∈ inj, q.2 ≤ y := by
    intro k
    induction k with
    | zero =>
      intro n y hy hk
      obtain ⟨vs, h1, h2, h3, h4⟩ := h n
      obtain ⟨v, hv, hvy⟩ := reacts_after hdt h4 h1 y hy
      have hv' : v ∈ vs := List.mem_of_mem_head? hv
      obtain ⟨x, hx⟩ := List.exists_mem_of_ne_nil _ (h2 v hv')
      have hm := h3.mem_iff.mp (List.mem_flatMap.mpr ⟨v, hv', List.mem_map.mpr ⟨x, hx, rfl⟩⟩)
      rcases arr n _ hm with ⟨q, hq, e⟩ | ⟨m, z, hz, hlt⟩
      · exact ⟨q, hq, by rw [e]; exact hvy⟩
      · have hmn : m ∈ ns := by by_contra hm; rw [hns m hm] at hz; simp at hz
        have : z ∈ (ns.flatMap L).filter (fun z => z < y) :=
          List.mem_filter.mpr ⟨List.mem_flatMap.mpr ⟨m, hmn, hz⟩, by simpa using (show z < v.time from hlt).trans_le hvy⟩
        have := List.length_pos_of_mem this
        omega
    | succ k ih =>
      intro n y hy hk
      obtain ⟨vs, h1, h2, h3, h4⟩ := h n
      obtain ⟨v, hv, hvy⟩ := reacts_after hdt h4 h1 y hy
      have hv' : v ∈ vs := List.mem_of_mem_head? hv
      obtain ⟨x, hx⟩ := List.exists_mem_of_ne_nil _ (h2 v hv')
      have hm := h3.mem_iff.mp (List.mem_flatMap.mpr ⟨v, hv', List.mem_map.mpr ⟨x, hx, rfl⟩⟩)
      rcases arr n _ hm with ⟨q, hq, e⟩ | ⟨m, z, hz, hlt⟩
      · exact ⟨q, hq, by rw [e]; exact hvy⟩
      · have hzy : z < y := (show z < v.time from hlt).trans_le hvy
        have hmn : m ∈ ns := by by_contra hm; rw [hns m hm] at hz; simp at hz
        have hmem : z ∈ ns.flatMap L := List.mem_flatMap.mpr ⟨m, hmn, hz⟩
        have hlen : ((ns.flatMap L).filter (fun w => w < z)).length < ((ns.flatMap L).filter (fun w => w < y)).length := by
          rw [← List.countP_eq_length_filter, ← List.countP_eq_length_filter]
          generalize ns.flatMap L = l at hmem
          induction l with
          | nil => simp at hmem
          | cons a l ihl =>
            rw [List.countP_cons, List.countP_cons]
            have hle : List.countP (fun w => decide (w < z)) l ≤ List.countP (fun w => decide (w < y)) l :=
              List.countP_mono_left fun w _ hw => by simp at hw ⊢; exact hw.trans hzy
            rcases List.mem_cons.mp hmem with rfl | hmem
            · simp [hzy]; omega
            · have := ihl hmem
              by_cases ha : a < z
              · simp [ha, ha.trans hzy]; exact this
              · simp [ha]; split <;> omega
        obtain ⟨q, hq, hqz⟩ := ih m z hz (by omega)
        exact ⟨q, hq, hqz.trans hzy.le⟩
  have h1 : ∀ n, ∀ y ∈ L n, ∃ q ∈ inj, q.2 ≤ y := fun n y hy => main _ n y hy le_rfl
  refine ⟨h1, fun n i hi => ?_⟩
  rcases arr n i hi with ⟨q, hq, e⟩ | ⟨m, y, hy, hlt⟩
  · exact ⟨q, hq, e.le⟩
  · obtain ⟨q, hq, h⟩ := h1 m y hy
    exact ⟨q, hq, h.trans hlt.le⟩

end Axon

namespace Axon
open Spec
variable {K : Type*} [Field K] [LinearOrder K] [IsStrictOrderedRing K] [FloorRing K]

/-- A use of a neuron through `V` synapses. -/
theorem Fits.useV {E : PEnv K} {n : ℕ} (hpar : E.net.par n = stdPar) (hs : Sane E.exp E.dt) {inj : List (ℕ × K)} {LS : ℕ → List K}
    (h : Fits E inj LS n) (ws : List (K × K)) {A B : K} (hw : ∀ p ∈ ws, A ≤ p.1 ∧ p.1 ≤ B) (hy : ∀ y ∈ LS n, y ≤ B)
    (ha : (ws.map (fun p => Item.hit p.1 .V p.2)).Perm (arriving E.net inj LS n))
    (h0 : (ws.map (fun p => if lastOr (A - 1) (LS n) < p.1 then p.2 else 0)).sum = 0) : Rests E inj LS n ∧ Within E.net inj LS A B n := by
  refine ⟨h.rests_V hpar hs ws (A - 1) (fun p hp => by linarith [(hw p hp).1]) ha h0, fun i hi => ?_, hy⟩
  obtain ⟨p, hp, rfl⟩ := List.mem_map.mp (ha.mem_iff.mpr hi)
  exact hw p hp

/-- A use of a neuron that ends with its spike. -/
theorem Fits.useS {E : PEnv K} {n : ℕ} (hpar : E.net.par n = stdPar) {inj : List (ℕ × K)} {LS : ℕ → List K} (h : Fits E inj LS n) {y : K}
    (is : List (Item K)) {A B : K} (ha : is.Perm (arriving E.net inj LS n)) (hL : LS n = [y]) (hw : ∀ i ∈ is, A ≤ i.time ∧ i.time < y) (hy : y ≤ B) :
    Rests E inj LS n ∧ Within E.net inj LS A B n := by
  refine ⟨h.rests_spike hpar (y := y) (by rw [hL]; simp) fun i hi => (hw i (ha.mem_iff.mpr hi)).2, fun i hi => ?_, by rw [hL]; simpa using hy⟩
  have := hw i (ha.mem_iff.mpr hi)
  exact ⟨this.1, this.2.le.trans hy⟩

/-- A neuron that is not used. -/
theorem Rests.useless {E : PEnv K} {n : ℕ} {inj : List (ℕ × K)} {LS : ℕ → List K} {A B : K} (ha : arriving E.net inj LS n = []) (hL : LS n = []) :
    Rests E inj LS n ∧ Within E.net inj LS A B n :=
  ⟨RestsAs.none ha hL, by rw [Within, ha, hL]; simp⟩

/-- A library network used several times in one predictive simulation. -/
theorem LibOK.predMany {w : World K} {n : ℕ} (h : LibOK w n) (H : TimeHeap K) {exp : K → K} (enc : Encoder K) {dt : K} (hdt : 0 < dt)
    (hdel : ∀ s ∈ w.syns, 0 < s.delay) {ι : Type*} (ops : List ι) (cs : ι → List (Call K)) (hcs : ∀ o ∈ ops, ∀ c ∈ cs o, CallOK c)
    (hin : ∀ o ∈ ops, ∀ q ∈ (cs o).flatMap (predSpikes enc), q.1 < n) {P : (ℕ → Option (List K)) → Prop} (LS : ι → ℕ → List K)
    (hLS : ∀ o ∈ ops, ∀ x, n ≤ x → LS o x = []) (lo hi : ι → K) (hsep : ops.Pairwise (fun o o' => hi o < lo o'))
    (huse : ∀ o ∈ ops, ∀ E : PEnv K, E.exp = exp → E.dt = dt → E.net.syns = w.syns.reverse → (∀ x < n, E.net.par x = stdPar) →
      ∀ x < n, Rests E ((cs o).flatMap (predSpikes enc)) (LS o) x ∧ Within E.net ((cs o).flatMap (predSpikes enc)) (LS o) (lo o) (hi o) x)
    (hP : ∀ log : ℕ → Option (List K), (∀ x < n, log x = some (ops.flatMap (fun o => LS o x))) → P log) :
    PredEnds H exp enc dt w 0 (ops.flatMap cs) P := by
  have einj : (ops.flatMap cs).flatMap (predSpikes enc) = ops.flatMap (fun o => (cs o).flatMap (predSpikes enc)) := List.flatMap_assoc
  refine h.pred H enc hdt hdel ?_ ?_ (fun x => ops.flatMap (fun o => LS o x)) ?_ ?_ hP
  · intro c hc
    obtain ⟨o, ho, hc⟩ := List.mem_flatMap.mp hc
    exact hcs o ho c hc
  · rw [einj]
    intro q hq
    obtain ⟨o, ho, hq⟩ := List.mem_flatMap.mp hq
    exact hin o ho q hq
  · intro x hx
    exact List.flatMap_eq_nil_iff.mpr fun o ho => hLS o ho x hx
  · intro E e1 e2 e3 e4 x hx
    rw [einj]
    have := Rests.fits (rests_many (E := E) (x := x) (V := 0) (l0 := 0) (ops.map (fun o => (⟨(cs o).flatMap (predSpikes enc), LS o, lo o, hi o⟩ : Use K))) ?_ ?_).1
    · simpa [List.flatMap_map] using this
    · intro u hu
      obtain ⟨o, ho, rfl⟩ := List.mem_map.mp hu
      exact huse o ho E e1 e2 e3 e4 x hx
    · rw [List.pairwise_map]
      exact hsep

end Axon
