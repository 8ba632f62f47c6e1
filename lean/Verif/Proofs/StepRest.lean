import Verif.Proofs.Session

/-! # The time-stepped simulator on a network that has come to rest -/
set_option linter.unusedSectionVars false
namespace Axon
open Spec
variable {K : Type*} [Field K] [LinearOrder K] [IsStrictOrderedRing K] [FloorRing K]

/-- Nothing arrives or happens after step `k`. -/
def Settled (net : Net K) (dt : K) (inj : List (ℕ × K)) (F : ℕ → ℕ → Bool) (k : ℕ) : Prop :=
  (∀ q ∈ inj, ∀ s ∈ net.syns, s.pre = q.1 → arrInj dt q.2 s.delay ≤ k) ∧
  ∀ j n, F j n = true → j ≤ k ∧ ∀ s ∈ net.syns, s.pre = n → arrInt dt j s.delay ≤ k

/-- The injected spikes arrive after step `k`. -/
def Later (net : Net K) (dt : K) (inj : List (ℕ × K)) (k : ℕ) : Prop :=
  ∀ q ∈ inj, ∀ s ∈ net.syns, s.pre = q.1 → k < arrInj dt q.2 s.delay

theorem lt_arrInt (dt : K) (j : ℕ) (D : K) : j < arrInt dt j D := Nat.lt_of_succ_le (le_max_left _ _)

section
variable {net : Net K} {dt : K} {inj inj1 inj2 : List (ℕ × K)} {s0 : ℕ → NState K} {S S1 S2 : ℕ → ℕ → NState K} {F F1 F2 : ℕ → ℕ → Bool} {k : ℕ}

/-- Without arrivals there is no input. -/
theorem input_zero_of_arrivals {i : ℕ} (h : ∀ s ∈ net.syns, arrivals dt inj F s i = 0) (kd : SynKind) (n : ℕ) : input net dt inj F kd n i = 0 := by
  unfold input
  apply List.sum_eq_zero
  intro x hx
  obtain ⟨s, hs, rfl⟩ := List.mem_map.mp hx
  rw [h s (List.mem_of_mem_filter hs)]
  simp

theorem Settled.arrivals (h : Settled net dt inj F k) {i : ℕ} (hi : k < i) (s : Synapse K) (hs : s ∈ net.syns) : arrivals dt inj F s i = 0 := by
  unfold Spec.arrivals
  have e1 : inj.countP (fun q => decide (q.1 = s.pre ∧ arrInj dt q.2 s.delay = i)) = 0 := by
    rw [List.countP_eq_zero]
    intro q hq hh
    simp only [decide_eq_true_eq] at hh
    have := h.1 q hq s hs hh.1.symm
    omega
  have e2 : (List.range i).countP (fun j => decide (F j s.pre = true ∧ arrInt dt j s.delay = i)) = 0 := by
    rw [List.countP_eq_zero]
    intro j _ hh
    simp only [decide_eq_true_eq] at hh
    have := (h.2 j s.pre hh.1).2 s hs rfl
    omega
  rw [e1, e2]

/-- Before the first injected spike arrives nothing happens. -/
theorem Spec.IsRun.early (hr : IsRun net dt inj s0 S F) (hl : Later net dt inj k) (hq : Resting net s0) :
    ∀ i ≤ k, (∀ n, S i n = s0 n) ∧ ∀ n, F i n = false := by
  intro i
  induction i using Nat.strong_induction_on with
  | _ i ih =>
    intro hi
    rcases i with _ | i
    · exact ⟨fun n => (hr.start n).1, fun n => (hr.start n).2⟩
    · have hz : ∀ kd n, input net dt inj F kd n (i + 1) = 0 := by
        apply input_zero_of_arrivals
        intro s hs
        unfold Spec.arrivals
        have e1 : inj.countP (fun q => decide (q.1 = s.pre ∧ arrInj dt q.2 s.delay = i + 1)) = 0 := by
          rw [List.countP_eq_zero]
          intro q hq hh
          simp only [decide_eq_true_eq] at hh
          have := hl q hq s hs hh.1.symm
          omega
        have e2 : (List.range (i + 1)).countP (fun j => decide (F j s.pre = true ∧ arrInt dt j s.delay = i + 1)) = 0 := by
          rw [List.countP_eq_zero]
          intro j hj
          have hj := List.mem_range.mp hj
          rw [(ih j hj (by omega)).2]
          simp
        rw [e1, e2]
      have key : ∀ n, S (i + 1) n = s0 n ∧ F (i + 1) n = false := by
        intro n
        by_cases hn : n ∈ net.neurons
        · have h0 := hq n hn
          have hnq := nstep_quiet (net.par n) dt (s0 n) (fun kd => input net dt inj F kd n (i + 1))
            (by simp [NState.active, h0]) h0.1 (fun kd _ => hz kd n)
          have hst := hr.step i n hn
          rw [(ih i (by omega) (by omega)).1 n, hnq] at hst
          exact Prod.mk.inj hst
        · exact hr.outside (i + 1) n hn
      exact ⟨fun n => (key n).1, fun n => (key n).2⟩

theorem countP_or_disjoint {α : Type*} (P Q : α → Bool) (l : List α) (h : ∀ x ∈ l, ¬ (P x = true ∧ Q x = true)) :
    l.countP (fun x => P x || Q x) = l.countP P + l.countP Q := by
  induction l with
  | nil => rfl
  | cons a l ih =>
    have hd := h a (by simp)
    rw [List.countP_cons, List.countP_cons, List.countP_cons, ih fun x hx => h x (by simp [hx])]
    cases hP : P a <;> cases hQ : Q a <;> simp_all <;> omega

/-- **A second use**: if nothing arrives after step `k`, a run goes on with later injected spikes as if it started in the states of step `k`. -/
theorem Spec.IsRun.next (hr1 : IsRun net dt inj1 s0 S1 F1) (hr2 : IsRun net dt inj2 (S1 k) S2 F2) (hk : Settled net dt inj1 F1 k) (hl : Later net dt inj2 k)
    (hq : Resting net (S1 k)) :
    IsRun net dt (inj1 ++ inj2) s0 (fun i n => if i ≤ k then S1 i n else S2 i n) (fun i n => F1 i n || F2 i n) := by
  have he := hr2.early hl hq
  have hF1 : ∀ j n, k < j → F1 j n = false := by
    intro j n hj
    by_contra h
    have := (hk.2 j n (by simpa using h)).1
    omega
  have harr : ∀ s ∈ net.syns, ∀ i, arrivals dt (inj1 ++ inj2) (fun i n => F1 i n || F2 i n) s i = arrivals dt inj1 F1 s i + arrivals dt inj2 F2 s i := by
    intro s hs i
    unfold Spec.arrivals
    rw [List.countP_append]
    have : (List.range i).countP (fun j => decide ((F1 j s.pre || F2 j s.pre) = true ∧ arrInt dt j s.delay = i)) =
        (List.range i).countP (fun j => decide (F1 j s.pre = true ∧ arrInt dt j s.delay = i) || decide (F2 j s.pre = true ∧ arrInt dt j s.delay = i)) := by
      apply List.countP_congr
      intro j _
      simp only [Bool.or_eq_true, decide_eq_true_eq]
      tauto
    rw [this, countP_or_disjoint]
    · omega
    · intro j _ ⟨h1, h2⟩
      simp only [decide_eq_true_eq] at h1 h2
      have a := (hk.2 j s.pre h1.1).1
      rw [(he j a).2] at h2
      simp at h2
  have hin : ∀ kd n i, input net dt (inj1 ++ inj2) (fun i n => F1 i n || F2 i n) kd n i = input net dt inj1 F1 kd n i + input net dt inj2 F2 kd n i := by
    intro kd n i
    unfold input
    rw [← List.sum_map_add]
    congr 1
    apply List.map_congr_left
    intro s hs
    rw [harr s (List.mem_of_mem_filter hs)]
    push_cast
    ring
  have hz1 : ∀ kd n i, k < i → input net dt inj1 F1 kd n i = 0 := fun kd n i hi => input_zero_of_arrivals (fun s hs => hk.arrivals hi s hs) kd n
  have hz2 : ∀ kd n i, i ≤ k → 1 ≤ i → input net dt inj2 F2 kd n i = 0 := by
    intro kd n i hi h1
    apply input_zero_of_arrivals
    intro s hs
    unfold Spec.arrivals
    have e1 : inj2.countP (fun q => decide (q.1 = s.pre ∧ arrInj dt q.2 s.delay = i)) = 0 := by
      rw [List.countP_eq_zero]
      intro q hq hh
      simp only [decide_eq_true_eq] at hh
      have := hl q hq s hs hh.1.symm
      omega
    have e2 : (List.range i).countP (fun j => decide (F2 j s.pre = true ∧ arrInt dt j s.delay = i)) = 0 := by
      rw [List.countP_eq_zero]
      intro j hj
      have hj := List.mem_range.mp hj
      rw [(he j (by omega)).2]
      simp
    rw [e1, e2]
  refine ⟨?_, ?_, ?_⟩
  · intro n
    simp [(hr1.start n).1, (hr1.start n).2, (hr2.start n).2]
  · intro i n hn
    by_cases hi : i + 1 ≤ k
    · have hi' : i ≤ k := by omega
      simp only [hi, hi', if_true, (he (i + 1) hi).2, Bool.or_false, hin, hz2 _ _ _ hi (by omega), add_zero]
      exact hr1.step i n hn
    · simp only [hi, if_false, hin, hz1 _ _ _ (show k < i + 1 by omega), hF1 (i + 1) n (by omega), Bool.false_or, zero_add]
      rw [hr2.step i n hn]
      by_cases hi' : i ≤ k
      · simp only [hi', if_true]
        obtain rfl : i = k := by omega
        rw [(he i le_rfl).1]
      · simp only [hi', if_false]
  · intro i n hn
    obtain ⟨a1, a2⟩ := hr1.outside i n hn
    obtain ⟨b1, b2⟩ := hr2.outside i n hn
    refine ⟨?_, by rw [a2, b2]; rfl⟩
    by_cases hi : i ≤ k
    · simp only [hi, if_true]; exact a1
    · simp only [hi, if_false]; rw [b1]; exact (hr1.outside k n hn).1

/-- If at step `k` everything has arrived and all neurons are at rest, it stays so. -/
theorem Spec.IsRun.settle (hr : IsRun net dt inj s0 S F) (h1 : ∀ q ∈ inj, ∀ s ∈ net.syns, s.pre = q.1 → arrInj dt q.2 s.delay ≤ k)
    (h2 : ∀ j ≤ k, ∀ n, F j n = true → ∀ s ∈ net.syns, s.pre = n → arrInt dt j s.delay ≤ k) (hq : Resting net (S k)) :
    Settled net dt inj F k ∧ ∀ i, k ≤ i → ∀ n, S i n = S k n := by
  have key : ∀ i, k ≤ i → (∀ n, S i n = S k n) ∧ (k < i → ∀ n, F i n = false) := by
    intro i
    induction i using Nat.strong_induction_on with
    | _ i ih =>
      intro hi
      rcases Nat.eq_or_lt_of_le hi with rfl | hlt
      · exact ⟨fun _ => rfl, fun h => absurd h (lt_irrefl _)⟩
      · obtain ⟨i, rfl⟩ : ∃ j, i = j + 1 := ⟨i - 1, by omega⟩
        have hz : ∀ kd n, input net dt inj F kd n (i + 1) = 0 := by
          apply input_zero_of_arrivals
          intro s hs
          unfold Spec.arrivals
          have e1 : inj.countP (fun q => decide (q.1 = s.pre ∧ arrInj dt q.2 s.delay = i + 1)) = 0 := by
            rw [List.countP_eq_zero]
            intro q hq hh
            simp only [decide_eq_true_eq] at hh
            have := h1 q hq s hs hh.1.symm
            omega
          have e2 : (List.range (i + 1)).countP (fun j => decide (F j s.pre = true ∧ arrInt dt j s.delay = i + 1)) = 0 := by
            rw [List.countP_eq_zero]
            intro j hj hh
            have hj := List.mem_range.mp hj
            simp only [decide_eq_true_eq] at hh
            by_cases hjk : j ≤ k
            · have := h2 j hjk s.pre hh.1 s hs rfl
              omega
            · rw [(ih j hj (by omega)).2 (by omega)] at hh
              simp at hh
          rw [e1, e2]
        have key : ∀ n, S (i + 1) n = S k n ∧ F (i + 1) n = false := by
          intro n
          by_cases hn : n ∈ net.neurons
          · have h0 := hq n hn
            have hnq := nstep_quiet (net.par n) dt (S k n) (fun kd => input net dt inj F kd n (i + 1))
              (by simp [NState.active, h0]) h0.1 (fun kd _ => hz kd n)
            have hst := hr.step i n hn
            rw [(ih i (by omega) (by omega)).1 n, hnq] at hst
            exact Prod.mk.inj hst
          · obtain ⟨a, b⟩ := hr.outside (i + 1) n hn
            exact ⟨a.trans (hr.outside k n hn).1.symm, b⟩
        exact ⟨fun n => (key n).1, fun _ n => (key n).2⟩
  refine ⟨⟨h1, fun j n hj => ?_⟩, fun i hi => (key i hi).1⟩
  have hjk : j ≤ k := by
    by_contra h
    rw [(key j (by omega)).2 (by omega)] at hj
    cases hj
  exact ⟨hjk, h2 j hjk n hj⟩

/-! ## Many uses -/

theorem nstep_fired (p : Params K) (dt : K) (s : NState K) (a : SynKind → K) (h : (nstep p dt s a).2 = true) : (nstep p dt s a).1 = ⟨p.Vreset, 0, 0, 0⟩ := by
  unfold nstep at h ⊢
  dsimp only at h ⊢
  by_cases hv : p.Vt ≤ s.V + a .V + dt * (s.ge + a .ge + (s.gate + a .gate) * (s.gf + a .gf)) / p.tm
  · rw [if_pos hv]
  · rw [if_neg hv] at h; cases h

theorem nstep_plain (p : Params K) (dt V : K) (a : SynKind → K) (h0 : ∀ kd, kd ≠ .V → a kd = 0) (h : (nstep p dt ⟨V, 0, 0, 0⟩ a).2 = false) :
    (nstep p dt ⟨V, 0, 0, 0⟩ a).1 = ⟨V + a .V, 0, 0, 0⟩ := by
  unfold nstep at h ⊢
  simp only [h0 .ge (by simp), h0 .gf (by simp), h0 .gate (by simp), add_zero, mul_zero, zero_div] at h ⊢
  by_cases hv : p.Vt ≤ V + a .V
  · rw [if_pos hv] at h; cases h
  · rw [if_neg hv]; simp

/-- A neuron that is not driven by currents sums up what arrives at its potential. -/
theorem quiet_state (hr : IsRun net dt inj s0 S F) {x : ℕ} (hx : IsStd net s0 x) {E : List (ℕ × K)} {m : ℕ} {V : K} (hm : S m x = ⟨V, 0, 0, 0⟩)
    (hV : ∀ i, m < i → i ≤ k → input net dt inj F .V x i = evAt E i) (h0 : ∀ i, m < i → i ≤ k → ∀ kd, kd ≠ .V → input net dt inj F kd x i = 0)
    (hF : ∀ i, m < i → i ≤ k → F i x = false) : ∀ i, m ≤ i → i ≤ k → S i x = ⟨V + Gsum E m i, 0, 0, 0⟩ := by
  intro i
  induction i with
  | zero =>
    intro h1 _
    obtain rfl : m = 0 := by omega
    rw [hm, Gsum_self, add_zero]
  | succ i ih =>
    intro h1 h2
    rcases Nat.eq_or_lt_of_le h1 with rfl | h3
    · rw [hm, Gsum_self, add_zero]
    · have hst := hr.step i x hx.mem
      rw [ih (by omega) (by omega)] at hst
      obtain ⟨h4, h5⟩ := Prod.mk.inj (hst.trans Prod.mk.eta.symm)
      rw [h4, nstep_plain _ _ _ _ (fun kd hkd => h0 (i + 1) h3 h2 kd hkd) (h5.symm.trans (hF (i + 1) h3 h2)), hV (i + 1) h3 h2, Gsum_succ E (by omega), add_assoc]

/-- A neuron that has fired in a step has been reset. -/
theorem fired_state (hr : IsRun net dt inj s0 S F) {x : ℕ} (hx : IsStd net s0 x) {m : ℕ} (h : F m x = true) : S m x = ⟨0, 0, 0, 0⟩ := by
  rcases m with _ | m
  · rw [(hr.start x).2] at h; cases h
  · have hst := hr.step m x hx.mem
    obtain ⟨h4, h5⟩ := Prod.mk.inj (hst.trans Prod.mk.eta.symm)
    rw [h4, nstep_fired _ _ _ _ (h5.symm.trans h), hx.par]
    rfl

theorem evAt_zero {E : List (ℕ × K)} {i : ℕ} (h : ∀ e ∈ E, e.1 ≠ i) : evAt E i = 0 := by
  unfold evAt
  apply List.sum_eq_zero
  intro y hy
  obtain ⟨e, he, rfl⟩ := List.mem_map.mp hy
  rw [if_neg (h e he)]

/-- **Coming to rest**: the last spike of a neuron is `m`, what arrives later arrives at the potential only and cancels. -/
theorem rest_of (hr : IsRun net dt inj s0 S F) {x : ℕ} (hx : IsStd net s0 x) (LA : List (Synapse K × List ℕ)) (hL : InS net x (LA.map (·.1)))
    (hA : ∀ p ∈ LA, Arr dt inj F p.1.pre p.1.delay p.2) {T : List ℕ} (hT : Train F x T) (m : ℕ) (hm : m ∈ T ∨ m = 0) (hTm : ∀ i ∈ T, i ≤ m)
    (hlate : ∀ p ∈ LA, p.1.kind ≠ .V → ∀ a ∈ p.2, a ≤ m) (hsum : Gsum (evs (LA.filter (fun p => p.1.kind = .V))) m k = 0) (hmk : m ≤ k) :
    S k x = ⟨0, 0, 0, 0⟩ := by
  have hin : ∀ kd i, input net dt inj F kd x i = evAt (evs (LA.filter (fun p => p.1.kind = kd))) i := by
    intro kd i
    refine inE_of (n := i) hL kd (LA.filter (fun p => p.1.kind = kd)) ?_ ?_ i le_rfl
    · rw [List.filter_map]; rfl
    · intro p hp; exact (hA p (List.mem_of_mem_filter hp)).to i
  have hm0 : S m x = ⟨0, 0, 0, 0⟩ := by
    rcases hm with h | rfl
    · exact fired_state hr hx ((hT m).mpr h)
    · rw [(hr.start x).1, hx.fresh]
  have := quiet_state (k := k) (E := evs (LA.filter (fun p => p.1.kind = .V))) hr hx hm0 (fun i _ _ => hin .V i) ?_ ?_ k hmk le_rfl
  · rw [this, hsum, add_zero]
  · intro i h1 _ kd hkd
    rw [hin]
    apply evAt_zero
    intro e he
    obtain ⟨p, hp, he⟩ := List.mem_flatMap.mp he
    obtain ⟨a, ha, rfl⟩ := List.mem_map.mp he
    obtain ⟨hp1, hp2⟩ := List.mem_filter.mp hp
    have := hlate p hp1 (by rw [of_decide_eq_true hp2]; exact hkd) a ha
    simp only; omega
  · intro i h1 _
    by_contra h
    have := hTm i ((hT i).mp (by simpa using h))
    omega

/-- As `rest_of`, if nothing arrives after the last spike. -/
theorem rest_last (hr : IsRun net dt inj s0 S F) {x : ℕ} (hx : IsStd net s0 x) (LA : List (Synapse K × List ℕ)) (hL : InS net x (LA.map (·.1)))
    (hA : ∀ p ∈ LA, Arr dt inj F p.1.pre p.1.delay p.2) {T : List ℕ} (hT : Train F x T) (m : ℕ) (hm : m ∈ T ∨ m = 0) (hTm : ∀ i ∈ T, i ≤ m)
    (hlate : ∀ p ∈ LA, ∀ a ∈ p.2, a ≤ m) (hmk : m ≤ k) : S k x = ⟨0, 0, 0, 0⟩ := by
  refine rest_of hr hx LA hL hA hT m hm hTm (fun p hp _ => hlate p hp) ?_ hmk
  unfold Gsum
  apply List.sum_eq_zero
  intro y hy
  obtain ⟨e, he, rfl⟩ := List.mem_map.mp hy
  obtain ⟨p, hp, he⟩ := List.mem_flatMap.mp he
  obtain ⟨a, ha, rfl⟩ := List.mem_map.mp he
  have := hlate p (List.mem_of_mem_filter hp) a ha
  rw [if_neg (by simp only; omega)]

/-- A sequence of uses, each of which leaves the network as it was. -/
theorem run_many {ι : Type*} (inj : ι → List (ℕ × K)) (hi : ι → ℕ) (hrest : Resting net s0) : ∀ ops : List ι,
    (∀ o ∈ ops, Settled net dt (inj o) (denseF net dt (inj o) s0) (hi o) ∧ ∀ n, denseS net dt (inj o) s0 (hi o) n = s0 n) →
    ops.Pairwise (fun o o' => Later net dt (inj o') (hi o)) →
    ∀ i n, denseF net dt (ops.flatMap inj) s0 i n = ops.any (fun o => denseF net dt (inj o) s0 i n) := by
  intro ops
  induction ops with
  | nil =>
    intro _ _ i n
    exact ((dense_isRun net dt [] s0).early (k := i) (by intro q hq; cases hq) hrest i le_rfl).2 n
  | cons o os ih =>
    intro h hp i n
    rw [List.pairwise_cons] at hp
    obtain ⟨h1, h2⟩ := h o (by simp)
    have e : denseS net dt (inj o) s0 (hi o) = s0 := funext h2
    have hr1 := dense_isRun net dt (inj o) s0
    have hr2 := dense_isRun net dt (os.flatMap inj) s0
    rw [List.flatMap_cons, List.any_cons, ← ih (fun o ho => h o (by simp [ho])) hp.2]
    have hl : Later net dt (os.flatMap inj) (hi o) := by
      intro q hq
      obtain ⟨o', ho', hq⟩ := List.mem_flatMap.mp hq
      exact hp.1 o' ho' q hq
    have hn := hr1.next (k := hi o) (by rw [e]; exact hr2) h1 hl (by rw [e]; exact hrest)
    exact ((dense_isRun net dt (inj o ++ os.flatMap inj) s0).unique hn i).2 n

end

theorem LibOK.runs {w : World K} {n : ℕ} (h : LibOK w n) (H : EventHeap K) {ord : ℕ → List ℕ → List ℕ} (hord : SetOrder ord)
    (enc : Encoder K) {dt : K} (hdt : 0 < dt) : ∃ ns : List ℕ, Resting (w.net ns) fresh ∧ ∀ (T : K) (cs : List (Call K)), (∀ c ∈ cs, CallOK c) →
    ∃ st, session H ord enc dt T w 0 cs = .ok st ∧
      SessionRun enc dt T w n (cs.flatMap (callSpikes enc)) ns (denseS (w.net ns) dt (cs.flatMap (callSpikes enc)) fresh)
        (denseF (w.net ns) dt (cs.flatMap (callSpikes enc)) fresh) st := by
  obtain ⟨ns, hns, hmem⟩ := h.block.neurons
  have wf := h.wf hmem
  have hrest : Resting (w.net ns) fresh := by
    intro n hn
    have : (w.net ns).par n = stdPar := h.wpar ((hmem n).mp hn)
    rw [this]
    simp [fresh, stdPar]
  refine ⟨ns, hrest, fun T cs hcs => ?_⟩
  have hrun := dense_isRun (w.net ns) dt (cs.flatMap (callSpikes enc)) fresh
  obtain ⟨st, h1, o⟩ := simulate_outcome H hord wf hdt hrest hrun T
  refine ⟨st, ?_, hrun, ?_, ?_, ?_⟩
  · unfold session
    rw [hns]
    simp only [calls_eq H (w.net ns) enc cs _ hcs]
    exact h1
  · rw [← h.len]; exact hmem
  · intro k hk
    rw [← h.len] at hk
    exact ⟨(hmem k).mpr hk, h.wpar hk, rfl⟩
  · intro x hx Tr hT hs hb
    rw [← h.len] at hx
    rw [o.log_mem ((hmem x).mpr hx), emitted_of_train hT hs]
    intro i hi
    refine ⟨?_, le_numSteps hdt (hb i hi)⟩
    by_contra h0
    have : i = 0 := by omega
    subst this
    have := (hT 0).mpr hi
    rw [(hrun.start x).2] at this
    cases this

/-- **Any number of uses of a library network** in one time-stepped simulation, each of which leaves it at rest. -/
theorem LibOK.stream {w : World K} {n : ℕ} (h : LibOK w n) (H : EventHeap K) {ord : ℕ → List ℕ → List ℕ} (hord : SetOrder ord)
    (enc : Encoder K) {dt : K} (hdt : 0 < dt) (T : K) {ι : Type*} (ops : List ι) (cs : ι → List (Call K)) (hcs : ∀ o ∈ ops, ∀ c ∈ cs o, CallOK c)
    (P : ι → (ℕ → List ℕ) → Prop) (hi : ι → ℕ)
    (huse : ∀ o ∈ ops, ∀ ns S F st, SessionRun enc dt T w n ((cs o).flatMap (callSpikes enc)) ns S F st →
      ∃ Tr : ℕ → List ℕ, (∀ x < n, Train F x (Tr x) ∧ (Tr x).Pairwise (· < ·)) ∧ (∀ x < n, ∀ i ∈ Tr x, (i : K) * dt ≤ T) ∧ P o Tr ∧
        Settled (w.net ns) dt ((cs o).flatMap (callSpikes enc)) F (hi o) ∧ ∀ x < n, S (hi o) x = ⟨0, 0, 0, 0⟩)
    (hsep : ops.Pairwise (fun o o' => ∀ q ∈ (cs o').flatMap (callSpikes enc), ∀ s ∈ w.syns, s.pre = q.1 → hi o < arrInj dt q.2 s.delay)) :
    ∃ (st : Sim K) (Tr : ι → ℕ → List ℕ), session H ord enc dt T w 0 (ops.flatMap cs) = .ok st ∧ (∀ o ∈ ops, P o (Tr o)) ∧
      ∀ x < n, st.spikeLog x = some (injTimes ((ops.flatMap cs).flatMap (callSpikes enc)) x ++ (ops.flatMap (fun o => Tr o x)).map (fun i : ℕ => (i : K) * dt)) := by
  obtain ⟨ns, hrest, hrun⟩ := h.runs H hord enc hdt
  let inj : ι → List (ℕ × K) := fun o => (cs o).flatMap (callSpikes enc)
  have hall : ∀ o, ∃ Tr : ℕ → List ℕ, o ∈ ops → (∀ x < n, Train (denseF (w.net ns) dt (inj o) fresh) x (Tr x) ∧ (Tr x).Pairwise (· < ·)) ∧
      (∀ x < n, ∀ i ∈ Tr x, (i : K) * dt ≤ T) ∧ P o Tr ∧
        Settled (w.net ns) dt (inj o) (denseF (w.net ns) dt (inj o) fresh) (hi o) ∧ ∀ x < n, denseS (w.net ns) dt (inj o) fresh (hi o) x = ⟨0, 0, 0, 0⟩ := by
    intro o
    by_cases ho : o ∈ ops
    · obtain ⟨st, -, R⟩ := hrun T (cs o) (hcs o ho)
      obtain ⟨Tr, hTr⟩ := huse o ho ns _ _ st R
      exact ⟨Tr, fun _ => hTr⟩
    · exact ⟨fun _ => [], fun h => absurd h ho⟩
  choose Tr hTr using hall
  have einj : (ops.flatMap cs).flatMap (callSpikes enc) = ops.flatMap inj := List.flatMap_assoc
  obtain ⟨st, h1, R⟩ := hrun T (ops.flatMap cs) (by
    intro c hc
    obtain ⟨o, ho, hc⟩ := List.mem_flatMap.mp hc
    exact hcs o ho c hc)
  refine ⟨st, Tr, h1, fun o ho => (hTr o ho).2.2.1, fun x hx => ?_⟩
  have hF := run_many (net := w.net ns) (dt := dt) (s0 := fresh) inj hi hrest ops (by
    intro o ho
    obtain ⟨-, -, -, a, b⟩ := hTr o ho
    refine ⟨a, fun m => ?_⟩
    by_cases hm : m < n
    · exact b m hm
    · exact ((dense_isRun (w.net ns) dt (inj o) fresh).outside (hi o) m (fun hh => hm ((R.mem m).mp hh))).1)
    (hsep.imp fun hs q hq s hs' => hs q hq s (List.mem_reverse.mp hs'))
  rw [einj] at R
  rw [einj]
  refine R.log x hx _ ?_ ?_ ?_
  · intro i
    rw [hF, List.any_eq_true, List.mem_flatMap]
    constructor
    · rintro ⟨o, ho, hf⟩
      exact ⟨o, ho, (((hTr o ho).1 x hx).1 i).mp hf⟩
    · rintro ⟨o, ho, hf⟩
      exact ⟨o, ho, (((hTr o ho).1 x hx).1 i).mpr hf⟩
  · rw [List.pairwise_flatMap]
    refine ⟨fun o ho => ((hTr o ho).1 x hx).2, hsep.imp_of_mem ?_⟩
    intro o o' ho ho' hs i hi' j hj
    have h1 := ((hTr o ho).2.2.2.1.2 i x ((((hTr o ho).1 x hx).1 i).mpr hi')).1
    by_contra hle
    have he := (dense_isRun (w.net ns) dt (inj o') fresh).early (k := hi o) (fun q hq s hs' => hs q hq s (List.mem_reverse.mp hs')) hrest j (by omega)
    have h2 := (((hTr o' ho').1 x hx).1 j).mpr hj
    rw [he.2 x] at h2
    cases h2
  · intro i hi'
    obtain ⟨o, ho, hi'⟩ := List.mem_flatMap.mp hi'
    exact (hTr o ho).2.1 x hx i hi'

/-- Nothing arrives after step `k`, from the spike trains of all neurons. -/
theorem SessionRun.settled {enc : Encoder K} {dt T : K} {w : World K} {n : ℕ} {inj : List (ℕ × K)} {ns : List ℕ} {S : ℕ → ℕ → NState K} {F : ℕ → ℕ → Bool} {st : Sim K}
    (R : SessionRun enc dt T w n inj ns S F st) (hdt : 0 < dt) {k : ℕ} (Tr : ℕ → List ℕ) (hT : ∀ x < n, Train F x (Tr x))
    (hinj : ∀ q ∈ inj, ∀ s ∈ w.syns, s.pre = q.1 → arrInj dt q.2 s.delay ≤ k) (hk : ∀ x < n, ∀ j ∈ Tr x, j ≤ k)
    (hk' : ∀ s ∈ w.syns, ∀ j ∈ Tr s.pre, j + dly dt s.delay ≤ k) : Settled (w.net ns) dt inj F k := by
  refine ⟨fun q hq s hs => hinj q hq s (List.mem_reverse.mp hs), fun j x hj => ?_⟩
  have hx : x < n := by
    by_contra hx
    rw [(R.run.outside j x (fun hh => hx ((R.mem x).mp hh))).2] at hj
    cases hj
  have hm := (hT x hx j).mp hj
  refine ⟨hk x hx j hm, fun s hs hp => ?_⟩
  subst hp
  rw [C14_internal_delay dt hdt]
  exact hk' s (List.mem_reverse.mp hs) j hm

section
variable {enc : Encoder K} {dt T : K} {w : World K} {n : ℕ} {inj : List (ℕ × K)} {ns : List ℕ} {S : ℕ → ℕ → NState K} {F : ℕ → ℕ → Bool} {st : Sim K}

/-- When the spikes of neuron `x` arrive over a synapse with delay `D`. -/
def arrOf (dt : K) (inj : List (ℕ × K)) (Tr : ℕ → List ℕ) (x : ℕ) (D : K) : List ℕ :=
  (injTimes inj x).map (fun τ => arrInj dt τ D) ++ (Tr x).map (· + dly dt D)

theorem SessionRun.arrs (hdt : 0 < dt) (Tr : ℕ → List ℕ)
    (hT : ∀ x < n, Train F x (Tr x) ∧ (Tr x).Pairwise (· < ·)) {x : ℕ} (hx : x < n) (D : K) : Arr dt inj F x D (arrOf dt inj Tr x D) := by
  intro i
  exact arr_of_train hdt ((hT x hx).1.to i) ((hT x hx).2.imp fun h => Nat.ne_of_lt h) D i (by omega)

/-- The last spike of neuron `x` is `m`; what arrives after it cancels. -/
theorem SessionRun.rest_of (R : SessionRun enc dt T w n inj ns S F st) (hdt : 0 < dt) (Tr : ℕ → List ℕ) (hT : ∀ x < n, Train F x (Tr x) ∧ (Tr x).Pairwise (· < ·))
    {x k : ℕ} (hx : x < n) (L : List (Synapse K)) (hL : insOf w.syns x = L) (hpre : ∀ s ∈ L, s.pre < n) (m : ℕ) (hm : m ∈ Tr x ∨ m = 0) (hTm : ∀ i ∈ Tr x, i ≤ m)
    (hlate : ∀ s ∈ L, s.kind ≠ .V → ∀ a ∈ arrOf dt inj Tr s.pre s.delay, a ≤ m)
    (hsum : Gsum (evs ((L.map (fun s => (s, arrOf dt inj Tr s.pre s.delay))).filter (fun p => p.1.kind = .V))) m k = 0) (hmk : m ≤ k) : S k x = ⟨0, 0, 0, 0⟩ := by
  refine Axon.rest_of R.run (R.std x hx) (L.map (fun s => (s, arrOf dt inj Tr s.pre s.delay))) ?_ ?_ (hT x hx).1 m hm hTm ?_ hsum hmk
  · rw [List.map_map, ← hL]
    exact ((List.reverse_perm w.syns).filter _).trans (List.Perm.of_eq (by simp [insOf, Function.comp_def]))
  · intro p hp
    obtain ⟨s, hs, rfl⟩ := List.mem_map.mp hp
    exact SessionRun.arrs hdt Tr hT (hpre s hs) s.delay
  · intro p hp
    obtain ⟨s, hs, rfl⟩ := List.mem_map.mp hp
    exact hlate s hs

/-- The last spike of neuron `x` is `m`, and nothing arrives after it. -/
theorem SessionRun.rest_last (R : SessionRun enc dt T w n inj ns S F st) (hdt : 0 < dt) (Tr : ℕ → List ℕ) (hT : ∀ x < n, Train F x (Tr x) ∧ (Tr x).Pairwise (· < ·))
    {x k : ℕ} (hx : x < n) (L : List (Synapse K)) (hL : insOf w.syns x = L) (hpre : ∀ s ∈ L, s.pre < n) (m : ℕ) (hm : m ∈ Tr x ∨ m = 0) (hTm : ∀ i ∈ Tr x, i ≤ m)
    (hlate : ∀ s ∈ L, ∀ a ∈ arrOf dt inj Tr s.pre s.delay, a ≤ m) (hmk : m ≤ k) : S k x = ⟨0, 0, 0, 0⟩ := by
  refine R.rest_of hdt Tr hT hx L hL hpre m hm hTm (fun s hs _ => hlate s hs) ?_ hmk
  unfold Gsum
  apply List.sum_eq_zero
  intro y hy
  obtain ⟨e, he, rfl⟩ := List.mem_map.mp hy
  obtain ⟨p, hp, he⟩ := List.mem_flatMap.mp he
  obtain ⟨a, ha, rfl⟩ := List.mem_map.mp he
  obtain ⟨s, hs, rfl⟩ := List.mem_map.mp (List.mem_of_mem_filter hp)
  have := hlate s hs a ha
  rw [if_neg (by simp only; omega)]

theorem SessionRun.settled' (R : SessionRun enc dt T w n inj ns S F st) (hdt : 0 < dt) {k : ℕ} (Tr : ℕ → List ℕ) (hT : ∀ x < n, Train F x (Tr x) ∧ (Tr x).Pairwise (· < ·))
    (hk : ∀ x < n, ∀ j ∈ Tr x, j ≤ k) (hk' : ∀ s ∈ w.syns, ∀ a ∈ arrOf dt inj Tr s.pre s.delay, a ≤ k) : Settled (w.net ns) dt inj F k := by
  refine R.settled hdt Tr (fun x hx => (hT x hx).1) ?_ hk fun s hs j hj => hk' s hs _ (List.mem_append_right _ (List.mem_map.mpr ⟨j, hj, rfl⟩))
  intro q hq s hs hp
  refine hk' s hs _ (List.mem_append_left _ (List.mem_map.mpr ⟨q.2, ?_, rfl⟩))
  exact List.mem_map.mpr ⟨q, List.mem_filter.mpr ⟨hq, by simp [hp]⟩, rfl⟩

end
end Axon
