import Verif.Proofs.Ramp

/-! # Neurons with a gated exponential current

A gf event of weight 50 and a gate event +1 arrive in step `A`, a gate event -1 in step `B` (or never). -/
set_option linter.unusedSectionVars false
namespace Axon
open Spec
variable {K : Type*} [Field K] [LinearOrder K] [IsStrictOrderedRing K] [FloorRing K]

/-- Number of steps, until step `i`, in which the gate was open; the neuron was last reset in step `lo`. -/
def openSteps (A B lo i : ℕ) : ℕ := (i + 1 - A) - (if lo < B then i + 1 - B else 0)

/-- Decay factor of the exponential current per step. -/
def rho (dt : K) : K := 1 - dt / 20

/-- Contribution of the exponential current to the potential. -/
def Psi (dt : K) (A B lo i : ℕ) : K := if lo < A then 10 * (1 - rho dt ^ openSteps A B lo i) else 0

/-- Potential in step `i` if the neuron was last reset in step `lo`. -/
def PhiG (dt : K) (E G : List (ℕ × K)) (A B lo i : ℕ) : K := Phi dt 100 E G lo i + Psi dt A B lo i

/-- State in step `i` if the neuron was last reset in step `lo`. -/
def gateState (dt : K) (E G : List (ℕ × K)) (A B lo i : ℕ) : NState K :=
  ⟨PhiG dt E G A B lo i, Gsum G lo i, if lo < A ∧ A ≤ i then 50 * rho dt ^ openSteps A B lo i else 0,
    (if lo < A ∧ A ≤ i then 1 else 0) - (if lo < B ∧ B ≤ i then 1 else 0)⟩

theorem gateState_self (dt : K) (E G : List (ℕ × K)) (A B i : ℕ) : gateState dt E G A B i i = ⟨0, 0, 0, 0⟩ := by
  have h1 : ¬ (i < A ∧ A ≤ i) := by omega
  have h2 : ¬ (i < B ∧ B ≤ i) := by omega
  simp only [gateState, PhiG, Psi, Phi_self, Gsum_self, if_neg h1, if_neg h2]
  ext
  · by_cases h : i < A
    · simp only [if_pos h]
      rw [show openSteps A B i i = 0 by unfold openSteps; omega]; simp
    · simp [h]
  · rfl
  · rfl
  · simp

/-- One event-driven step. -/
theorem gateState_succ (dt : K) (E G : List (ℕ × K)) {A B lo i : ℕ} (h : lo ≤ i) (a : SynKind → K)
    (hV : a .V = evAt E (i + 1)) (hge : a .ge = evAt G (i + 1)) (hgf : a .gf = if i + 1 = A then 50 else 0)
    (hga : a .gate = (if i + 1 = A then 1 else 0) - (if i + 1 = B then 1 else 0)) :
    nstep stdPar dt (gateState dt E G A B lo i) a =
      if 10 ≤ PhiG dt E G A B lo (i + 1) then (⟨0, 0, 0, 0⟩, true) else (gateState dt E G A B lo (i + 1), false) := by
  -- gate
  have eg : (gateState dt E G A B lo i).gate + a .gate = (gateState dt E G A B lo (i + 1)).gate := by
    simp only [gateState, hga]
    by_cases c1 : i + 1 = A <;> by_cases c2 : i + 1 = B
    · rw [if_neg (by omega), if_neg (by omega), if_pos c1, if_pos c2, if_pos (by omega), if_pos (by omega)]; ring
    · by_cases c3 : lo < B ∧ B ≤ i
      · rw [if_neg (by omega), if_pos c3, if_pos c1, if_neg c2, if_pos (by omega), if_pos (by omega)]; ring
      · rw [if_neg (by omega), if_neg c3, if_pos c1, if_neg c2, if_pos (by omega), if_neg (by omega)]; ring
    · by_cases c3 : lo < A ∧ A ≤ i
      · rw [if_pos c3, if_neg (by omega), if_neg c1, if_pos c2, if_pos (by omega), if_pos (by omega)]; ring
      · rw [if_neg c3, if_neg (by omega), if_neg c1, if_pos c2, if_neg (by omega), if_pos (by omega)]; ring
    · have e1 : (lo < A ∧ A ≤ i) ↔ (lo < A ∧ A ≤ i + 1) := by omega
      have e2 : (lo < B ∧ B ≤ i) ↔ (lo < B ∧ B ≤ i + 1) := by omega
      simp only [e1, e2, if_neg c1, if_neg c2]; ring
  have egf : (gateState dt E G A B lo i).gf + a .gf =
      if lo < A ∧ A ≤ i + 1 then 50 * rho dt ^ openSteps A B lo i else 0 := by
    simp only [gateState, hgf]
    by_cases c1 : i + 1 = A
    · rw [if_neg (by omega), if_pos c1, if_pos (by omega), show openSteps A B lo i = 0 by unfold openSteps; omega]; simp
    · have e1 : (lo < A ∧ A ≤ i) ↔ (lo < A ∧ A ≤ i + 1) := by omega
      simp only [e1, if_neg c1, add_zero]
  have ege : (gateState dt E G A B lo i).ge + a .ge = Gsum G lo (i + 1) := by
    rw [hge, Gsum_succ G h]; rfl
  have key : Psi dt A B lo i + dt * ((gateState dt E G A B lo (i + 1)).gate * (if lo < A ∧ A ≤ i + 1 then 50 * rho dt ^ openSteps A B lo i else 0)) / 100
      = Psi dt A B lo (i + 1) ∧
      (if (gateState dt E G A B lo (i + 1)).gate ≠ 0 then
        (if lo < A ∧ A ≤ i + 1 then 50 * rho dt ^ openSteps A B lo i else 0) - dt * ((if lo < A ∧ A ≤ i + 1 then 50 * rho dt ^ openSteps A B lo i else 0) / 20)
        else (if lo < A ∧ A ≤ i + 1 then 50 * rho dt ^ openSteps A B lo i else 0)) = (gateState dt E G A B lo (i + 1)).gf := by
    simp only [gateState, Psi]
    by_cases c1 : lo < A ∧ A ≤ i + 1 <;> by_cases c2 : lo < B ∧ B ≤ i + 1
    · have e : openSteps A B lo (i + 1) = openSteps A B lo i := by unfold openSteps; rw [if_pos c2.1, if_pos c2.1]; omega
      simp [c1, c2, e]
    · have e : openSteps A B lo (i + 1) = openSteps A B lo i + 1 := by unfold openSteps; split_ifs <;> omega
      simp only [if_pos c1, if_neg c2, if_pos c1.1, e, sub_zero, ne_eq, one_ne_zero, not_false_eq_true, if_true, pow_succ]
      constructor <;> (unfold rho; ring)
    · simp only [if_neg c1, if_pos c2]
      by_cases c3 : lo < A
      · have e : openSteps A B lo (i + 1) = openSteps A B lo i := by unfold openSteps; omega
        simp [c3, e]
      · simp [c3]
    · simp only [if_neg c1, if_neg c2]
      by_cases c3 : lo < A
      · have e : openSteps A B lo (i + 1) = openSteps A B lo i := by unfold openSteps; omega
        simp [c3, e]
      · simp [c3]
  have eV : (gateState dt E G A B lo i).V + a .V + dt * ((gateState dt E G A B lo i).ge + a .ge +
      ((gateState dt E G A B lo i).gate + a .gate) * ((gateState dt E G A B lo i).gf + a .gf)) / 100 = PhiG dt E G A B lo (i + 1) := by
    rw [eg, egf, ege, PhiG, ← key.1, Phi_succ dt 100 E G h, hV]
    simp only [gateState, PhiG]; ring
  unfold nstep
  by_cases hh : 10 ≤ PhiG dt E G A B lo (i + 1)
  · rw [if_pos hh]
    rw [← eV] at hh
    exact if_pos hh
  · rw [if_neg hh]
    have h' := hh
    rw [← eV] at h'
    refine (if_neg h').trans ?_
    refine Prod.ext ?_ rfl
    ext
    · exact eV
    · exact ege
    · show (if (gateState dt E G A B lo i).gate + a .gate ≠ 0 then (gateState dt E G A B lo i).gf + a .gf -
        dt * (((gateState dt E G A B lo i).gf + a .gf) / 20) else (gateState dt E G A B lo i).gf + a .gf) = _
      rw [eg, egf]; exact key.2
    · exact eg

section run
variable {net : Net K} {dt : K} {inj : List (ℕ × K)} {s0 : ℕ → NState K} {S : ℕ → ℕ → NState K}
  {F : ℕ → ℕ → Bool}

/-- **Response of a gated neuron**: certificate form. -/
theorem gate_cert (hr : IsRun net dt inj s0 S F) {x n : ℕ} (hx : IsStd net s0 x) {E G : List (ℕ × K)} {A B : ℕ}
    (hE : InE net dt inj F n x .V E) (hG : InE net dt inj F n x .ge G)
    (hf : InE net dt inj F n x .gf [(A, 50)])
    (hg : ∀ i ≤ n, input net dt inj F .gate x i = (if i = A then 1 else 0) - (if i = B then 1 else 0))
    (T : List ℕ) (hT0 : 0 ∉ T)
    (hc : ∀ i, 1 ≤ i → i ≤ n → (i ∈ T ↔ 10 ≤ PhiG dt E G A B (lastBefore T i) i)) : TrainTo F n x T := by
  have key : ∀ i ≤ n, (F i x = true ↔ i ∈ T) ∧
      S i x = if i ∈ T then ⟨0, 0, 0, 0⟩ else gateState dt E G A B (lastBefore T i) i := by
    intro i
    induction i with
    | zero =>
      intro _
      refine ⟨?_, ?_⟩
      · rw [(hr.start x).2]; simp [hT0]
      · rw [(hr.start x).1, hx.fresh, if_neg hT0]
        have : lastBefore T 0 = 0 := by simp [lastBefore]
        rw [this, gateState_self]
    | succ i ih =>
      intro hi
      obtain ⟨-, ihS⟩ := ih (by omega)
      have hst : S i x = gateState dt E G A B (lastBefore T (i + 1)) i := by
        rw [ihS, lastBefore_succ]
        by_cases h : i ∈ T
        · rw [if_pos h, if_pos h, gateState_self]
        · rw [if_neg h, if_neg h]
      have hstep := hr.step i x hx.mem
      rw [hx.par, hst, gateState_succ dt E G (lastBefore_le T i) _ (hE (i + 1) hi) (hG (i + 1) hi)
        (by rw [hf (i + 1) hi]; simp [evAt, eq_comm]) (hg (i + 1) hi)] at hstep
      have hci := hc (i + 1) (by omega) hi
      by_cases h : 10 ≤ PhiG dt E G A B (lastBefore T (i + 1)) (i + 1)
      · rw [if_pos h] at hstep
        have := Prod.mk.inj hstep
        rw [this.1, this.2, if_pos (hci.mpr h)]
        exact ⟨by simp [hci.mpr h], rfl⟩
      · rw [if_neg h] at hstep
        have := Prod.mk.inj hstep
        have hn : i + 1 ∉ T := fun hh => h (hci.mp hh)
        rw [this.1, this.2, if_neg hn]
        exact ⟨by simp [hn], rfl⟩
  exact fun i hi => (key i hi).1

theorem gate_none (hr : IsRun net dt inj s0 S F) {x n : ℕ} (hx : IsStd net s0 x) {E G : List (ℕ × K)} {A B : ℕ}
    (hE : InE net dt inj F n x .V E) (hG : InE net dt inj F n x .ge G)
    (hf : InE net dt inj F n x .gf [(A, 50)])
    (hg : ∀ i ≤ n, input net dt inj F .gate x i = (if i = A then 1 else 0) - (if i = B then 1 else 0))
    (h1 : ∀ i, 1 ≤ i → i ≤ n → PhiG dt E G A B 0 i < 10) : TrainTo F n x [] := by
  refine gate_cert hr hx hE hG hf hg [] (by simp) ?_
  intro i a b
  have := h1 i a b
  simp only [List.not_mem_nil, false_iff, not_le, lastBefore, List.filter_nil, List.foldr_nil]
  exact this

theorem gate_one (hr : IsRun net dt inj s0 S F) {x n : ℕ} (hx : IsStd net s0 x) {E G : List (ℕ × K)} {A B : ℕ}
    (hE : InE net dt inj F n x .V E) (hG : InE net dt inj F n x .ge G)
    (hf : InE net dt inj F n x .gf [(A, 50)])
    (hg : ∀ i ≤ n, input net dt inj F .gate x i = (if i = A then 1 else 0) - (if i = B then 1 else 0)) {p : ℕ} (hp : 1 ≤ p)
    (h1 : ∀ i, 1 ≤ i → i < p → PhiG dt E G A B 0 i < 10) (h2 : 10 ≤ PhiG dt E G A B 0 p)
    (h3 : ∀ i, p < i → i ≤ n → PhiG dt E G A B p i < 10) : TrainTo F n x [p] := by
  refine gate_cert hr hx hE hG hf hg [p] (by simp; omega) ?_
  intro i a b
  rcases lt_trichotomy i p with h | rfl | h
  · have : lastBefore [p] i = 0 := by
      unfold lastBefore; rw [List.filter_cons_of_neg (by simp; omega)]; rfl
    rw [this]
    have := h1 i a h
    simp only [List.mem_singleton]
    exact ⟨fun e => by omega, fun e => (not_le.mpr this e).elim⟩
  · have : lastBefore [i] i = 0 := by simp [lastBefore]
    rw [this]; simp [h2]
  · have : lastBefore [p] i = p := by simp [lastBefore, h]
    rw [this]
    have := h3 i h b
    simp only [List.mem_singleton]
    exact ⟨fun e => by omega, fun e => (not_le.mpr this e).elim⟩

end run

theorem rho_pos {dt : K} (h : dt < 20) : 0 < rho dt := by unfold rho; linarith
theorem rho_lt {dt : K} (h : 0 < dt) : rho dt < 1 := by unfold rho; linarith

theorem Psi_lt {dt : K} (hdt : dt < 20) (A B lo i : ℕ) : Psi dt A B lo i < 10 := by
  unfold Psi
  split_ifs
  · have := pow_pos (rho_pos hdt) (openSteps A B lo i); linarith
  · norm_num

end Axon
