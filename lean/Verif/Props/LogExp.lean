import Verif.Proofs.LogExp
import Verif.Props.Memory
import Mathlib.Analysis.SpecialFunctions.Log.Basic

/-! # C47, C48: the logarithm and exponential networks

With Euler steps of length `dt` an exponential current loses the fraction `dt/20` in each step; `left dt n` is what is
left of it after `n` steps. The first theorem of each property is about every ordered field; the second one, about the
real numbers, compares with the real logarithm and exponential function. -/
set_option linter.unusedSectionVars false
namespace Axon
open Spec

section field
variable {K : Type*} [Field K] [LinearOrder K] [IsStrictOrderedRing K] [FloorRing K]

/-- **C47.** A `LogNetwork` that is given the value `v > 0` at time `t0` emits exactly two spikes, at a distance of
`Tmin + n*dt` up to `3*dt`, where `n` is the number of steps in which an exponential current decays to `v` (up to the
uncertainty `2*dt/Tcod` of the input). -/
theorem C47_log (H : EventHeap K) {ord : ℕ → List ℕ → List ℕ} (hord : SetOrder ord) {enc : Encoder K}
    {dt : K} (hdt : 0 < dt) (hdt' : dt < 20) (h2 : 0 < enc.Tcod) (hd : 1 + dt ≤ enc.Tmin) (hd3 : 3 * dt ≤ enc.Tmin)
    (name : Option String) {v t0 T : K} (hv0 : 2 * dt / enc.Tcod < v) (hv1 : v ≤ 1) (ht : 0 ≤ t0)
    {N : ℕ} (hN : left dt N ≤ v - 2 * dt / enc.Tcod) (hT : t0 + 2 * enc.Tmin + v * enc.Tcod + 3 + 2 * dt + N * dt ≤ T) :
    let p := (logNetwork enc name World.empty).1
    let w := (logNetwork enc name World.empty).2
    ∃ st, session H ord enc dt T w p.mod [.value v p.input t0] = .ok st ∧
      ∃ i j n : ℕ, Pair dt (st.spikeLog p.output) i j ∧
        |((j : K) * dt - (i : K) * dt) - (enc.Tmin + n * dt)| ≤ 3 * dt ∧
        left dt n ≤ v + 2 * dt / enc.Tcod ∧ (n = 0 ∨ v - 2 * dt / enc.Tcod < left dt (n - 1)) := by
  intro p w
  have h1 : 0 < enc.Tmin := by linarith
  have hTmax : 0 < enc.Tmax := add_pos h1 h2
  have hε : 0 < 2 * dt / enc.Tcod := by positivity
  have hv : 0 ≤ v := by linarith
  have hvT : 2 * dt < v * enc.Tcod := by rwa [div_lt_iff₀ h2] at hv0
  obtain ⟨c1, c2, c3, c4, c5⟩ := value_arr hdt h1 h2 (by linarith) hv ht
  obtain ⟨g1, g2⟩ := value_gap hdt h1 h2 hd hv hv1 ht
  obtain ⟨ns, S, F, st, hses, R⟩ := (log_lib enc name).run H hord enc hdt T
    (cs := [.value v 0 t0]) (by simp [CallOK, hv, hv1])
  have E := R.embeds [1, 2, 3, 4] (by simp) (by simp [injTimes, callSpikes])
  have iI := R.input hdt (k := 0) (by norm_num) rfl (A := [t0, t0 + enc.Tmin + v * enc.Tcod]) rfl 1
  simp only [List.map_cons, List.map_nil] at iI
  obtain ⟨L, hout⟩ := log_core R.run hdt (x := 0) (enc := enc) E iI c1 g1
  obtain ⟨d1, d2⟩ := dly_bd hdt (one_pos (α := K))
  obtain ⟨e1, e2⟩ := dly_bd hdt (two_pos (α := K))
  obtain ⟨f1, f2⟩ := dly_bd hdt (show 0 < 1 + enc.Tmin by linarith)
  generalize arrInj dt t0 1 = a at *
  generalize arrInj dt (t0 + enc.Tmin + v * enc.Tcod) 1 = b at *
  have hd1 := one_le_dly dt (1 : K)
  have hd2 := one_le_dly dt (2 : K)
  have hdm := one_le_dly dt (1 + enc.Tmin)
  generalize hA : a + dly dt (1 + enc.Tmin) = A at *
  generalize hB : b + dly dt 1 = B at *
  have hAc : (A : K) = a + dly dt (1 + enc.Tmin) := by rw [← hA]; push_cast; rfl
  have hBc : (B : K) = b + dly dt (1 : K) := by rw [← hB]; push_cast; rfl
  rw [abs_lt] at c3
  have hlo : v * enc.Tcod - 2 * dt < (B : K) * dt - (A : K) * dt := by rw [hAc, hBc]; linarith
  have hhi : (B : K) * dt - (A : K) * dt < v * enc.Tcod + 2 * dt := by rw [hAc, hBc]; linarith
  have hAB : A < B := step_lt hdt (by linarith)
  have hBA : ((B - A : ℕ) : K) = (B : K) - (A : K) := Nat.cast_sub hAB.le
  have hw : enc.waccBar = (10 * 100 / enc.Tcod : K) := rfl
  obtain ⟨X, hX⟩ : ∃ X, X = ((B - A : ℕ) : K) * dt / enc.Tcod := ⟨_, rfl⟩
  have hXlo : v - 2 * dt / enc.Tcod < X := by
    rw [hX, hBA, lt_div_iff₀ h2, sub_mul, div_mul_cancel₀ _ h2.ne']; linarith
  have hXhi : X < v + 2 * dt / enc.Tcod := by
    rw [hX, hBA, div_lt_iff₀ h2, add_mul, div_mul_cancel₀ _ h2.ne']; linarith
  have hX10 : enc.waccBar * dt / 100 * ((B - A : ℕ) : K) = 10 * X := by rw [hX, hw]; ring
  have key : ∃ x n : ℕ, Train F 3 [x] ∧ (x + 2 = B + n ∨ x + 1 = B + n) ∧ b + dly dt 2 < x + dly dt (1 + enc.Tmin) ∧
      left dt n ≤ v + 2 * dt / enc.Tcod ∧ (n = 0 ∨ v - 2 * dt / enc.Tcod < left dt (n - 1)) ∧ n ≤ N := by
    have hp : ∀ x, B ≤ x + 2 → b + dly dt 2 < x + dly dt (1 + enc.Tmin) := by
      intro x hx
      have : b + dly dt 2 + 2 < B + dly dt (1 + enc.Tmin) := by
        refine step_lt hdt ?_
        push_cast; rw [hBc]; linarith
      clear hAc hBc hBA
      omega
    by_cases hX1 : X < 1
    · obtain ⟨n, hn⟩ := decay_exists hdt hdt' (show 0 < X by linarith)
      have hn1 := hn.pos hX1
      have ht := log_acc R.run hdt hdt' (R.std 3 (by norm_num)) (by rw [hw]; positivity) L (by omega) hAB.le le_rfl hX10 hX1 hn
      refine ⟨_, n, ht, .inr (by omega), hp _ (by omega), ((hn n).mpr le_rfl).trans hXhi.le, .inr ?_, (hn N).mp (hN.trans hXlo.le)⟩
      have := (hn (n - 1)).not.mpr (by omega)
      exact hXlo.trans (not_le.mp this)
    · have hX1' := not_lt.mp hX1
      have hm := reach_waccBar h2 hdt
      have hcl := Nat.le_ceil (enc.Tcod / dt)
      rw [div_le_iff₀ hdt] at hcl
      have hm1 : ⌈enc.Tcod / dt⌉₊ ≤ B - A := by
        rw [Nat.ceil_le, div_le_iff₀ hdt]
        rwa [hX, le_div_iff₀ h2, one_mul] at hX1'
      have hm2 : B ≤ A + ⌈enc.Tcod / dt⌉₊ + 1 := by
        refine step_le hdt ?_
        have : v * enc.Tcod ≤ enc.Tcod := mul_le_of_le_one_left h2.le hv1
        push_cast; linarith
      have hm0 : 1 ≤ ⌈enc.Tcod / dt⌉₊ := Nat.one_le_iff_ne_zero.mpr (Nat.ceil_pos.mpr (div_pos h2 hdt)).ne'
      have ht := log_acc_early R.run hdt hdt' (R.std 3 (by norm_num)) (by rw [hw]; positivity) hm L (by omega) hm0 (by omega) le_rfl
      refine ⟨_, 0, ht, by omega, hp _ (by omega), ?_, .inl rfl, Nat.zero_le _⟩
      have : left dt 0 = 1 := by simp [left]
      rw [this]; linarith
  obtain ⟨x, n, hx, hxn, hord', hn1, hn2, hnN⟩ := key
  have t4 := hout [x] (by simp) hx
  have hdisj : (x : K) + 2 = B + n ∨ (x : K) + 1 = B + n := by
    rcases hxn with h | h
    · left; exact_mod_cast h
    · right; exact_mod_cast h
  refine ⟨st, hses, b + dly dt 2, x + dly dt (1 + enc.Tmin), n,
    R.pair (k := 4) (by norm_num) hdt rfl t4 hord' ?_, ?_, hn1, hn2⟩
  · have h5 : (n : K) * dt ≤ N * dt := mul_le_mul_of_nonneg_right (by exact_mod_cast hnN) hdt.le
    push_cast
    rcases hdisj with h | h
    · have : (x : K) * dt = B * dt + n * dt - 2 * dt := by linear_combination dt * h
      rw [add_mul, this, hBc]; linarith
    · have : (x : K) * dt = B * dt + n * dt - dt := by linear_combination dt * h
      rw [add_mul, this, hBc]; linarith
  · push_cast
    rcases hdisj with h | h
    · have : (x : K) * dt = B * dt + n * dt - 2 * dt := by linear_combination dt * h
      rw [add_mul, add_mul, this, hBc, abs_le]; constructor <;> linarith
    · have : (x : K) * dt = B * dt + n * dt - dt := by linear_combination dt * h
      rw [add_mul, add_mul, this, hBc, abs_le]; constructor <;> linarith

/-- **C48.** An `ExponentialNetwork` that is given the value `v` at time `t0` emits, up to `2*dt`, what is left of an
exponential current after the time `v*Tcod` (up to `2*dt`). -/
theorem C48_exponential (H : EventHeap K) {ord : ℕ → List ℕ → List ℕ} (hord : SetOrder ord) {enc : Encoder K}
    {dt : K} (hdt : 0 < dt) (hdt' : dt < 20) (h2 : dt < enc.Tcod) (hd : 1 + dt ≤ enc.Tmin) (hd3 : 2 * dt ≤ enc.Tmin)
    (name : Option String) {v t0 T : K} (hv0 : 0 ≤ v) (hv1 : v ≤ 1) (ht : 0 ≤ t0)
    (hT : t0 + 2 * enc.Tmin + (1 + v) * enc.Tcod + 3 + 3 * dt ≤ T) :
    let p := (exponentialNetwork enc name World.empty).1
    let w := (exponentialNetwork enc name World.empty).2
    ∃ st, session H ord enc dt T w p.mod [.value v p.input t0] = .ok st ∧
      ∃ n : ℕ, |(n : K) * dt - v * enc.Tcod| < 2 * dt ∧ Carries enc dt (2 * dt) (st.spikeLog p.output) (left dt n) := by
  intro p w
  have h1 : 0 < enc.Tmin := by linarith
  have h2' : 0 < enc.Tcod := by linarith
  obtain ⟨c1, c2, c3, c4, c5⟩ := value_arr hdt h1 h2' (by linarith) hv0 ht
  obtain ⟨g1, g2⟩ := value_gap hdt h1 h2' hd hv0 hv1 ht
  obtain ⟨ns, S, F, st, hses, R⟩ := (exponential_lib enc name).run H hord enc hdt T
    (cs := [.value v 0 t0]) (by simp [CallOK, hv0, hv1])
  have E := R.embeds [1, 2, 3, 4] (by simp) (by simp [injTimes, callSpikes])
  have iI := R.input hdt (k := 0) (by norm_num) rfl (A := [t0, t0 + enc.Tmin + v * enc.Tcod]) rfl 1
  simp only [List.map_cons, List.map_nil] at iI
  have core := fun A B j => exp_core (A := A) (B := B) (j := j) R.run hdt hdt' h2' (x := 0) (enc := enc) E iI c1 g1
  obtain ⟨d1, d2⟩ := dly_bd hdt (one_pos (α := K))
  obtain ⟨e1, e2⟩ := dly_bd hdt (two_pos (α := K))
  obtain ⟨f1, f2⟩ := dly_bd hdt (show 0 < 1 + enc.Tmin by linarith)
  have hd1 := one_le_dly dt (1 : K)
  have hdm := one_le_dly dt (1 + enc.Tmin)
  generalize arrInj dt t0 1 = a at *
  generalize arrInj dt (t0 + enc.Tmin + v * enc.Tcod) 1 = b at *
  obtain ⟨A, hA⟩ : ∃ A, A = a + dly dt (1 + enc.Tmin) := ⟨_, rfl⟩
  obtain ⟨B, hB⟩ : ∃ B, B = b + dly dt 1 := ⟨_, rfl⟩
  obtain ⟨j, hj⟩ : ∃ j, j = ⌈rho dt ^ (B - A) * enc.Tcod / dt⌉₊ := ⟨_, rfl⟩
  have hAc : (A : K) = a + dly dt (1 + enc.Tmin) := by rw [hA]; push_cast; rfl
  have hBc : (B : K) = b + dly dt (1 : K) := by rw [hB]; push_cast; rfl
  rw [abs_lt] at c3
  have hvc : 0 ≤ v * enc.Tcod := mul_nonneg hv0 h2'.le
  have hlo : v * enc.Tcod - 2 * dt < (B : K) * dt - (A : K) * dt := by rw [hAc, hBc]; linarith
  have hhi : (B : K) * dt - (A : K) * dt < v * enc.Tcod + 2 * dt := by rw [hAc, hBc]; linarith
  have hr0 := pow_pos (rho_pos hdt') (B - A)
  have hr1 := pow_le_one₀ (n := B - A) (rho_pos hdt').le (rho_lt hdt).le
  have hjp : 0 < rho dt ^ (B - A) * enc.Tcod / dt := by positivity
  have hj1 : rho dt ^ (B - A) * enc.Tcod ≤ (j : K) * dt := by
    have := Nat.le_ceil (rho dt ^ (B - A) * enc.Tcod / dt)
    rwa [← hj, div_le_iff₀ hdt] at this
  have hj2 : (j : K) * dt < rho dt ^ (B - A) * enc.Tcod + dt := by
    have := Nat.ceil_lt_add_one hjp.le
    rw [← hj] at this
    have := mul_lt_mul_of_pos_right this hdt
    rwa [add_mul, div_mul_cancel₀ _ hdt.ne', one_mul] at this
  have hj3 : rho dt ^ (B - A) * enc.Tcod ≤ enc.Tcod := mul_le_of_le_one_left h2'.le hr1
  have hj0 : 1 ≤ j := by rw [hj]; exact Nat.one_le_iff_ne_zero.mpr (Nat.ceil_pos.mpr hjp).ne'
  have hAj : A ≤ B + j - 1 := by
    rcases Nat.lt_or_ge B A with h | h
    · have e0 : B - A = 0 := by omega
      rw [e0, pow_zero, one_mul] at hj1
      have : 1 < j := step_lt hdt (by push_cast; linarith)
      have : A ≤ B + 1 := by
        refine step_le hdt ?_
        push_cast; linarith
      omega
    · omega
  obtain ⟨t4, -⟩ := core A B j hA hB hj hAj
  have hk : |((B - A : ℕ) : K) * dt - v * enc.Tcod| < 2 * dt := by
    rcases Nat.lt_or_ge B A with h | h
    · have e0 : B - A = 0 := by omega
      have : (B : K) * dt < (A : K) * dt := mul_lt_mul_of_pos_right (by exact_mod_cast h) hdt
      rw [e0, Nat.cast_zero, zero_mul, zero_sub, abs_neg, abs_of_nonneg hvc]
      linarith
    · rw [Nat.cast_sub h, sub_mul, abs_lt]
      constructor <;> linarith
  have hcast : ((B + j - 1 + dly dt (1 + enc.Tmin) : ℕ) : K) = (B : K) + j - 1 + dly dt (1 + enc.Tmin) := by
    push_cast [Nat.cast_sub (show 1 ≤ B + j by omega)]; ring
  refine ⟨st, hses, B - A, hk, _, _, R.pair (k := 4) (by norm_num) hdt rfl t4 ?_ ?_, ?_⟩
  · have : dly dt 2 < dly dt 1 + dly dt (1 + enc.Tmin) := by
      refine step_lt hdt ?_
      push_cast; linarith
    clear hcast hAc hBc
    omega
  · rw [hcast, hBc]; linarith
  · have : left dt (B - A) = rho dt ^ (B - A) := rfl
    rw [hcast, hBc, this]
    push_cast
    rw [abs_le]; constructor <;> linarith

/-- A concrete case of C47: the logarithm of 1/2, with `dt = 0.1`; 140 steps reduce the current to at most 0.498. -/
example : ∃ st, session (sortedHeap _) (fun _ l => l) ⟨10, 100⟩ (1 / 10) 100
      (logNetwork (⟨10, 100⟩ : Encoder ℚ) none World.empty).2 0 [.value (1 / 2) 0 0] = .ok st ∧
      ∃ i j n : ℕ, Pair (1 / 10) (st.spikeLog 4) i j ∧ |((j : ℚ) * (1 / 10) - (i : ℚ) * (1 / 10)) - (10 + n * (1 / 10))| ≤ 3 * (1 / 10) ∧
        left (1 / 10 : ℚ) n ≤ 1 / 2 + 2 * (1 / 10) / 100 ∧ (n = 0 ∨ 1 / 2 - 2 * (1 / 10) / 100 < left (1 / 10 : ℚ) (n - 1)) :=
  C47_log (sortedHeap _) id_setOrder (enc := (⟨10, 100⟩ : Encoder ℚ)) (by norm_num) (by norm_num) (by norm_num)
    (by norm_num) (by norm_num) none (by norm_num) (by norm_num) (by norm_num) (N := 140)
    (by unfold left; norm_num) (by norm_num)

/-- A concrete case of C48: the exponential of 0.3 with `dt = 0.1`. -/
example : ∃ st, session (sortedHeap _) (fun _ l => l) ⟨10, 100⟩ (1 / 10) 200
      (exponentialNetwork (⟨10, 100⟩ : Encoder ℚ) none World.empty).2 0 [.value (3 / 10) 0 0] = .ok st ∧
      ∃ n : ℕ, |(n : ℚ) * (1 / 10) - 3 / 10 * 100| < 2 * (1 / 10) ∧
        Carries ⟨10, 100⟩ (1 / 10) (2 * (1 / 10)) (st.spikeLog 4) (left (1 / 10) n) :=
  C48_exponential (sortedHeap _) id_setOrder (enc := (⟨10, 100⟩ : Encoder ℚ)) (by norm_num) (by norm_num) (by norm_num)
    (by norm_num) (by norm_num) none (by norm_num) (by norm_num) (by norm_num) (by norm_num)

end field

/-! ## The real numbers -/

/-- One step of decay, logarithmically. -/
theorem log_rho {dt : ℝ} (h0 : 0 < dt) (h1 : dt < 20) : dt / 20 ≤ -Real.log (rho dt) ∧ -Real.log (rho dt) ≤ dt / (20 - dt) := by
  have hp := rho_pos h1
  refine ⟨?_, ?_⟩
  · have := Real.log_le_sub_one_of_pos hp
    unfold rho at this ⊢; linarith
  · have := Real.log_le_sub_one_of_pos (inv_pos.mpr hp)
    rw [Real.log_inv] at this
    refine this.trans (le_of_eq ?_)
    unfold rho
    have : (20 : ℝ) - dt ≠ 0 := by linarith
    field_simp
    ring

theorem left_exp {dt : ℝ} (h1 : dt < 20) (n : ℕ) : left dt n = Real.exp (n * Real.log (rho dt)) := by
  rw [Real.exp_nat_mul, Real.exp_log (rho_pos h1)]; rfl

/-- **C47** over the real numbers: the output interval is `Tmin + 20*ln(1/v)` up to an explicit error. -/
theorem C47_log_real (H : EventHeap ℝ) {ord : ℕ → List ℕ → List ℕ} (hord : SetOrder ord) {enc : Encoder ℝ}
    {dt : ℝ} (hdt : 0 < dt) (hdt' : dt < 20) (h2 : 0 < enc.Tcod) (hd : 1 + dt ≤ enc.Tmin) (hd3 : 3 * dt ≤ enc.Tmin)
    (name : Option String) {v t0 T : ℝ} (hv0 : 2 * dt / enc.Tcod < v) (hv1 : v ≤ 1) (ht : 0 ≤ t0)
    (hT : t0 + 2 * enc.Tmin + v * enc.Tcod + 3 + 3 * dt + 20 * Real.log (1 / (v - 2 * dt / enc.Tcod)) ≤ T) :
    let p := (logNetwork enc name World.empty).1
    let w := (logNetwork enc name World.empty).2
    ∃ st, session H ord enc dt T w p.mod [.value v p.input t0] = .ok st ∧
      ∃ i j : ℕ, Pair dt (st.spikeLog p.output) i j ∧
        enc.Tmin + (20 - dt) * Real.log (1 / (v + 2 * dt / enc.Tcod)) - 3 * dt ≤ (j : ℝ) * dt - (i : ℝ) * dt ∧
        (j : ℝ) * dt - (i : ℝ) * dt ≤ enc.Tmin + 20 * Real.log (1 / (v - 2 * dt / enc.Tcod)) + 4 * dt := by
  intro p w
  have hε : 0 < 2 * dt / enc.Tcod := by positivity
  have hl : 0 < v - 2 * dt / enc.Tcod := by linarith
  have hlog := log_rho hdt hdt'
  have hL : 0 ≤ Real.log (1 / (v - 2 * dt / enc.Tcod)) := Real.log_nonneg (by
    rw [le_div_iff₀ hl]; linarith)
  obtain ⟨N, hN⟩ : ∃ N, N = ⌈20 * Real.log (1 / (v - 2 * dt / enc.Tcod)) / dt⌉₊ := ⟨_, rfl⟩
  have hN1 : 20 * Real.log (1 / (v - 2 * dt / enc.Tcod)) ≤ N * dt := by
    have := Nat.le_ceil (20 * Real.log (1 / (v - 2 * dt / enc.Tcod)) / dt)
    rwa [← hN, div_le_iff₀ hdt] at this
  have hN2 : N * dt ≤ 20 * Real.log (1 / (v - 2 * dt / enc.Tcod)) + dt := by
    have := Nat.ceil_lt_add_one (show 0 ≤ 20 * Real.log (1 / (v - 2 * dt / enc.Tcod)) / dt by positivity)
    rw [← hN] at this
    have := mul_le_mul_of_nonneg_right this.le hdt.le
    rwa [add_mul, div_mul_cancel₀ _ hdt.ne', one_mul] at this
  have hNl : left dt N ≤ v - 2 * dt / enc.Tcod := by
    rw [left_exp hdt', ← Real.le_log_iff_exp_le hl]
    rw [one_div, Real.log_inv] at hN1
    have : (N : ℝ) * (dt / 20) ≤ N * -Real.log (rho dt) := mul_le_mul_of_nonneg_left hlog.1 (Nat.cast_nonneg _)
    linarith
  obtain ⟨st, hses, i, j, n, hp, herr, hn1, hn2⟩ := C47_log H hord hdt hdt' h2 hd hd3 name hv0 hv1 ht hNl (T := T) (by linarith)
  rw [abs_le] at herr
  refine ⟨st, hses, i, j, hp, ?_, ?_⟩
  · have : (20 - dt) * Real.log (1 / (v + 2 * dt / enc.Tcod)) ≤ n * dt := by
      rw [left_exp hdt', ← Real.le_log_iff_exp_le (by linarith)] at hn1
      have h3 : (n : ℝ) * -Real.log (rho dt) ≤ n * (dt / (20 - dt)) := mul_le_mul_of_nonneg_left hlog.2 (Nat.cast_nonneg _)
      have h4 : Real.log (1 / (v + 2 * dt / enc.Tcod)) ≤ n * (dt / (20 - dt)) := by
        rw [one_div, Real.log_inv]; linarith
      have := mul_le_mul_of_nonneg_left h4 (show 0 ≤ 20 - dt by linarith)
      rwa [show (20 - dt) * ((n : ℝ) * (dt / (20 - dt))) = n * dt by
        have : (20 - dt) ≠ 0 := by linarith
        field_simp] at this
    linarith
  · have : n * dt ≤ 20 * Real.log (1 / (v - 2 * dt / enc.Tcod)) + dt := by
      rcases Nat.eq_zero_or_pos n with rfl | hpos
      · push_cast; linarith
      · have h3 := hn2.resolve_left (by omega)
        rw [left_exp hdt', ← Real.log_lt_iff_lt_exp hl] at h3
        rw [one_div, Real.log_inv]
        have h4 : ((n - 1 : ℕ) : ℝ) * (dt / 20) ≤ ((n - 1 : ℕ) : ℝ) * -Real.log (rho dt) := mul_le_mul_of_nonneg_left hlog.1 (Nat.cast_nonneg _)
        have h5 : ((n - 1 : ℕ) : ℝ) = n - 1 := by push_cast [Nat.cast_sub hpos]; ring
        rw [h5] at h3 h4
        linarith
    linarith

/-- A concrete case of C47 over the real numbers. -/
noncomputable example : ∃ st, session (sortedHeap _) (fun _ l => l) ⟨10, 100⟩ (1 / 10) 100
      (logNetwork (⟨10, 100⟩ : Encoder ℝ) none World.empty).2 0 [.value (1 / 2) 0 0] = .ok st ∧
      ∃ i j : ℕ, Pair (1 / 10) (st.spikeLog 4) i j ∧
        10 + (20 - 1 / 10) * Real.log (1 / (1 / 2 + 2 * (1 / 10) / 100)) - 3 * (1 / 10) ≤ (j : ℝ) * (1 / 10) - (i : ℝ) * (1 / 10) ∧
        (j : ℝ) * (1 / 10) - (i : ℝ) * (1 / 10) ≤ 10 + 20 * Real.log (1 / (1 / 2 - 2 * (1 / 10) / 100)) + 4 * (1 / 10) :=
  C47_log_real (sortedHeap _) id_setOrder (enc := (⟨10, 100⟩ : Encoder ℝ)) (by norm_num) (by norm_num) (by norm_num)
    (by norm_num) (by norm_num) none (by norm_num) (by norm_num) (by norm_num) (by
      have := Real.log_le_sub_one_of_pos (show (0 : ℝ) < 1 / (1 / 2 - 2 * (1 / 10) / 100) by norm_num)
      norm_num at this ⊢; linarith)

/-- **C48** over the real numbers: the output carries `exp(-v*Tcod/20)` up to an explicit error of order `dt`. -/
theorem C48_exponential_real (H : EventHeap ℝ) {ord : ℕ → List ℕ → List ℕ} (hord : SetOrder ord) {enc : Encoder ℝ}
    {dt : ℝ} (hdt : 0 < dt) (hdt' : dt < 20) (h2 : dt < enc.Tcod) (hd : 1 + dt ≤ enc.Tmin) (hd3 : 2 * dt ≤ enc.Tmin)
    (name : Option String) {v t0 T : ℝ} (hv0 : 0 ≤ v) (hv1 : v ≤ 1) (ht : 0 ≤ t0)
    (hT : t0 + 2 * enc.Tmin + (1 + v) * enc.Tcod + 3 + 3 * dt ≤ T) :
    let p := (exponentialNetwork enc name World.empty).1
    let w := (exponentialNetwork enc name World.empty).2
    ∃ st, session H ord enc dt T w p.mod [.value v p.input t0] = .ok st ∧
      Carries enc dt (2 * dt + enc.Tcod * (dt / 10 + (enc.Tcod + 2 * dt) / 20 * (dt / (20 - dt)))) (st.spikeLog p.output)
        (Real.exp (-(v * enc.Tcod / 20))) := by
  intro p w
  have h2' : 0 < enc.Tcod := by linarith
  obtain ⟨st, hses, n, hn, i, j, hp, herr⟩ := C48_exponential H hord hdt hdt' h2 hd hd3 name hv0 hv1 ht hT
  refine ⟨st, hses, i, j, hp, ?_⟩
  have hlog := log_rho hdt hdt'
  have hvT : v * enc.Tcod ≤ enc.Tcod := mul_le_of_le_one_left h2'.le hv1
  have hvT0 : 0 ≤ v * enc.Tcod := by positivity
  rw [abs_lt] at hn
  rw [abs_le] at herr
  have hnn : (0 : ℝ) ≤ n := Nat.cast_nonneg _
  have hq : 0 < dt / (20 - dt) := div_pos hdt (by linarith)
  have hup : (n : ℝ) * Real.log (rho dt) ≤ -(v * enc.Tcod / 20) + dt / 10 := by
    have := mul_le_mul_of_nonneg_left hlog.1 hnn
    linarith
  have hdn : -(v * enc.Tcod / 20) - (dt / 10 + (enc.Tcod + 2 * dt) / 20 * (dt / (20 - dt))) ≤ (n : ℝ) * Real.log (rho dt) := by
    have h3 := mul_le_mul_of_nonneg_left hlog.2 hnn
    have h4 : dt / (20 - dt) = dt / 20 + dt / 20 * (dt / (20 - dt)) := by
      have : (20 - dt) ≠ 0 := by linarith
      field_simp; ring
    have h5 : (n : ℝ) * (dt / 20 * (dt / (20 - dt))) ≤ (enc.Tcod + 2 * dt) / 20 * (dt / (20 - dt)) := by
      rw [← mul_assoc]
      exact mul_le_mul_of_nonneg_right (by linarith) hq.le
    rw [h4, mul_add] at h3
    linarith
  obtain ⟨δ, hδ⟩ : ∃ δ, δ = dt / 10 + (enc.Tcod + 2 * dt) / 20 * (dt / (20 - dt)) := ⟨_, rfl⟩
  have hδ1 : dt / 10 ≤ δ := by rw [hδ]; have : 0 ≤ (enc.Tcod + 2 * dt) / 20 * (dt / (20 - dt)) := by positivity
                               linarith
  rw [← hδ] at hdn ⊢
  have lip : ∀ s t : ℝ, s ≤ 0 → s ≤ t → Real.exp t - Real.exp s ≤ Real.exp t * (t - s) := by
    intro s t _ _
    have h := Real.add_one_le_exp (s - t)
    have h2 : Real.exp s = Real.exp t * Real.exp (s - t) := by rw [← Real.exp_add]; ring_nf
    have h3 := Real.exp_pos t
    rw [h2]; nlinarith
  have lip' : ∀ s t : ℝ, t ≤ 0 → s ≤ t → Real.exp t - Real.exp s ≤ t - s := by
    intro s t h0 hst
    refine (lip s t (by linarith) hst).trans ?_
    exact mul_le_of_le_one_left (by linarith) (Real.exp_le_one_iff.mpr h0)
  have hs0 : (n : ℝ) * Real.log (rho dt) ≤ 0 := by
    have := mul_nonneg hnn (show 0 ≤ -Real.log (rho dt) from le_trans (by positivity) hlog.1)
    linarith
  have ht0 : -(v * enc.Tcod / 20) ≤ 0 := by
    have : 0 ≤ v * enc.Tcod / 20 := by positivity
    linarith
  have hle : |left dt n - Real.exp (-(v * enc.Tcod / 20))| ≤ δ := by
    rw [left_exp hdt', abs_le]
    rcases le_total ((n : ℝ) * Real.log (rho dt)) (-(v * enc.Tcod / 20)) with h | h
    · have := lip' _ _ ht0 h
      have := Real.exp_le_exp.mpr h
      constructor <;> linarith
    · have := lip' _ _ hs0 h
      have := Real.exp_le_exp.mpr h
      constructor <;> linarith
  rw [abs_le] at hle ⊢
  have hm1 := mul_le_mul_of_nonneg_left hle.1 h2'.le
  have hm2 := mul_le_mul_of_nonneg_left hle.2 h2'.le
  constructor <;> linarith

/-- A concrete case of C48 over the real numbers. -/
noncomputable example : ∃ st, session (sortedHeap _) (fun _ l => l) ⟨10, 100⟩ (1 / 1000) 200
      (exponentialNetwork (⟨10, 100⟩ : Encoder ℝ) none World.empty).2 0 [.value (3 / 10) 0 0] = .ok st ∧
      Carries ⟨10, 100⟩ (1 / 1000) (2 * (1 / 1000) + 100 * (1 / 1000 / 10 + (100 + 2 * (1 / 1000)) / 20 * (1 / 1000 / (20 - 1 / 1000))))
        (st.spikeLog 4) (Real.exp (-(3 / 10 * 100 / 20))) :=
  C48_exponential_real (sortedHeap _) id_setOrder (enc := (⟨10, 100⟩ : Encoder ℝ)) (by norm_num) (by norm_num) (by norm_num)
    (by norm_num) (by norm_num) none (by norm_num) (by norm_num) (by norm_num) (by norm_num)

end Axon
