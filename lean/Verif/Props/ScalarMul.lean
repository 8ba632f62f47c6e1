import Verif.Proofs.ScalarMul
import Verif.Props.Memory

/-! # C50: the scalar multiplier -/
set_option linter.unusedSectionVars false
namespace Axon
open Spec
variable {K : Type*} [Field K] [LinearOrder K] [IsStrictOrderedRing K] [FloorRing K]

/-- Bounds on the steps of a scalar multiplier whose input interval is `Tmin + v * Tcod` up to `ε`. -/
theorem scal_times {dt : K} (hdt : 0 < dt) {f : K} (hf : 0 < f) {enc : Encoder K} (h1 : 0 < enc.Tmin) (h2 : 0 < enc.Tcod)
    (hdT : dt ≤ enc.Tmin) {v ε : K} (hv0 : 0 ≤ v) (hfv : f * v ≤ 1) (hε : 0 ≤ ε) (hεT : f * (2 * dt + ε) ≤ enc.Tmin) {a b : ℕ} (hab : a ≤ b)
    (hI : |((b : K) * dt - (a : K) * dt) - (enc.Tmin + v * enc.Tcod)| ≤ ε)
    (hlow : dly dt (1 + enc.Tmin) + dly dt 1 ≤ (b - a) + dly dt 2) {C B m q : ℕ} (hm : ⌈enc.Tmax / f / dt⌉₊ = m)
    (hC : C = a + dly dt (1 + enc.Tmin) + m - 1 + dly dt 1) (hB : B = b + dly dt 2)
    (hq : q = ⌈enc.Tmax / dt - f * ((C - B : ℕ) : K)⌉₊) :
    B ≤ C ∧ C < B + m ∧ (1 ≤ q → a + dly dt (1 + enc.Tmin) + m - 1 + dly dt 2 < C + q - 1 + dly dt (1 + enc.Tmin) ∧
    |(((C + q - 1 + dly dt (1 + enc.Tmin) : ℕ) : K) * dt - ((a + dly dt (1 + enc.Tmin) + m - 1 + dly dt 2 : ℕ) : K) * dt) -
      (enc.Tmin + f * v * enc.Tcod)| ≤ f * (2 * dt + ε) + 2 * dt) ∧
      ((C + q - 1 + dly dt (1 + enc.Tmin) : ℕ) : K) * dt ≤
        (a : K) * dt + enc.Tmax / f + f * v * enc.Tcod + 2 * enc.Tmin + 3 + f * (2 * dt + ε) + 4 * dt := by
  have hTmax : 0 < enc.Tmax := add_pos h1 h2
  obtain ⟨d1, d2⟩ := dly_bd hdt (one_pos (α := K))
  obtain ⟨e1, e2⟩ := dly_bd hdt (two_pos (α := K))
  obtain ⟨g1, g2⟩ := dly_bd hdt (show 0 < 1 + enc.Tmin by linarith)
  have hmp : 0 < enc.Tmax / f / dt := div_pos (div_pos hTmax hf) hdt
  have hm1 : 1 ≤ m := by rw [← hm]; exact Nat.one_le_iff_ne_zero.mpr (Nat.ceil_pos.mpr hmp).ne'
  have hm2 : enc.Tmax / f ≤ (m : K) * dt := by
    have := Nat.le_ceil (enc.Tmax / f / dt)
    rwa [hm, div_le_iff₀ hdt] at this
  have hm3 : (m : K) * dt < enc.Tmax / f + dt := by
    have := Nat.ceil_lt_add_one hmp.le
    rw [hm] at this
    have := mul_lt_mul_of_pos_right this hdt
    rwa [add_mul, div_mul_cancel₀ _ hdt.ne', one_mul] at this
  rw [abs_le] at hI
  have hfT : f * (enc.Tmax / f) = enc.Tmax := mul_div_cancel₀ _ hf.ne'
  have hfvT : f * (v * enc.Tcod) ≤ enc.Tcod := by
    have := mul_le_mul_of_nonneg_right hfv h2.le
    linarith
  have hmargin : v * enc.Tcod + (2 * dt + ε) ≤ enc.Tmax / f := by
    rw [le_div_iff₀ hf]
    have : enc.Tmax = enc.Tmin + enc.Tcod := rfl
    rw [this]; linarith
  have hd1 := one_le_dly dt (1 : K)
  have hdT' := one_le_dly dt (1 + enc.Tmin)
  have hCc : (C : K) = (a : K) + (dly dt (1 + enc.Tmin) : K) + (m : K) - 1 + (dly dt (1 : K) : K) := by
    rw [hC]; push_cast [Nat.cast_sub (show 1 ≤ a + dly dt (1 + enc.Tmin) + m by omega)]; ring
  have hBc : (B : K) = (b : K) + (dly dt (2 : K) : K) := by rw [hB]; push_cast; ring
  have hBC : B ≤ C := by
    refine step_le hdt ?_
    rw [hBc, hCc]
    linarith
  have hCB : C < B + m := by omega
  have hX : ((C - B : ℕ) : K) = (C : K) - (B : K) := Nat.cast_sub hBC
  have hXlo : enc.Tmax / f - v * enc.Tcod - (2 * dt + ε) ≤ ((C - B : ℕ) : K) * dt := by
    rw [hX, hBc, hCc]; linarith
  have hXhi : ((C - B : ℕ) : K) * dt ≤ enc.Tmax / f - v * enc.Tcod + (2 * dt + ε) := by
    rw [hX, hBc, hCc]; linarith
  have hfXlo := mul_le_mul_of_nonneg_left hXlo hf.le
  have hfXhi := mul_le_mul_of_nonneg_left hXhi hf.le
  rw [mul_sub, mul_sub, hfT] at hfXlo
  rw [mul_add, mul_sub, hfT] at hfXhi
  have hq2 : enc.Tmax - f * (((C - B : ℕ) : K) * dt) ≤ (q : K) * dt := by
    have := Nat.le_ceil (enc.Tmax / dt - f * ((C - B : ℕ) : K))
    rw [← hq] at this
    have := mul_le_mul_of_nonneg_right this hdt.le
    rw [sub_mul, div_mul_cancel₀ _ hdt.ne'] at this
    linarith
  have hq3 : (q : K) * dt ≤ f * v * enc.Tcod + f * (2 * dt + ε) + dt := by
    rcases Nat.eq_zero_or_pos q with h0 | hpos
    · rw [h0]
      have : 0 ≤ f * v * enc.Tcod := by positivity
      have : 0 ≤ f * (2 * dt + ε) := by positivity
      push_cast; linarith
    · have hpos' : 0 < enc.Tmax / dt - f * ((C - B : ℕ) : K) := by
        rw [hq] at hpos; exact Nat.ceil_pos.mp hpos
      have := Nat.ceil_lt_add_one hpos'.le
      rw [← hq] at this
      have := mul_lt_mul_of_pos_right this hdt
      rw [add_mul, sub_mul, div_mul_cancel₀ _ hdt.ne'] at this
      linarith
  have hcast : ((a + dly dt (1 + enc.Tmin) + m - 1 + dly dt 2 : ℕ) : K) =
      (a : K) + (dly dt (1 + enc.Tmin) : K) + (m : K) - 1 + (dly dt (2 : K) : K) := by
    push_cast [Nat.cast_sub (show 1 ≤ a + dly dt (1 + enc.Tmin) + m by omega)]; ring
  have hC1 : 1 ≤ C := by omega
  have hcast2 : ((C + q - 1 + dly dt (1 + enc.Tmin) : ℕ) : K) = (C : K) + (q : K) - 1 + (dly dt (1 + enc.Tmin) : K) := by
    push_cast [Nat.cast_sub (show 1 ≤ C + q by omega)]; ring
  refine ⟨hBC, hCB, fun hq1 => ⟨?_, ?_⟩, ?_⟩
  · clear hcast hcast2 hX hXlo hXhi hfXlo hfXhi hCc hBc
    have hge : dly dt (2 : K) < dly dt 1 + dly dt (1 + enc.Tmin) := by
      refine step_lt hdt ?_
      push_cast; linarith
    omega
  · rw [hcast, hcast2, hCc, abs_le]
    constructor <;> linarith
  · rw [hcast2, hCc]
    linarith

/-- The condition on the time step in C50: either the value is not too close to 0, or the delays are multiples of `dt`. -/
theorem scal_low {dt : K} (hdt : 0 < dt) {enc : Encoder K} (h1 : 0 < enc.Tmin) (h2 : 0 < enc.Tcod) {v : K} (hv : 0 ≤ v) {a b : ℕ} (hab : a ≤ b)
    (hI : |((b : K) * dt - (a : K) * dt) - (enc.Tmin + v * enc.Tcod)| < dt)
    (h : 3 * dt ≤ v * enc.Tcod ∨ ∃ k l : ℕ, (k : K) * dt = 1 ∧ (l : K) * dt = enc.Tmin) :
    dly dt (1 + enc.Tmin) + dly dt 1 ≤ (b - a) + dly dt 2 := by
  rw [abs_lt] at hI
  have hba : ((b - a : ℕ) : K) = (b : K) - (a : K) := Nat.cast_sub hab
  have hvc : 0 ≤ v * enc.Tcod := mul_nonneg hv h2.le
  rcases h with h | ⟨k, l, hk, hl⟩
  · obtain ⟨d1, d2⟩ := dly_bd hdt (one_pos (α := K))
    obtain ⟨e1, e2⟩ := dly_bd hdt (two_pos (α := K))
    obtain ⟨g1, g2⟩ := dly_bd hdt (show 0 < 1 + enc.Tmin by linarith)
    refine step_le hdt ?_
    push_cast [hba]; linarith
  · have kd : ∀ (n : ℕ) (D : K), 0 < D → (n : K) * dt = D → dly dt D = n := by
      intro n D hD hn
      rw [dly_eq_ceil hdt hD, ← hn, mul_div_cancel_right₀ _ hdt.ne', Nat.ceil_natCast]
    rw [kd k 1 one_pos hk, kd (2 * k) 2 two_pos (by push_cast; linarith), kd (k + l) (1 + enc.Tmin) (by linarith) (by push_cast; linarith)]
    have : l ≤ b - a := by
      refine step_le hdt ?_
      rw [hba]; linarith
    omega

/-- **C50.** A `ScalarMultiplierNetwork(factor)` that is given the value `v` at time `t0` emits `factor * v`, up to
`(3*factor + 2)*dt`, provided `factor * v ≤ 1`. -/
theorem C50_scalar_multiplier (H : EventHeap K) {ord : ℕ → List ℕ → List ℕ} (hord : SetOrder ord) {enc : Encoder K}
    {dt : K} (hdt : 0 < dt) (h2 : 0 < enc.Tcod) (hd : 1 + dt ≤ enc.Tmin) {f : K} (hf : 0 < f) (hfd : f * (3 * dt) ≤ enc.Tmin)
    (name : Option String) {v t0 T : K} (hv0 : 0 ≤ v) (hv1 : v ≤ 1) (hfv : f * v ≤ 1) (ht : 0 ≤ t0)
    (hv : 3 * dt ≤ v * enc.Tcod ∨ ∃ k l : ℕ, (k : K) * dt = 1 ∧ (l : K) * dt = enc.Tmin)
    (hT : t0 + enc.Tmax / f + enc.Tcod + 3 * enc.Tmin + 4 + 5 * dt ≤ T) :
    let p := (scalarMultiplierNetwork f enc name World.empty).1
    let w := (scalarMultiplierNetwork f enc name World.empty).2
    ∃ st, session H ord enc dt T w p.mod [.value v p.input t0] = .ok st ∧
      Carries enc dt ((3 * f + 2) * dt) (st.spikeLog p.output) (f * v) := by
  intro p w
  have h1 : 0 < enc.Tmin := by linarith
  have hTmax : 0 < enc.Tmax := add_pos h1 h2
  obtain ⟨c1, c2, c3, c4, c5⟩ := value_arr hdt h1 h2 (by linarith) hv0 ht
  obtain ⟨g1, g2⟩ := value_gap hdt h1 h2 hd hv0 hv1 ht
  obtain ⟨s1, s2, s3, s4⟩ := scal_times hdt hf h1 h2 (by linarith) hv0 hfv hdt.le (by linarith) c2.le c3.le
    (scal_low hdt h1 h2 hv0 c2.le c3 hv) rfl rfl rfl rfl
  obtain ⟨ns, S, F, st, hses, R⟩ := (scalarMultiplier_lib f enc name).run H hord enc hdt T
    (cs := [.value v 0 t0]) (by simp [CallOK, hv0, hv1])
  have E := R.embeds [1, 2, 3, 4, 5] (by simp) (by simp [injTimes, callSpikes])
  have iI := R.input hdt (k := 0) (by norm_num) rfl (A := [t0, t0 + enc.Tmin + v * enc.Tcod]) rfl 1
  obtain ⟨t5, q1⟩ := scal_core R.run hdt hf hTmax (x := 0) E iI c1 g1 rfl rfl rfl s1 s2 rfl
  obtain ⟨u1, u2⟩ := s3 q1
  refine ⟨st, hses, _, _, R.pair (k := 5) (by norm_num) hdt rfl t5 u1 ?_, ?_⟩
  · have : f * v * enc.Tcod ≤ enc.Tcod := mul_le_of_le_one_left h2.le hfv
    linarith
  · refine u2.trans (le_of_eq ?_)
    ring

/-- A concrete case of C50: 2.5 * 0.3. -/
example : ∃ st, session (sortedHeap _) (fun _ l => l) ⟨10, 100⟩ (1 / 1000) 300
      (scalarMultiplierNetwork (5 / 2) (⟨10, 100⟩ : Encoder ℚ) none World.empty).2 0 [.value (3 / 10) 0 0] = .ok st ∧
      Carries ⟨10, 100⟩ (1 / 1000) ((3 * (5 / 2) + 2) * (1 / 1000)) (st.spikeLog 5) (5 / 2 * (3 / 10)) :=
  C50_scalar_multiplier (sortedHeap _) id_setOrder (enc := (⟨10, 100⟩ : Encoder ℚ)) (by norm_num)
    (by norm_num) (by norm_num) (by norm_num) (by norm_num) none (by norm_num) (by norm_num) (by norm_num) (by norm_num)
    (.inl (by norm_num)) (by norm_num [Encoder.Tmax])

end Axon
