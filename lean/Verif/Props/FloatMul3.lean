import Verif.Props.FloatMul2

/-! # C110: the multiplier in Python floats against the product -/
set_option linter.unusedSectionVars false
namespace Axon
open Spec

/-- Seven steps of decay. -/
theorem rho_seven {x : ℚ} (h0 : 0 ≤ x) (h1 : x ≤ 1 / 20) : 1 - 7 * x ≤ (1 - x) ^ 7 ∧ 1 ≤ (1 + 9 * x) * (1 - x) ^ 7 := by
  have hxx : 0 ≤ x * x := mul_nonneg h0 h0
  have hx3 : 0 ≤ x * x * x := mul_nonneg hxx h0
  have h2 : x * x ≤ x * (1 / 20) := mul_le_mul_of_nonneg_left h1 h0
  have h3 : x * x * x ≤ x * x * (1 / 20) := mul_le_mul_of_nonneg_left h1 hxx
  have h4 : x * x * x * x ≤ x * x * x * (1 / 20) := mul_le_mul_of_nonneg_left h1 hx3
  have b7 : 1 - 7 * x + 21 * (x * x) - 35 * (x * x * x) ≤ (1 - x) ^ 7 := by
    have e : (1 - x) ^ 7 = 1 - 7 * x + 21 * (x * x) - 35 * (x * x * x) + x * x * x * x * (35 - 21 * x + 7 * (x * x) - x * x * x) := by ring
    have : 0 ≤ x * x * x * x * (35 - 21 * x + 7 * (x * x) - x * x * x) := mul_nonneg (mul_nonneg hx3 h0) (by linarith)
    linarith
  constructor
  · linarith
  · refine le_trans ?_ (mul_le_mul_of_nonneg_left b7 (by linarith))
    have e : (1 + 9 * x) * (1 - 7 * x + 21 * (x * x) - 35 * (x * x * x)) = 1 + 2 * x - 42 * (x * x) + 154 * (x * x * x) - 315 * (x * x * x * x) := by ring
    rw [e]
    have h5 : x * x * x * x ≤ x * x * (1 / 400) := by linarith
    have h6 : 0 ≤ x * (x - 1 / 20) * (x - 1 / 20) := by
      have := mul_nonneg h0 (mul_self_nonneg (x - 1 / 20))
      linarith
    have h7 : x * (x - 1 / 20) * (x - 1 / 20) = x * x * x - 1 / 10 * (x * x) + x * (1 / 400) := by ring
    rw [h7] at h6
    linarith

/-- **C110.** A `MultiplierNetwork` in Python floats that is given `v1` at time `t1` and `v2` at time `t2` emits `v1 * v2`, up to
`20*dt/Tcod + 9*dt/20`, provided the decay to the product takes less than 343 ms (`M` steps) and the factors are not within `7*dt/Tcod` of 0 or 1. -/
theorem C110_product (H : EventHeap Double) {ord : ℕ → List ℕ → List ℕ} (hord : SetOrder ord) {enc : Encoder Double} {dt : Double}
    (hdt : 0 < dt.val) (hdt1 : dt.val ≤ 1) (hC : 13 * dt.val ≤ enc.Tcod.val) (hmin : 1 + 12 * dt.val ≤ enc.Tmin.val) (hmax : enc.Tmax.val ≤ 2 ^ 24 * dt.val)
    (name : Option String) {v1 v2 t1 t2 T : Double} (hv1 : 6 * dt.val / enc.Tcod.val < v1.val) (hv1' : v1.val ≤ 1 - 7 * dt.val / enc.Tcod.val)
    (hv2 : 6 * dt.val / enc.Tcod.val < v2.val) (hv2' : v2.val ≤ 1 - 7 * dt.val / enc.Tcod.val) (ht1 : 0 ≤ t1.val) (ht1' : t1.val ≤ 2 ^ 48 * dt.val)
    (ht2 : 0 ≤ t2.val) (ht2' : t2.val ≤ 2 ^ 48 * dt.val) {M : ℕ} (hM : rhoQ dt ^ M ≤ (v1.val - 6 * dt.val / enc.Tcod.val) * (v2.val - 6 * dt.val / enc.Tcod.val))
    (hM1 : ((M : ℚ) + 11) * dt.val ≤ 343) (hM2 : M + 8 ≤ 2 ^ 23)
    (hT1 : t1.val + 2 * enc.Tmin.val + 2 * enc.Tcod.val + 6 + (M + 17) * dt.val ≤ T.val) (hT2 : t2.val + 2 * enc.Tmin.val + 2 * enc.Tcod.val + 6 + (M + 17) * dt.val ≤ T.val) :
    let p := (multiplierFl enc name World.empty).1
    let w := (multiplierFl enc name World.empty).2
    ∃ st, sessionFl H ord enc dt T w p.1 [.value v1 p.2.1 t1, .value v2 p.2.2.1 t2] = .ok st ∧
      CarriesFl enc (20 * dt.val / enc.Tcod.val + 9 * dt.val / 20) (st.spikeLog p.2.2.2) (v1.val * v2.val) := by
  intro p w
  obtain ⟨st, s1, x, y, n, s2, s3, s4, s5⟩ := C110_product_steps H hord hdt hdt1 hC hmin hmax name hv1 hv1' hv2 hv2' ht1 ht1' ht2 ht2' hM hM1 hM2 hT1 hT2
  refine ⟨st, s1, x, y, s2, ?_⟩
  have hC0 : 0 < enc.Tcod.val := by linarith
  obtain ⟨e, he⟩ : ∃ e, e = dt.val / enc.Tcod.val := ⟨_, rfl⟩
  have e6 : 6 * dt.val / enc.Tcod.val = 6 * e := by rw [he]; ring
  have e7 : 7 * dt.val / enc.Tcod.val = 7 * e := by rw [he]; ring
  have e8 : 8 * dt.val / enc.Tcod.val = 8 * e := by rw [he]; ring
  have e20 : 20 * dt.val / enc.Tcod.val = 20 * e := by rw [he]; ring
  have e0 : 0 < e := by rw [he]; positivity
  rw [e6] at hv1 hv2 s4 s5
  rw [e7] at hv1' hv2'
  rw [e8] at s3
  rw [e20]
  obtain ⟨R, hR⟩ : ∃ R, R = rhoQ dt ^ 7 := ⟨_, rfl⟩
  have h7 := rho_seven (x := dt.val / 20) (by positivity) (by linarith)
  have hρ : rhoQ dt = 1 - dt.val / 20 := rfl
  rw [← hρ, ← hR] at h7
  rw [← hR] at s4 s5
  generalize rhoQ dt ^ n = r at *
  have pos1 : 0 < v1.val - 6 * e := by linarith
  have pos2 : 0 < v2.val - 6 * e := by linarith
  have PL : v1.val * v2.val - 12 * e ≤ (v1.val - 6 * e) * (v2.val - 6 * e) := by
    have : 0 ≤ 6 * e * (1 - v1.val) := mul_nonneg (by linarith) (by linarith)
    have : 0 ≤ 6 * e * (1 - v2.val) := mul_nonneg (by linarith) (by linarith)
    have : 0 ≤ e * e := mul_nonneg e0.le e0.le
    nlinarith
  have PU : (v1.val + 6 * e) * (v2.val + 6 * e) ≤ v1.val * v2.val + 12 * e := by
    have : 0 ≤ 6 * e * (1 - (v1.val + 6 * e)) := mul_nonneg (by linarith) (by linarith)
    have : 0 ≤ 6 * e * (1 - v2.val) := mul_nonneg (by linarith) (by linarith)
    nlinarith
  have U1 : (v1.val + 6 * e) * (v2.val + 6 * e) ≤ 1 := mul_le_one₀ (by linarith) (by linarith) (by linarith)
  have U0 : 0 ≤ (v1.val + 6 * e) * (v2.val + 6 * e) := mul_nonneg (by linarith) (by linarith)
  have L1 : (v1.val - 6 * e) * (v2.val - 6 * e) ≤ 1 := mul_le_one₀ (by linarith) pos2.le (by linarith)
  have L0 : 0 ≤ (v1.val - 6 * e) * (v2.val - 6 * e) := mul_nonneg pos1.le pos2.le
  generalize (v1.val - 6 * e) * (v2.val - 6 * e) = L at *
  generalize (v1.val + 6 * e) * (v2.val + 6 * e) = U at *
  have lo : L - 7 * (dt.val / 20) ≤ r := by
    have h1 : (1 - 7 * (dt.val / 20)) * L ≤ R * L := mul_le_mul_of_nonneg_right h7.1 L0
    have h2 : 7 * (dt.val / 20) * L ≤ 7 * (dt.val / 20) * 1 := mul_le_mul_of_nonneg_left L1 (by positivity)
    linarith
  have hi : r ≤ U + 9 * (dt.val / 20) := by
    have hc : 0 ≤ 1 + 9 * (dt.val / 20) := by positivity
    have h1 : (1 + 9 * (dt.val / 20)) * (R * r) ≤ (1 + 9 * (dt.val / 20)) * U := mul_le_mul_of_nonneg_left s5 hc
    have h2 : 9 * (dt.val / 20) * U ≤ 9 * (dt.val / 20) * 1 := mul_le_mul_of_nonneg_left U1 (by positivity)
    by_cases hr0 : 0 ≤ r
    · have h3 : 1 * r ≤ (1 + 9 * (dt.val / 20)) * R * r := mul_le_mul_of_nonneg_right h7.2 hr0
      linarith
    · have : 0 ≤ 9 * (dt.val / 20) := by positivity
      linarith
  obtain ⟨q1, q2⟩ := abs_le.mp s3
  rw [abs_le]; constructor <;> linarith

/-- **C110 (real).** It suffices that `20*ln` of the inverse product is at most `343 - 12*dt` (ms), which is the case for all products above `3.6e-8`. -/
theorem C110_product_real (H : EventHeap Double) {ord : ℕ → List ℕ → List ℕ} (hord : SetOrder ord) {enc : Encoder Double} {dt : Double}
    (hdt : 1 / 10000 ≤ dt.val) (hdt1 : dt.val ≤ 1) (hC : 13 * dt.val ≤ enc.Tcod.val) (hmin : 1 + 12 * dt.val ≤ enc.Tmin.val) (hmax : enc.Tmax.val ≤ 2 ^ 24 * dt.val)
    (name : Option String) {v1 v2 t1 t2 T : Double} (hv1 : 6 * dt.val / enc.Tcod.val < v1.val) (hv1' : v1.val ≤ 1 - 7 * dt.val / enc.Tcod.val)
    (hv2 : 6 * dt.val / enc.Tcod.val < v2.val) (hv2' : v2.val ≤ 1 - 7 * dt.val / enc.Tcod.val) (ht1 : 0 ≤ t1.val) (ht1' : t1.val ≤ 2 ^ 48 * dt.val)
    (ht2 : 0 ≤ t2.val) (ht2' : t2.val ≤ 2 ^ 48 * dt.val)
    (hM : 20 * Real.log (1 / ((v1.real - 6 * dt.real / enc.Tcod.real) * (v2.real - 6 * dt.real / enc.Tcod.real))) ≤ 343 - 12 * dt.real)
    (hT1 : t1.val + 2 * enc.Tmin.val + 2 * enc.Tcod.val + 355 ≤ T.val) (hT2 : t2.val + 2 * enc.Tmin.val + 2 * enc.Tcod.val + 355 ≤ T.val) :
    let p := (multiplierFl enc name World.empty).1
    let w := (multiplierFl enc name World.empty).2
    ∃ st, sessionFl H ord enc dt T w p.1 [.value v1 p.2.1 t1, .value v2 p.2.2.1 t2] = .ok st ∧
      CarriesFl enc (20 * dt.val / enc.Tcod.val + 9 * dt.val / 20) (st.spikeLog p.2.2.2) (v1.val * v2.val) := by
  have hdt0 : 0 < dt.val := by linarith
  have hC0 : 0 < enc.Tcod.val := by linarith
  have r0 : 0 < dt.real := by exact_mod_cast hdt0
  have r1 : dt.real ≤ 1 := by exact_mod_cast hdt1
  have hε0 : 0 < 6 * dt.val / enc.Tcod.val := by positivity
  have hε7 : 0 < 7 * dt.val / enc.Tcod.val := by positivity
  obtain ⟨X, hX⟩ : ∃ X, X = (v1.val - 6 * dt.val / enc.Tcod.val) * (v2.val - 6 * dt.val / enc.Tcod.val) := ⟨_, rfl⟩
  have hX0 : 0 < X := by rw [hX]; exact mul_pos (by linarith) (by linarith)
  have hX1 : X ≤ 1 := by rw [hX]; exact mul_le_one₀ (by linarith) (by linarith) (by linarith)
  have hXr : ((X : ℚ) : ℝ) = (v1.real - 6 * dt.real / enc.Tcod.real) * (v2.real - 6 * dt.real / enc.Tcod.real) := by rw [hX]; push_cast; rfl
  have hX0r : (0 : ℝ) < ((X : ℚ) : ℝ) := by exact_mod_cast hX0
  have hX1r : ((X : ℚ) : ℝ) ≤ 1 := by exact_mod_cast hX1
  rw [← hXr] at hM
  have hL : 0 ≤ Real.log (1 / ((X : ℚ) : ℝ)) := Real.log_nonneg (by rw [le_div_iff₀ hX0r]; linarith)
  obtain ⟨M, hMd⟩ : ∃ M, M = ⌈20 * Real.log (1 / ((X : ℚ) : ℝ)) / dt.real⌉₊ := ⟨_, rfl⟩
  have hN1 : 20 * Real.log (1 / ((X : ℚ) : ℝ)) ≤ M * dt.real := by
    have := Nat.le_ceil (20 * Real.log (1 / ((X : ℚ) : ℝ)) / dt.real)
    rwa [← hMd, div_le_iff₀ r0] at this
  have hN2 : M * dt.real ≤ 20 * Real.log (1 / ((X : ℚ) : ℝ)) + dt.real := by
    have := Nat.ceil_lt_add_one (show 0 ≤ 20 * Real.log (1 / ((X : ℚ) : ℝ)) / dt.real by positivity)
    rw [← hMd] at this
    have := mul_le_mul_of_nonneg_right this.le r0.le
    rwa [add_mul, div_mul_cancel₀ _ r0.ne', one_mul] at this
  have hNl : rhoQ dt ^ M ≤ X := by
    have : rho dt.real ^ M ≤ ((X : ℚ) : ℝ) := by
      rw [← Real.exp_log (rho_pos (show dt.real < 20 by linarith)), ← Real.exp_nat_mul, ← Real.le_log_iff_exp_le hX0r]
      rw [one_div, Real.log_inv] at hN1
      have : (M : ℝ) * (dt.real / 20) ≤ M * -Real.log (rho dt.real) := mul_le_mul_of_nonneg_left (log_rho r0 (by linarith)).1 (Nat.cast_nonneg _)
      linarith
    rw [← rhoQ_real] at this
    exact_mod_cast this
  have hM11 : ((M : ℚ) + 11) * dt.val ≤ 343 := by
    have : ((M : ℝ) + 11) * dt.real ≤ 343 := by linarith
    unfold Fl.real at this
    exact_mod_cast this
  have hMd' : M + 8 ≤ 2 ^ 23 := by
    have h1 : ((M : ℚ) + 11) * (1 / 10000) ≤ ((M : ℚ) + 11) * dt.val := mul_le_mul_of_nonneg_left hdt (by positivity)
    have h2 : (M : ℚ) + 8 ≤ 2 ^ 23 := by norm_num; linarith
    exact_mod_cast h2
  rw [hX] at hNl
  exact C110_product H hord hdt0 hdt1 hC hmin hmax name hv1 hv1' hv2 hv2' ht1 ht1' ht2 ht2' hNl hM11 hMd' (by linarith) (by linarith)

/-- **C110 (the same network).** The network of this file is the network of `Verif/Model/Networks.lean` with every weight and delay rounded. -/
theorem C110_same_network (enc : Encoder Double) (name : Option String) :
    List.Forall₂ Rounds (multiplierFl enc name World.empty).2.syns (multiplierNetwork enc.exact name World.empty).2.syns := by
  have w1 : enc.waccBarFl.val = fl 53 (enc.exact.waccBar) := by
    rw [Encoder.waccBarFl, Fl.val_div, d1000]; congr 1; norm_num [Encoder.waccBar, Encoder.exact, cVt, ctm]
  have w2 : (-enc.waccBarFl).val = fl 53 (-enc.exact.waccBar) := by rw [fl_neg, ← w1]; rfl
  have c1 : (weFl : Double).val = fl 53 10 := by decide +kernel
  have c2 : (Fl.of (1 / 2) * weFl : Double).val = fl 53 (1 / 2 * 10) := by decide +kernel
  have c3 : (wiFl : Double).val = fl 53 (-10) := by decide +kernel
  have c4 : (tsynFl : Double).val = fl 53 1 := by decide +kernel
  have c5 : (Fl.of 2 * tsynFl : Double).val = fl 53 (2 * 1) := by decide +kernel
  have c6 : (gmultFl : Double).val = fl 53 (cgmult : ℚ) := by decide +kernel
  have c7 : (tsynFl + enc.Tmin).val = fl 53 (1 + enc.Tmin.val) := by rw [Fl.val_add, tsyn_val]
  have c8 : (enc.Tmin + tsynFl).val = fl 53 (enc.Tmin.val + 1) := by rw [Fl.val_add, tsyn_val]
  have c9 : (-Fl.of 1 : Double).val = fl 53 (-1) := by decide +kernel
  have c10 : (Fl.of 3 * tsynFl : Double).val = fl 53 (3 * 1) := by decide +kernel
  have c11 : (Fl.of 10 / Fl.of 4 : Double).val = fl 53 (10 / 4) := by decide +kernel
  have c12 : (-Fl.of 10 / Fl.of 2 : Double).val = fl 53 (-10 / 2) := by decide +kernel
  have c13 : (Fl.of 350 : Double).val = fl 53 350 := by decide +kernel
  have e1 : (multiplierFl enc name World.empty).2.syns =
    [⟨0, 2, weFl, tsynFl, .V⟩, ⟨0, 3, Fl.of (1 / 2) * weFl, tsynFl, .V⟩, ⟨2, 2, wiFl, tsynFl, .V⟩, ⟨2, 4, enc.waccBarFl, tsynFl + enc.Tmin, .ge⟩,
     ⟨3, 4, -enc.waccBarFl, tsynFl, .ge⟩, ⟨3, 9, Fl.of (1 / 2) * weFl, tsynFl, .V⟩,
     ⟨1, 6, weFl, tsynFl, .V⟩, ⟨1, 7, Fl.of (1 / 2) * weFl, tsynFl, .V⟩, ⟨6, 6, wiFl, tsynFl, .V⟩, ⟨6, 8, enc.waccBarFl, tsynFl + enc.Tmin, .ge⟩,
     ⟨7, 8, -enc.waccBarFl, tsynFl, .ge⟩, ⟨7, 9, Fl.of (1 / 2) * weFl, tsynFl, .V⟩,
     ⟨4, 8, gmultFl, tsynFl, .gf⟩, ⟨4, 8, Fl.of 1, tsynFl, .gate⟩, ⟨8, 10, -Fl.of 1, tsynFl, .gate⟩, ⟨8, 10, enc.waccBarFl, tsynFl, .ge⟩,
     ⟨8, 11, weFl, Fl.of 2 * tsynFl, .V⟩, ⟨9, 4, gmultFl, tsynFl, .gf⟩, ⟨9, 4, Fl.of 1, tsynFl, .gate⟩, ⟨9, 10, Fl.of 1, Fl.of 3 * tsynFl, .gate⟩,
     ⟨9, 10, gmultFl, Fl.of 3 * tsynFl, .gf⟩, ⟨10, 11, weFl, enc.Tmin + tsynFl, .V⟩, ⟨0, 5, Fl.of 10 / Fl.of 4, Fl.of 350, .V⟩, ⟨1, 5, Fl.of 10 / Fl.of 4, Fl.of 350, .V⟩,
     ⟨11, 5, -Fl.of 10 / Fl.of 2, tsynFl, .V⟩, ⟨5, 11, weFl, tsynFl, .V⟩, ⟨5, 11, weFl, tsynFl + enc.Tmin, .V⟩].reverse := rfl
  have e2 : (multiplierNetwork enc.exact name World.empty).2.syns =
    [⟨0, 2, 10, 1, .V⟩, ⟨0, 3, 1 / 2 * 10, 1, .V⟩, ⟨2, 2, -10, 1, .V⟩, ⟨2, 4, enc.exact.waccBar, 1 + enc.Tmin.val, .ge⟩,
     ⟨3, 4, -enc.exact.waccBar, 1, .ge⟩, ⟨3, 9, 1 / 2 * 10, 1, .V⟩,
     ⟨1, 6, 10, 1, .V⟩, ⟨1, 7, 1 / 2 * 10, 1, .V⟩, ⟨6, 6, -10, 1, .V⟩, ⟨6, 8, enc.exact.waccBar, 1 + enc.Tmin.val, .ge⟩,
     ⟨7, 8, -enc.exact.waccBar, 1, .ge⟩, ⟨7, 9, 1 / 2 * 10, 1, .V⟩,
     ⟨4, 8, cgmult, 1, .gf⟩, ⟨4, 8, 1, 1, .gate⟩, ⟨8, 10, -1, 1, .gate⟩, ⟨8, 10, enc.exact.waccBar, 1, .ge⟩,
     ⟨8, 11, 10, 2 * 1, .V⟩, ⟨9, 4, cgmult, 1, .gf⟩, ⟨9, 4, 1, 1, .gate⟩, ⟨9, 10, 1, 3 * 1, .gate⟩,
     ⟨9, 10, cgmult, 3 * 1, .gf⟩, ⟨10, 11, 10, enc.Tmin.val + 1, .V⟩, ⟨0, 5, 10 / 4, 350, .V⟩, ⟨1, 5, 10 / 4, 350, .V⟩,
     ⟨11, 5, -10 / 2, 1, .V⟩, ⟨5, 11, 10, 1, .V⟩, ⟨5, 11, 10, 1 + enc.Tmin.val, .V⟩].reverse := rfl
  rw [e1, e2, List.forall₂_reverse_iff]
  simp only [List.forall₂_cons, Rounds, w1, w2, c1, c2, c3, c4, c5, c6, c7, c8, c9, c10, c11, c12, c13, and_self, List.forall₂_nil_left_iff]

/-- 0.6 * 0.7 with the default encoder and dt = 1/16. -/
example : ∃ st, sessionFl (sortedHeap _) (fun _ l => l) ⟨Fl.of 10, Fl.of 100⟩ (Fl.of (1 / 16)) (Fl.of 600) (multiplierFl ⟨Fl.of 10, Fl.of 100⟩ (some "mul") World.empty).2 0
      [.value (Fl.of (6 / 10)) 0 0, .value (Fl.of (7 / 10)) 1 (Fl.of (1 / 3))] = .ok st ∧
      CarriesFl ⟨Fl.of 10, Fl.of 100⟩ (20 * (Fl.of (1 / 16) : Double).val / (Fl.of 100 : Double).val + 9 * (Fl.of (1 / 16) : Double).val / 20) (st.spikeLog 11)
        ((Fl.of (6 / 10) : Double).val * (Fl.of (7 / 10) : Double).val) :=
  C110_product (sortedHeap _) id_setOrder (enc := ⟨Fl.of 10, Fl.of 100⟩) (dt := Fl.of (1 / 16)) (by decide +kernel) (by decide +kernel) (by decide +kernel)
    (by decide +kernel) (by decide +kernel) (some "mul") (v1 := Fl.of (6 / 10)) (v2 := Fl.of (7 / 10)) (t1 := 0) (t2 := Fl.of (1 / 3)) (by decide +kernel) (by decide +kernel) (by decide +kernel)
    (by decide +kernel) (by decide +kernel) (by decide +kernel) (by decide +kernel) (by decide +kernel) (M := 300) (by decide +kernel) (by decide +kernel) (by norm_num)
    (by decide +kernel) (by decide +kernel)

/-- 0.6 * 0.7 with the default encoder and the default time step 0.001. -/
example : ∃ st, sessionFl (sortedHeap _) (fun _ l => l) ⟨Fl.of 10, Fl.of 100⟩ (Fl.of (1 / 1000)) (Fl.of 600) (multiplierFl ⟨Fl.of 10, Fl.of 100⟩ none World.empty).2 0
      [.value (Fl.of (6 / 10)) 0 0, .value (Fl.of (7 / 10)) 1 0] = .ok st ∧
      CarriesFl ⟨Fl.of 10, Fl.of 100⟩ (20 * (Fl.of (1 / 1000) : Double).val / (Fl.of 100 : Double).val + 9 * (Fl.of (1 / 1000) : Double).val / 20) (st.spikeLog 11)
        ((Fl.of (6 / 10) : Double).val * (Fl.of (7 / 10) : Double).val) := by
  have hX : (1 : ℚ) / 3 ≤ ((Fl.of (6 / 10) : Double).val - 6 * (Fl.of (1 / 1000) : Double).val / (Fl.of 100 : Double).val) *
      ((Fl.of (7 / 10) : Double).val - 6 * (Fl.of (1 / 1000) : Double).val / (Fl.of 100 : Double).val) := by decide +kernel
  have hd : (Fl.of (1 / 1000) : Double).val ≤ 1 / 100 := by decide +kernel
  have hdr : Fl.real (Fl.of (1 / 1000)) ≤ 1 / 100 := by
    have : Fl.real (Fl.of (1 / 1000)) ≤ (((1 : ℚ) / 100 : ℚ) : ℝ) := by exact_mod_cast hd
    push_cast at this; exact this
  refine C110_product_real (sortedHeap _) id_setOrder (enc := ⟨Fl.of 10, Fl.of 100⟩) (dt := Fl.of (1 / 1000)) (by decide +kernel) (by decide +kernel) (by decide +kernel)
    (by decide +kernel) (by decide +kernel) none (v1 := Fl.of (6 / 10)) (v2 := Fl.of (7 / 10)) (t1 := 0) (t2 := 0) (by decide +kernel) (by decide +kernel) (by decide +kernel)
    (by decide +kernel) (by decide +kernel) (by decide +kernel) (by decide +kernel) (by decide +kernel) ?_ (by decide +kernel) (by decide +kernel)
  show 20 * Real.log (1 / ((Fl.real (Fl.of (6 / 10)) - 6 * Fl.real (Fl.of (1 / 1000)) / Fl.real (Fl.of 100)) *
    (Fl.real (Fl.of (7 / 10)) - 6 * Fl.real (Fl.of (1 / 1000)) / Fl.real (Fl.of 100)))) ≤ 343 - 12 * Fl.real (Fl.of (1 / 1000))
  have hXr : (((1 : ℚ) / 3 : ℚ) : ℝ) ≤ (((Fl.of (6 / 10) : Double).val - 6 * (Fl.of (1 / 1000) : Double).val / (Fl.of 100 : Double).val) *
      ((Fl.of (7 / 10) : Double).val - 6 * (Fl.of (1 / 1000) : Double).val / (Fl.of 100 : Double).val) : ℚ) := by exact_mod_cast hX
  push_cast at hXr
  change (1 : ℝ) / 3 ≤ (Fl.real (Fl.of (6 / 10)) - 6 * Fl.real (Fl.of (1 / 1000)) / Fl.real (Fl.of 100)) *
    (Fl.real (Fl.of (7 / 10)) - 6 * Fl.real (Fl.of (1 / 1000)) / Fl.real (Fl.of 100)) at hXr
  generalize (Fl.real (Fl.of (6 / 10)) - 6 * Fl.real (Fl.of (1 / 1000)) / Fl.real (Fl.of 100)) *
    (Fl.real (Fl.of (7 / 10)) - 6 * Fl.real (Fl.of (1 / 1000)) / Fl.real (Fl.of 100)) = X at *
  have h3 : 1 / X ≤ 3 := by rw [div_le_iff₀ (by linarith)]; linarith
  have := Real.log_le_sub_one_of_pos (show 0 < 1 / X from one_div_pos.mpr (by linarith))
  linarith

end Axon
