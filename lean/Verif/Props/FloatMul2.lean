import Verif.Props.FloatMul
import Verif.Props.FloatLogExp2

/-! # C110: the multiplier in Python floats, main theorem -/
set_option linter.unusedSectionVars false
namespace Axon
open Spec

/-- The steps of one factor. -/
theorem mulFl_front {enc : Encoder Double} {dt : Double} (hdt : 0 < dt.val) (hdt1 : dt.val ≤ 1) (hC : 13 * dt.val ≤ enc.Tcod.val) (hmin : 1 + 12 * dt.val ≤ enc.Tmin.val)
    (hmax : enc.Tmax.val ≤ 2 ^ 24 * dt.val) {v t0 : Double} (hv0 : 6 * dt.val < v.val * enc.Tcod.val) (hv1 : v.val * enc.Tcod.val + 7 * dt.val ≤ enc.Tcod.val) (ht : 0 ≤ t0.val)
    (ht' : t0.val ≤ 2 ^ 48 * dt.val) {q N m x y p : ℚ} (hq : q = 1 / dt.val) (hN : N = enc.Tcod.val / dt.val) (hm : m = enc.Tmin.val / dt.val)
    (hx : x = t0.val / dt.val) (hy : y = (t0 + (enc.Tmin + v * enc.Tcod)).val / dt.val) (hp : p = v.val * enc.Tcod.val / dt.val) :
    (0 ≤ v.val ∧ v.val ≤ 1) ∧ ∃ a b c A B : ℕ, Front enc dt t0 (t0 + (enc.Tmin + v * enc.Tcod)) a b c A B ∧ 0 < A ∧ A < B ∧ |(B : ℚ) - A - p| ≤ 11 / 2 ∧
      (B : ℚ) ≤ y + 2 * q + 3 ∧ y ≤ x + m + p + 3 / 16 ∧ 0 ≤ y ∧ x ≤ 2 ^ 48 ∧ m + p ≤ 2 ^ 24 + 1 / 16 := by
  have hT0 : 0 ≤ enc.Tmin.val := by linarith
  have hC0 : 0 < enc.Tcod.val := by linarith
  have hv0' : 0 ≤ v.val := by
    by_contra hc
    push Not at hc
    have := mul_neg_of_neg_of_pos hc hC0
    linarith
  have hv1' : v.val ≤ 1 := by
    by_contra hc
    push Not at hc
    have : 1 * enc.Tcod.val ≤ v.val * enc.Tcod.val := mul_le_mul_of_nonneg_right hc.le hC0.le
    linarith
  refine ⟨⟨hv0', hv1'⟩, ?_⟩
  obtain ⟨q', x', y', nn, m', pp, hq', hx', hy', hnn, hm', hpp, q1, x0, x1, nn1, mn, m0, p0, A4, A2, A1, A5⟩ := units (v := v) (t0 := t0) hdt hdt1 hC0 hT0 hmax hv0' hv1' ht ht'
  rw [← hq] at hq'; rw [← hx] at hx'; rw [← hy] at hy'; rw [← hm] at hm'; rw [← hp] at hpp
  subst q' x' y' m' pp
  set τ := t0 + (enc.Tmin + v * enc.Tcod) with hτ
  have u0 : ∀ a : ℚ, a / dt.val * dt.val = a := fun a => div_mul_cancel₀ _ hdt.ne'
  have mv : ∀ a b : ℚ, a * dt.val ≤ b * dt.val → a ≤ b := fun a b h => le_of_mul_le_mul_right h hdt
  have qm : q * dt.val = 1 := by rw [hq, u0]
  have Nm : N * dt.val = enc.Tcod.val := by rw [hN, u0]
  have mm : m * dt.val = enc.Tmin.val := by rw [hm, u0]
  have pm : p * dt.val = v.val * enc.Tcod.val := by rw [hp, u0]
  have B1 : q + 12 ≤ m := mv _ _ (by linarith)
  have B2 : 6 ≤ p := mv _ _ (by linarith)
  have B3 : p + 7 ≤ N := mv _ _ (by linarith)
  have d1 : (tsynFl : Double).val / dt.val = q := by rw [tsyn_val, hq]
  obtain ⟨dpos3, d3a, d3b⟩ := tsyn_tmin (enc := enc) (dt := dt) hdt hT0 (by
    rw [← qm, ← mm, ← add_mul]; exact mul_le_mul_of_nonneg_right (by linarith) hdt.le)
  have d3 : (1 + enc.Tmin.val) / dt.val = q + m := by rw [add_div, hq, hm]
  rw [d3] at d3a d3b
  obtain ⟨D3, hD3⟩ : ∃ D, D = (tsynFl + enc.Tmin).val / dt.val := ⟨_, rfl⟩
  rw [← hD3] at d3a d3b
  have big : (2 : ℚ) ^ 48 + 10 * 2 ^ 24 + 100 ≤ 2 ^ 49 := by norm_num
  have hqm : q ≤ 2 ^ 24 := by linarith
  have dpos : 0 ≤ (tsynFl : Double).val := by rw [tsyn_val]; norm_num
  have τ0 : 0 ≤ τ.val := by
    have : 0 ≤ y * dt.val := mul_nonneg (by linarith) hdt.le
    rwa [hy, u0] at this
  obtain ⟨a1, a1i, a1p, a1l, a1u⟩ := arrives_inj (τ := t0) (D := tsynFl) hdt ht dpos (by rw [d1, ← hx]; linarith)
  obtain ⟨b1, b1i, b1p, b1l, b1u⟩ := arrives_inj (τ := τ) (D := tsynFl) hdt τ0 dpos (by rw [d1, ← hy]; linarith)
  rw [d1, ← hx] at a1l a1u
  rw [d1, ← hy] at b1l b1u
  obtain ⟨c, ci, cj, cl, cu⟩ := arrives (j := a1) (D := tsynFl) hdt dpos (by rw [d1]; linarith)
  rw [d1] at cl cu
  obtain ⟨A, Ai, Aj, Al, Au⟩ := arrives (j := a1) (D := tsynFl + enc.Tmin) hdt dpos3 (by rw [← hD3]; linarith)
  rw [← hD3] at Al Au
  obtain ⟨B, Bi, Bj, Bl, Bu⟩ := arrives (j := b1) (D := tsynFl) hdt dpos (by rw [d1]; linarith)
  rw [d1] at Bl Bu
  have lt_of : ∀ {a b : ℕ}, (a : ℚ) < b → a < b := fun h => by exact_mod_cast h
  have cb1 : c < b1 := lt_of (by linarith)
  have AB : A < B := lt_of (by linarith)
  exact ⟨a1, b1, c, A, B, ⟨a1i, b1i, ci, Ai, Bi, a1p, cj, cb1, Bj⟩, by omega, AB, by rw [abs_le]; constructor <;> linarith, by linarith, by linarith, by linarith, x1, by linarith⟩

/-- What is left after 343 ms is well above the rounding error. -/
theorem rho_low' {dt : Double} (hdt : 0 < dt.val) (hdt1 : dt.val ≤ 1) {k : ℕ} (hk : (k : ℚ) * dt.val ≤ 343) : (1 : ℚ) / 2 ^ 27 ≤ rhoQ dt ^ k := by
  have h0 : (0 : ℝ) < ((dt.val : ℚ) : ℝ) := by exact_mod_cast hdt
  have h1 : ((dt.val : ℚ) : ℝ) ≤ 1 := by exact_mod_cast hdt1
  have hk' : (k : ℝ) * ((dt.val : ℚ) : ℝ) ≤ 343 := by exact_mod_cast hk
  have hl := (log_rho h0 (by linarith)).2
  have hp := rho_pos (dt := ((dt.val : ℚ) : ℝ)) (by linarith)
  have h2 : ((dt.val : ℚ) : ℝ) / (20 - ((dt.val : ℚ) : ℝ)) ≤ ((dt.val : ℚ) : ℝ) / 19 := div_le_div_of_nonneg_left h0.le (by norm_num) (by linarith)
  have h3 : -(181 / 10) ≤ (k : ℝ) * Real.log (rho ((dt.val : ℚ) : ℝ)) := by
    have h4 : (k : ℝ) * -Real.log (rho ((dt.val : ℚ) : ℝ)) ≤ k * (((dt.val : ℚ) : ℝ) / 19) := mul_le_mul_of_nonneg_left (hl.trans h2) (Nat.cast_nonneg _)
    have h5 : (k : ℝ) * (((dt.val : ℚ) : ℝ) / 19) = k * ((dt.val : ℚ) : ℝ) / 19 := by ring
    rw [h5] at h4
    have h6 : (k : ℝ) * ((dt.val : ℚ) : ℝ) / 19 ≤ 343 / 19 := div_le_div_of_nonneg_right hk' (by norm_num)
    linarith
  have h7 : Real.exp (-(181 / 10)) ≤ (rho ((dt.val : ℚ) : ℝ)) ^ k := by
    rw [← Real.exp_log (pow_pos hp k), Real.exp_le_exp, Real.log_pow]; exact h3
  have h8 : (1 : ℝ) / 2 ^ 27 ≤ Real.exp (-(181 / 10)) := by
    have e : Real.exp (-(181 / 10)) ^ 10 = (Real.exp 1 ^ 181)⁻¹ := by
      rw [← Real.exp_nat_mul, ← Real.exp_nat_mul, ← Real.exp_neg]; norm_num
    refine le_of_pow_le_pow_left₀ (n := 10) (by norm_num) (Real.exp_pos _).le ?_
    rw [e, one_div, inv_pow]
    refine inv_anti₀ (by positivity) ?_
    refine (pow_le_pow_left₀ (Real.exp_pos _).le Real.exp_one_lt_d9.le 181).trans ?_
    norm_num
  have h9 := h8.trans h7
  rw [← rhoQ_real] at h9
  have h10 : (((1 : ℚ) / 2 ^ 27 : ℚ) : ℝ) ≤ ((rhoQ dt ^ k : ℚ) : ℝ) := by push_cast; exact h9
  exact_mod_cast h10

set_option maxHeartbeats 4000000 in
/-- The multiplier in steps: the output carries `(1 - dt/20)^n` up to `15/2` steps, where `n` is, up to seven steps, the time of decay to the product. -/
theorem C110_product_steps (H : EventHeap Double) {ord : ℕ → List ℕ → List ℕ} (hord : SetOrder ord) {enc : Encoder Double} {dt : Double}
    (hdt : 0 < dt.val) (hdt1 : dt.val ≤ 1) (hC : 13 * dt.val ≤ enc.Tcod.val) (hmin : 1 + 12 * dt.val ≤ enc.Tmin.val) (hmax : enc.Tmax.val ≤ 2 ^ 24 * dt.val)
    (name : Option String) {v1 v2 t1 t2 T : Double} (hv1 : 6 * dt.val / enc.Tcod.val < v1.val) (hv1' : v1.val ≤ 1 - 7 * dt.val / enc.Tcod.val)
    (hv2 : 6 * dt.val / enc.Tcod.val < v2.val) (hv2' : v2.val ≤ 1 - 7 * dt.val / enc.Tcod.val) (ht1 : 0 ≤ t1.val) (ht1' : t1.val ≤ 2 ^ 48 * dt.val)
    (ht2 : 0 ≤ t2.val) (ht2' : t2.val ≤ 2 ^ 48 * dt.val) {M : ℕ} (hM : rhoQ dt ^ M ≤ (v1.val - 6 * dt.val / enc.Tcod.val) * (v2.val - 6 * dt.val / enc.Tcod.val))
    (hM1 : ((M : ℚ) + 11) * dt.val ≤ 343) (hM2 : M + 8 ≤ 2 ^ 23)
    (hT1 : t1.val + 2 * enc.Tmin.val + 2 * enc.Tcod.val + 6 + (M + 17) * dt.val ≤ T.val) (hT2 : t2.val + 2 * enc.Tmin.val + 2 * enc.Tcod.val + 6 + (M + 17) * dt.val ≤ T.val) :
    let p := (multiplierFl enc name World.empty).1
    let w := (multiplierFl enc name World.empty).2
    ∃ st, sessionFl H ord enc dt T w p.1 [.value v1 p.2.1 t1, .value v2 p.2.2.1 t2] = .ok st ∧
      ∃ (x y : Double) (n : ℕ), st.spikeLog p.2.2.2 = some [x, y] ∧ |(enc.decodeInterval (y - x)).val - rhoQ dt ^ n| ≤ 8 * dt.val / enc.Tcod.val ∧
        rhoQ dt ^ 7 * ((v1.val - 6 * dt.val / enc.Tcod.val) * (v2.val - 6 * dt.val / enc.Tcod.val)) ≤ rhoQ dt ^ n ∧
        rhoQ dt ^ 7 * rhoQ dt ^ n ≤ (v1.val + 6 * dt.val / enc.Tcod.val) * (v2.val + 6 * dt.val / enc.Tcod.val) := by
  intro p w
  have hT0 : 0 ≤ enc.Tmin.val := by linarith
  have hC0 : 0 < enc.Tcod.val := by linarith
  have hr := rho_bounds hdt hdt1
  have hr0 : 0 < rhoQ dt := by linarith [hr.1]
  have hr1 : rhoQ dt ≤ 1 := by linarith [hr.2]
  obtain ⟨q, hq⟩ : ∃ q, q = 1 / dt.val := ⟨_, rfl⟩
  obtain ⟨N, hN⟩ : ∃ N, N = enc.Tcod.val / dt.val := ⟨_, rfl⟩
  obtain ⟨m, hm⟩ : ∃ m, m = enc.Tmin.val / dt.val := ⟨_, rfl⟩
  obtain ⟨x1, hx1⟩ : ∃ x, x = t1.val / dt.val := ⟨_, rfl⟩
  obtain ⟨x2, hx2⟩ : ∃ x, x = t2.val / dt.val := ⟨_, rfl⟩
  obtain ⟨τ1, hτ1⟩ : ∃ τ, τ = t1 + (enc.Tmin + v1 * enc.Tcod) := ⟨_, rfl⟩
  obtain ⟨τ2, hτ2⟩ : ∃ τ, τ = t2 + (enc.Tmin + v2 * enc.Tcod) := ⟨_, rfl⟩
  obtain ⟨y1, hy1⟩ : ∃ y, y = τ1.val / dt.val := ⟨_, rfl⟩
  obtain ⟨y2, hy2⟩ : ∃ y, y = τ2.val / dt.val := ⟨_, rfl⟩
  obtain ⟨p1, hp1⟩ : ∃ x, x = v1.val * enc.Tcod.val / dt.val := ⟨_, rfl⟩
  obtain ⟨p2, hp2⟩ : ∃ x, x = v2.val * enc.Tcod.val / dt.val := ⟨_, rfl⟩
  have cv : ∀ v : ℚ, 6 * dt.val / enc.Tcod.val < v → 6 * dt.val < v * enc.Tcod.val := fun v h => by rwa [div_lt_iff₀ hC0] at h
  have cv' : ∀ v : ℚ, v ≤ 1 - 7 * dt.val / enc.Tcod.val → v * enc.Tcod.val + 7 * dt.val ≤ enc.Tcod.val := fun v h => by
    have := mul_le_mul_of_nonneg_right h hC0.le
    rw [sub_mul, div_mul_cancel₀ _ hC0.ne', one_mul] at this
    linarith
  obtain ⟨vb1, a1, b1, c1, A1, B1, F1, A10, AB1, X1, BY1, yx1, y10, x148, mp1⟩ := mulFl_front hdt hdt1 hC hmin hmax (cv _ hv1) (cv' _ hv1') ht1 ht1' hq hN hm hx1 (hτ1 ▸ hy1) hp1
  obtain ⟨vb2, a2, b2, c2, A2, B2, F2, A20, AB2, X2, BY2, yx2, y20, x248, mp2⟩ := mulFl_front hdt hdt1 hC hmin hmax (cv _ hv2) (cv' _ hv2') ht2 ht2' hq hN hm hx2 (hτ2 ▸ hy2) hp2
  rw [← hτ1] at F1
  rw [← hτ2] at F2
  obtain ⟨X1a, X1b⟩ := abs_le.mp X1
  obtain ⟨X2a, X2b⟩ := abs_le.mp X2
  have u0 : ∀ a : ℚ, a / dt.val * dt.val = a := fun a => div_mul_cancel₀ _ hdt.ne'
  have mv : ∀ a b : ℚ, a * dt.val ≤ b * dt.val → a ≤ b := fun a b h => le_of_mul_le_mul_right h hdt
  have qm : q * dt.val = 1 := by rw [hq, u0]
  have xm1 : x1 * dt.val = t1.val := by rw [hx1, u0]
  have xm2 : x2 * dt.val = t2.val := by rw [hx2, u0]
  have Nm : N * dt.val = enc.Tcod.val := by rw [hN, u0]
  have mm : m * dt.val = enc.Tmin.val := by rw [hm, u0]
  have pm1 : p1 * dt.val = v1.val * enc.Tcod.val := by rw [hp1, u0]
  have pm2 : p2 * dt.val = v2.val * enc.Tcod.val := by rw [hp2, u0]
  have q1 : 1 ≤ q := mv _ _ (by linarith)
  have B1' : q + 12 ≤ m := mv _ _ (by linarith)
  have B4 : 13 ≤ N := mv _ _ (by linarith)
  have P1 : p1 + 7 ≤ N := mv _ _ (by have := cv' _ hv1'; linarith)
  have P2 : p2 + 7 ≤ N := mv _ _ (by have := cv' _ hv2'; linarith)
  have P10 : 6 ≤ p1 := mv _ _ (by have := cv _ hv1; linarith)
  have P20 : 6 ≤ p2 := mv _ _ (by have := cv _ hv2; linarith)
  have hN24 : N ≤ 2 ^ 24 := by
    obtain ⟨q', x', y', nn, m', pp, hq', hx', hy', hnn, hm', hpp, q1, x0, x1, nn1, mn, m0, p0, A4, A2, A1, A5⟩ := units (v := v1) (t0 := t1) hdt hdt1 hC0 hT0 hmax vb1.1 vb1.2 ht1 ht1'
    rw [← hN] at A5
    rw [← hm] at hm'
    have := (abs_le.mp A5).1
    linarith
  have G := waccBar_slope (enc := enc) hdt hC (by rw [← Nm]; refine mul_le_mul_of_nonneg_right hN24 hdt.le)
  rw [← hN] at G
  have hN0 : 0 < N := by linarith
  have vN1 : v1.val = p1 / N := by rw [eq_div_iff hN0.ne', hp1, hN, mul_div_assoc]
  have vN2 : v2.val = p2 / N := by rw [eq_div_iff hN0.ne', hp2, hN, mul_div_assoc]
  have eN : 6 * dt.val / enc.Tcod.val = 6 / N := by rw [hN, div_div_eq_mul_div]
  obtain ⟨ε, hε⟩ : ∃ ε, ε = 6 * dt.val / enc.Tcod.val := ⟨_, rfl⟩
  rw [← hε] at hv1 hv2 hM ⊢
  rw [hε.symm] at eN
  have hε0 : 0 < ε := by rw [eN]; positivity
  have eh : 1 / (2 * N) = 1 / 2 / N := by rw [div_div]
  have e6 : ε = 11 / 2 / N + 1 / 2 / N := by rw [eN, ← add_div]; norm_num
  have hK1a : ((B1 : ℚ) - A1) / N + 1 / (2 * N) ≤ v1.val + ε := by
    have : ((B1 : ℚ) - A1) / N ≤ (p1 + 11 / 2) / N := div_le_div_of_nonneg_right (by linarith) hN0.le
    rw [add_div] at this; rw [vN1, eh]; linarith
  have hK1b : v1.val - ε ≤ ((B1 : ℚ) - A1) / N - 1 / (2 * N) := by
    have : (p1 - 11 / 2) / N ≤ ((B1 : ℚ) - A1) / N := div_le_div_of_nonneg_right (by linarith) hN0.le
    rw [sub_div] at this; rw [vN1, eh]; linarith
  have hK2a : ((B2 : ℚ) - A2) / N + 1 / (2 * N) ≤ v2.val + ε := by
    have : ((B2 : ℚ) - A2) / N ≤ (p2 + 11 / 2) / N := div_le_div_of_nonneg_right (by linarith) hN0.le
    rw [add_div] at this; rw [vN2, eh]; linarith
  have hK2b : v2.val - ε ≤ ((B2 : ℚ) - A2) / N - 1 / (2 * N) := by
    have : (p2 - 11 / 2) / N ≤ ((B2 : ℚ) - A2) / N := div_le_div_of_nonneg_right (by linarith) hN0.le
    rw [sub_div] at this; rw [vN2, eh]; linarith
  have hMa : rhoQ dt ^ M ≤ v1.val - ε := hM.trans (mul_le_of_le_one_right (by linarith) (by linarith [vb2.2]))
  have hMb : rhoQ dt ^ M ≤ v2.val - ε := hM.trans (mul_le_of_le_one_left (by linarith) (by linarith [vb1.2]))
  have d1 : (tsynFl : Double).val / dt.val = q := by rw [tsyn_val, hq]
  have d2 : (Fl.of 2 * tsynFl : Double).val / dt.val = 2 * q := by rw [two_tsyn, hq]; ring
  have t3 : (Fl.of 3 * tsynFl : Double).val = 3 := by decide +kernel
  have t350 : (Fl.of 350 : Double).val = 350 := by decide +kernel
  have d3t : (Fl.of 3 * tsynFl : Double).val / dt.val = 3 * q := by rw [t3, hq]; ring
  have d350 : (Fl.of 350 : Double).val / dt.val = 350 * q := by rw [t350, hq]; ring
  have hm24 : m ≤ 2 ^ 24 + 1 / 16 := by linarith
  obtain ⟨dpos3, d3a, d3b⟩ := tsyn_tmin (enc := enc) (dt := dt) hdt hT0 (by
    rw [← qm, ← mm, ← add_mul]; exact mul_le_mul_of_nonneg_right (by linarith) hdt.le)
  have d3 : (1 + enc.Tmin.val) / dt.val = q + m := by rw [add_div, hq, hm]
  rw [d3] at d3a d3b
  obtain ⟨D3, hD3⟩ : ∃ D, D = (tsynFl + enc.Tmin).val / dt.val := ⟨_, rfl⟩
  rw [← hD3] at d3a d3b
  have big : (2 : ℚ) ^ 48 + 1000 * 2 ^ 24 + 1000 ≤ 2 ^ 49 := by norm_num
  have hqm : q ≤ 2 ^ 24 := by linarith
  have dpos : 0 ≤ (tsynFl : Double).val := by rw [tsyn_val]; norm_num
  have dpos2 : 0 ≤ (Fl.of 2 * tsynFl : Double).val := by rw [two_tsyn]; norm_num
  have tz1 : 0 ≤ τ1.val := by
    have : 0 ≤ y1 * dt.val := mul_nonneg y10 hdt.le
    rwa [hy1, u0] at this
  have tz2 : 0 ≤ τ2.val := by
    have : 0 ≤ y2 * dt.val := mul_nonneg y20 hdt.le
    rwa [hy2, u0] at this
  have hM24 : (M : ℚ) + 8 ≤ 2 ^ 23 := by exact_mod_cast hM2
  have pw : (2 : ℚ) ^ 24 = 2 * 2 ^ 23 := by norm_num
  have hM24' : M ≤ 2 ^ 24 := by
    have : (2 : ℕ) ^ 24 = 2 * 2 ^ 23 := by norm_num
    omega
  -- the zero detector's inputs
  obtain ⟨z1, z1i, -, -, -⟩ := arrives_inj (τ := t1) (D := Fl.of 350) hdt ht1 (by rw [t350]; norm_num) (by rw [d350, ← hx1]; linarith)
  obtain ⟨z1', z1i', -, z1l, -⟩ := arrives_inj (τ := τ1) (D := Fl.of 350) hdt tz1 (by rw [t350]; norm_num) (by rw [d350, ← hy1]; linarith)
  obtain ⟨z2, z2i, -, -, -⟩ := arrives_inj (τ := t2) (D := Fl.of 350) hdt ht2 (by rw [t350]; norm_num) (by rw [d350, ← hx2]; linarith)
  obtain ⟨z2', z2i', -, z2l, -⟩ := arrives_inj (τ := τ2) (D := Fl.of 350) hdt tz2 (by rw [t350]; norm_num) (by rw [d350, ← hy2]; linarith)
  rw [d350, ← hy1] at z1l
  rw [d350, ← hy2] at z2l
  -- the synchronising neuron
  obtain ⟨S, hS⟩ : ∃ S, S = max B1 B2 := ⟨_, rfl⟩
  obtain ⟨Y, hY, hYx, hSY, hYz⟩ : ∃ Y : ℚ, (Y ≤ x1 + m + p1 + 3 / 16 ∨ Y ≤ x2 + m + p2 + 3 / 16) ∧ Y ≤ 2 ^ 48 + 2 ^ 24 + 1 ∧ (S : ℚ) ≤ Y + 2 * q + 3 ∧
      (Y + 350 * q - 1 ≤ z1' ∨ Y + 350 * q - 1 ≤ z2') := by
    rcases le_total y1 y2 with h | h
    · refine ⟨y2, Or.inr yx2, by linarith, ?_, Or.inr z2l⟩
      rw [hS]; push_cast; exact max_le (by linarith) BY2
    · refine ⟨y1, Or.inl yx1, by linarith, ?_, Or.inl z1l⟩
      rw [hS]; push_cast; exact max_le BY1 (by linarith)
  have hS1 : B1 ≤ S := by rw [hS]; exact le_max_left _ _
  have hS2 : B2 ≤ S := by rw [hS]; exact le_max_right _ _
  obtain ⟨C, Ci, Cj, Cl, Cu⟩ := arrives (j := S) (D := tsynFl) hdt dpos (by rw [d1]; linarith)
  rw [d1] at Cl Cu
  obtain ⟨k1, g1, g12, g13, g14⟩ := log_fits (dt := dt) (w := enc.waccBarFl) (A := A1) (B := B1) (C := C) (n := N) (M := M)
    (hits := logHits enc.waccBarFl A1 B1 C) hdt hdt1 G A10 AB1 (by omega) (by linarith) (hMa.trans hK1b) hM24' (fun _ => rfl)
  have hk1 : (k1 : ℚ) + 1 ≤ M := by exact_mod_cast g12
  obtain ⟨D, Di, Dj, Dl, Du⟩ := arrives (j := C + k1) (D := tsynFl) hdt dpos (by rw [d1]; push_cast; linarith)
  rw [d1] at Dl Du
  push_cast at Dl Du
  obtain ⟨k2, g2, g22, g23, g24⟩ := log_fits (dt := dt) (w := enc.waccBarFl) (A := A2) (B := B2) (C := D) (n := N) (M := M)
    (hits := logHits enc.waccBarFl A2 B2 D) hdt hdt1 G A20 AB2 (by omega) (by linarith) (hMb.trans hK2b) hM24' (fun _ => rfl)
  have hkk : k1 + k2 < M := by
    by_contra hc
    push Not at hc
    have h1 : rhoQ dt ^ (k1 + k2) ≤ rhoQ dt ^ M := pow_le_pow_of_le_one hr0.le hr1 hc
    have h2 : (v1.val - ε) * (v2.val - ε) < rhoQ dt ^ k1 * rhoQ dt ^ k2 :=
      mul_lt_mul'' (lt_of_le_of_lt hK1b g14) (lt_of_le_of_lt hK2b g24) (by linarith) (by linarith)
    rw [← pow_add] at h2
    linarith
  have hkk' : (k1 : ℚ) + k2 + 1 ≤ M := by exact_mod_cast hkk
  have k20 : (0 : ℚ) ≤ k2 := Nat.cast_nonneg _
  have k10 : (0 : ℚ) ≤ k1 := Nat.cast_nonneg _
  obtain ⟨Gs, Gi, Gj, Gl, Gu⟩ := arrives (j := S) (D := Fl.of 3 * tsynFl) hdt (by rw [t3]; norm_num) (by rw [d3t]; linarith)
  rw [d3t] at Gl Gu
  obtain ⟨E, Ei, Ej, El, Eu⟩ := arrives (j := D + k2) (D := tsynFl) hdt dpos (by rw [d1]; push_cast; linarith)
  rw [d1] at El Eu
  push_cast at El Eu
  obtain ⟨o1, o1i, o1j, o1l, o1u⟩ := arrives (j := D + k2) (D := Fl.of 2 * tsynFl) hdt dpos2 (by rw [d2]; push_cast; linarith)
  rw [d2] at o1l o1u
  push_cast at o1l o1u
  have n1 : E - Gs ≤ k1 + k2 + 7 := by
    have : (E : ℚ) ≤ Gs + (k1 + k2 + 7) := by linarith
    have : E ≤ Gs + (k1 + k2 + 7) := by exact_mod_cast this
    omega
  have n2 : k1 + k2 ≤ E - Gs + 5 := by
    have : (Gs : ℚ) + (k1 + k2) ≤ E + 5 := by linarith
    have : Gs + (k1 + k2) ≤ E + 5 := by exact_mod_cast this
    omega
  obtain ⟨n, hn⟩ : ∃ n, n = E - Gs := ⟨_, rfl⟩
  rw [← hn] at n1 n2
  have n1q : (n : ℚ) ≤ k1 + k2 + 7 := by exact_mod_cast n1
  have hn23 : n ≤ 2 ^ 23 := by omega
  have hlow : 7 * ((E - Gs : ℕ) : ℚ) * uu ≤ rhoQ dt ^ (E - Gs) := by
    rw [← hn]
    refine le_trans ?_ (rho_low' hdt hdt1 (k := n) ?_)
    · have : (n : ℚ) ≤ 2 ^ 23 := by exact_mod_cast hn23
      have := mul_le_mul_of_nonneg_right (mul_le_mul_of_nonneg_left this (show (0 : ℚ) ≤ 7 by norm_num)) (show (0 : ℚ) ≤ uu by unfold uu; positivity)
      refine this.trans ?_
      unfold uu; norm_num
    · have := mul_le_mul_of_nonneg_right (show (n : ℚ) ≤ M + 11 by linarith) hdt.le
      linarith
  obtain ⟨k, g3, g32, g33⟩ := exp_any (dt := dt) (w := enc.waccBarFl) (A := Gs) (B := E) (n := N) (hits := expHits enc.waccBarFl Gs E)
    hdt hdt1 G (by omega) (by omega) (by have : (2 : ℕ) ^ 24 = 2 * 2 ^ 23 := by norm_num
                                         omega) (by linarith) hlow (fun _ => rfl)
  rw [← hn] at g32 g33
  obtain ⟨r, hr'⟩ : ∃ r, r = rhoQ dt ^ n := ⟨_, rfl⟩
  rw [← hr'] at g32 g33
  have r0 : 0 ≤ r := by rw [hr']; exact pow_nonneg hr0.le _
  have r1 : r ≤ 1 := by rw [hr']; exact pow_le_one₀ hr0.le hr1
  have rN : N * r ≤ N := mul_le_of_le_one_right hN0.le r1
  have rN0 : 0 ≤ N * r := mul_nonneg hN0.le r0
  obtain ⟨o2, o2i, o2j, o2l, o2u⟩ := arrives (j := E + k) (D := tsynFl + enc.Tmin) hdt dpos3 (by rw [← hD3]; push_cast; linarith)
  rw [← hD3] at o2l o2u
  push_cast at o2l o2u
  have lt_of : ∀ {a b : ℕ}, (a : ℚ) < b → a < b := fun h => by exact_mod_cast h
  have W1 : (o2 : ℚ) - o1 ≤ m + N * r + 7 := by linarith
  have W2 : m + N * r - 7 ≤ (o2 : ℚ) - o1 := by linarith
  have oo : o1 < o2 := lt_of (by linarith)
  have W4q : (o2 : ℚ) + 100 ≤ 2 ^ 48 + 100 * 2 ^ 24 + 300 := by linarith
  have W4 : o2 ≤ 2 ^ 49 := by
    have : (o2 : ℚ) ≤ 2 ^ 49 := by linarith
    exact_mod_cast this
  have o1q : (o1 : ℚ) ≤ 2 ^ 48 + 100 * 2 ^ 24 + 300 := by
    have : (o1 : ℚ) < o2 := by exact_mod_cast oo
    linarith
  obtain ⟨s1, s1i, s1j, s1l, s1u⟩ := arrives (j := o1) (D := tsynFl) hdt dpos (by rw [d1]; linarith)
  obtain ⟨s2, s2i, s2j, s2l, s2u⟩ := arrives (j := o2) (D := tsynFl) hdt dpos (by rw [d1]; linarith)
  rw [d1] at s1l s1u
  have hq343 : (M : ℚ) + 11 ≤ 343 * q := mv _ _ (by rw [mul_assoc, qm]; linarith)
  have hz : s1 ≤ z1' ∨ s1 ≤ z2' := by
    have hs : (s1 : ℚ) ≤ Y + 350 * q - 1 := by linarith
    rcases hYz with h | h
    · left; have := hs.trans h; exact_mod_cast this
    · right; have := hs.trans h; exact_mod_cast this
  have W3 : (o2 : ℚ) ≤ Y + m + N + 6 * q + M + 16 := by linarith
  have W5 : o2 ≤ numStepsFl T dt := by
    refine enough_steps (by omega) ?_
    rw [le_div_iff₀ hdt]
    have := mul_le_mul_of_nonneg_right W3 hdt.le
    have hvT1 : v1.val * enc.Tcod.val ≤ enc.Tcod.val := mul_le_of_le_one_left hC0.le vb1.2
    have hvT2 : v2.val * enc.Tcod.val ≤ enc.Tcod.val := mul_le_of_le_one_left hC0.le vb2.2
    rcases hY with h | h
    · have := mul_le_mul_of_nonneg_right h hdt.le
      linarith
    · have := mul_le_mul_of_nonneg_right h hdt.le
      linarith
  subst hτ1 hτ2
  obtain ⟨st, z3, z4⟩ := mul_run H hord hdt name (T := T) vb1 vb2 F1 F2 (.cons z1i (.cons z1i' .nil)) (.cons z2i (.cons z2i' .nil)) (hS ▸ Ci) g1 (by omega) (by omega) Di g2 (by omega) (by omega)
    (hS ▸ Gi) Ei g3 (by omega) o1i o2i (by omega) o2j oo s1i s2i s1j hz W5
  have rT : r * enc.Tcod.val = N * r * dt.val := by rw [← Nm]; ring
  have Nd := mul_le_mul_of_nonneg_right rN hdt.le
  have N24 := mul_le_mul_of_nonneg_right hN24 hdt.le
  have hd := decoded (e := enc) (dt := dt) (v := r) (a := o1) (b := o2) (δ := 7) hT0 hC0 hmax hdt
    (by have := mul_nonneg r0 hC0.le; have : (0 : ℚ) ≤ 2 ^ 24 * dt.val := by positivity
        linarith) (by rw [rT]; linarith) (by omega) W4 (by norm_num) (by
      rw [rT, ← mm, ← add_mul, ← sub_mul, abs_mul, abs_of_pos hdt]
      refine mul_le_mul_of_nonneg_right ?_ hdt.le
      rw [abs_le]; constructor <;> linarith)
  refine ⟨st, z3, (o1 : Double) * dt, (o2 : Double) * dt, n, z4, ?_, ?_, ?_⟩
  · rw [← hr']
    exact hd.trans (div_le_div_of_nonneg_right (by linarith) hC0.le)
  · have h1 : rhoQ dt ^ (k1 + k2 + 7) ≤ rhoQ dt ^ n := pow_le_pow_of_le_one hr0.le hr1 n1
    have h2 : (v1.val - ε) * (v2.val - ε) ≤ rhoQ dt ^ k1 * rhoQ dt ^ k2 :=
      mul_le_mul (hK1b.trans g14.le) (hK2b.trans g24.le) (by linarith) (pow_nonneg hr0.le _)
    rw [pow_add, pow_add, mul_comm] at h1
    exact (mul_le_mul_of_nonneg_left h2 (pow_nonneg hr0.le _)).trans h1
  · have h1 : rhoQ dt ^ (n + 7) ≤ rhoQ dt ^ ((k1 + 1) + (k2 + 1)) := pow_le_pow_of_le_one hr0.le hr1 (by omega)
    have h2 : rhoQ dt ^ (k1 + 1) * rhoQ dt ^ (k2 + 1) ≤ (v1.val + ε) * (v2.val + ε) :=
      mul_le_mul (g13.trans hK1a) (g23.trans hK2a) (pow_nonneg hr0.le _) (by linarith [vb1.1])
    rw [pow_add (rhoQ dt) (k1 + 1), pow_add (rhoQ dt) n, mul_comm] at h1
    exact h1.trans h2

end Axon
