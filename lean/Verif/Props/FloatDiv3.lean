import Verif.Props.FloatDiv2

/-! # C112: the divider in Python floats against the quotient -/
set_option linter.unusedSectionVars false
namespace Axon
open Spec

/-- Twenty-two steps of decay. -/
theorem rho_22 {x : ℚ} (h0 : 0 ≤ x) (h1 : x ≤ 1 / 400) : 1 - 22 * x ≤ (1 - x) ^ 22 ∧ 1 ≤ (1 + 24 * x) * (1 - x) ^ 22 := by
  have b : 1 - 22 * x ≤ (1 - x) ^ 22 := by
    have := one_add_mul_le_pow (a := -x) (by linarith) 22
    push_cast at this
    have e : (1 + -x : ℚ) = 1 - x := by ring
    rw [e] at this
    linarith
  refine ⟨b, le_trans ?_ (mul_le_mul_of_nonneg_left b (by linarith))⟩
  have : x * x ≤ x * (1 / 400) := mul_le_mul_of_nonneg_left h1 h0
  have e : (1 + 24 * x) * (1 - 22 * x) = 1 + 2 * x - 528 * (x * x) := by ring
  rw [e]; linarith

/-- From the bounds in steps to the bound on the quotient. -/
theorem quotient_close {v1 v2 ε R r d x δ : ℚ} (hε : 0 < ε) (h1 : ε < v1) (h2 : ε < v2) (hx : 0 ≤ x) (hR : 1 - 22 * x ≤ R) (hR' : 1 ≤ (1 + 24 * x) * R) (hR1 : R ≤ 1) (r0 : 0 ≤ r)
    (r1 : r ≤ 1) (hlo : R * (v1 - ε) ≤ r * (v2 + ε)) (hhi : R * (r * (v2 - ε)) ≤ v1 + ε) (hgap : v1 + ε ≤ v2 - ε ∨ v1 = v2) (hd : |d - r| ≤ δ) :
    |d - v1 / v2| ≤ δ + 2 * ε / (v2 - ε) + 24 * x := by
  have p2 : 0 < v2 := by linarith
  have p3 : 0 < v2 - ε := by linarith
  have p4 : 0 < v2 + ε := by linarith
  have v12 : v1 ≤ v2 := by rcases hgap with h | h <;> linarith
  have R0 : 0 ≤ R := by
    by_contra hc
    push Not at hc
    have := mul_nonpos_of_nonneg_of_nonpos (show 0 ≤ 1 + 24 * x by linarith) hc.le
    linarith
  have lo : v1 / v2 - 2 * ε / (v2 - ε) - 22 * x ≤ r := by
    have a1 : (v1 - ε) / (v2 + ε) * R ≤ r := by
      rw [div_mul_eq_mul_div, div_le_iff₀ p4]; linarith
    have a2 : v1 / v2 - 2 * ε / (v2 - ε) ≤ (v1 - ε) / (v2 + ε) := by
      have : 2 * ε / v2 ≤ 2 * ε / (v2 - ε) := div_le_div_of_nonneg_left (by linarith) p3 (by linarith)
      have b : v1 / v2 - 2 * ε / v2 ≤ (v1 - ε) / (v2 + ε) := by
        rw [← sub_div, div_le_div_iff₀ p2 p4]
        nlinarith
      linarith
    have a3 : (v1 - ε) / (v2 + ε) ≤ 1 := by rw [div_le_one p4]; linarith
    have a4 : 0 ≤ (v1 - ε) / (v2 + ε) := div_nonneg (by linarith) p4.le
    generalize (v1 - ε) / (v2 + ε) = Q at *
    have a5 : Q * (1 - 22 * x) ≤ Q * R := mul_le_mul_of_nonneg_left hR a4
    have a6 : Q * (22 * x) ≤ 1 * (22 * x) := mul_le_mul_of_nonneg_right a3 (by linarith)
    linarith
  have hi : r ≤ v1 / v2 + 2 * ε / (v2 - ε) + 24 * x := by
    rcases hgap with h | h
    · obtain ⟨U, hU⟩ : ∃ U, U = (v1 + ε) / (v2 - ε) := ⟨_, rfl⟩
      have a1 : R * r ≤ U := by rw [hU, le_div_iff₀ p3]; linarith
      have a2 : U ≤ 1 := by rw [hU, div_le_one p3]; exact h
      have a0 : 0 ≤ U := by rw [hU]; exact div_nonneg (by linarith) p3.le
      have a3 : U ≤ v1 / v2 + 2 * ε / (v2 - ε) := by
        have e : U - 2 * ε / (v2 - ε) = (v1 - ε) / (v2 - ε) := by rw [hU, ← sub_div]; congr 1; ring
        have : (v1 - ε) / (v2 - ε) ≤ v1 / v2 := by
          rw [div_le_div_iff₀ p3 p2]; nlinarith
        linarith
      have a4 : 1 * r ≤ (1 + 24 * x) * R * r := mul_le_mul_of_nonneg_right hR' r0
      have a5 : (1 + 24 * x) * (R * r) ≤ (1 + 24 * x) * U := mul_le_mul_of_nonneg_left a1 (by linarith)
      have a6 : 24 * x * U ≤ 24 * x * 1 := mul_le_mul_of_nonneg_left a2 (by linarith)
      linarith
    · have : v1 / v2 = 1 := by rw [h, div_self p2.ne']
      have : 0 ≤ 2 * ε / (v2 - ε) := div_nonneg (by linarith) p3.le
      linarith
  obtain ⟨q1, q2⟩ := abs_le.mp hd
  rw [abs_le]; constructor <;> linarith

/-- **C112 (in steps).** A `DivNetwork` in Python floats, given a dividend `v1` that is clearly smaller than the divisor `v2`, emits `(1 - dt/20)^n` where this power is the
quotient up to 22 steps of decay and 6 steps on either operand.  "Clearly": after `g` steps of decay the divisor is still above the dividend, where `g*dt` is `Tneu + 14*dt`, or any
`g` (even 0) when `dt ≤ 1/800`. -/
theorem C112_quotient_steps (H : EventHeap Double) {ord : ℕ → List ℕ → List ℕ} (hord : SetOrder ord) {enc : Encoder Double} {dt : Double}
    (hdt : 0 < dt.val) (hdt1 : dt.val ≤ 1 / 20) (hC : 25 * dt.val ≤ enc.Tcod.val) (hmin : 1 + 12 * dt.val ≤ enc.Tmin.val) (hmax : enc.Tmax.val ≤ 2 ^ 24 * dt.val)
    (name : Option String) {v1 v2 t1 t2 T : Double} (hv1 : 6 * dt.val / enc.Tcod.val < v1.val)
    (hv2' : v2.val ≤ 1 - 7 * dt.val / enc.Tcod.val) (ht1 : 0 ≤ t1.val) (ht1' : t1.val ≤ 2 ^ 48 * dt.val)
    (ht2 : 0 ≤ t2.val) (ht2' : t2.val ≤ 2 ^ 48 * dt.val) {M : ℕ} (hM : rhoQ dt ^ M ≤ v1.val - 6 * dt.val / enc.Tcod.val)
    (hM1 : ((M : ℚ) + 22) * dt.val ≤ 343) (hM2 : M + 22 ≤ 2 ^ 23)
    (hT1 : t1.val + 4 * enc.Tmin.val + 2 * enc.Tcod.val + 15 + (M + 36) * dt.val ≤ T.val) (hT2 : t2.val + 4 * enc.Tmin.val + 2 * enc.Tcod.val + 15 + (M + 36) * dt.val ≤ T.val)
    {g : ℕ} (hg : dt.val ≤ 1 / 800 ∨ 1 / 100 + 14 * dt.val ≤ g * dt.val) (hgap : v1.val + 6 * dt.val / enc.Tcod.val ≤ rhoQ dt ^ g * (v2.val - 6 * dt.val / enc.Tcod.val)) :
    let p := (divFl enc name World.empty).1
    let w := (divFl enc name World.empty).2
    ∃ st, sessionFl H ord enc dt T w p.1 [.value v1 p.2.1 t1, .value v2 p.2.2.1 t2] = .ok st ∧
      ∃ (x y : Double) (n : ℕ), st.spikeLog p.2.2.2 = some [x, y] ∧ |(enc.decodeInterval (y - x)).val - rhoQ dt ^ n| ≤ 8 * dt.val / enc.Tcod.val ∧
        rhoQ dt ^ 22 * (v1.val - 6 * dt.val / enc.Tcod.val) ≤ rhoQ dt ^ n * (v2.val + 6 * dt.val / enc.Tcod.val) ∧
        rhoQ dt ^ 22 * (rhoQ dt ^ n * (v2.val - 6 * dt.val / enc.Tcod.val)) ≤ v1.val + 6 * dt.val / enc.Tcod.val := by
  intro p w
  have hC0 : 0 < enc.Tcod.val := by linarith
  have hr := rho_bounds hdt (show dt.val ≤ 1 by linarith)
  have hr0 : 0 ≤ rhoQ dt := by linarith [hr.1]
  have hg1 : rhoQ dt ^ g ≤ 1 := pow_le_one₀ hr0 hr.2.le
  have hε0 : 0 < 6 * dt.val / enc.Tcod.val := by positivity
  have pos2 : 0 ≤ v2.val - 6 * dt.val / enc.Tcod.val := by
    by_contra hc
    push Not at hc
    have := mul_nonpos_of_nonneg_of_nonpos (pow_nonneg hr0 g) hc.le
    linarith
  have hle : rhoQ dt ^ g * (v2.val - 6 * dt.val / enc.Tcod.val) ≤ v2.val - 6 * dt.val / enc.Tcod.val := mul_le_of_le_one_left pos2 hg1
  exact (div_steps H hord hdt hdt1 hC hmin hmax name hv1 (by linarith) (by linarith) hv2' ht1 ht1' ht2 ht2' hM (by linarith) hM1 hM2 hT1 hT2 hg).1 (.inl hgap)

/-- **C112.** The same, against the quotient: the decoded output is `v1 / v2` up to `8*dt/Tcod + 12*dt/Tcod / (v2 - 6*dt/Tcod) + 6*dt/5`. -/
theorem C112_quotient (H : EventHeap Double) {ord : ℕ → List ℕ → List ℕ} (hord : SetOrder ord) {enc : Encoder Double} {dt : Double}
    (hdt : 0 < dt.val) (hdt1 : dt.val ≤ 1 / 20) (hC : 25 * dt.val ≤ enc.Tcod.val) (hmin : 1 + 12 * dt.val ≤ enc.Tmin.val) (hmax : enc.Tmax.val ≤ 2 ^ 24 * dt.val)
    (name : Option String) {v1 v2 t1 t2 T : Double} (hv1 : 6 * dt.val / enc.Tcod.val < v1.val)
    (hv2' : v2.val ≤ 1 - 7 * dt.val / enc.Tcod.val) (ht1 : 0 ≤ t1.val) (ht1' : t1.val ≤ 2 ^ 48 * dt.val)
    (ht2 : 0 ≤ t2.val) (ht2' : t2.val ≤ 2 ^ 48 * dt.val) {M : ℕ} (hM : rhoQ dt ^ M ≤ v1.val - 6 * dt.val / enc.Tcod.val)
    (hM1 : ((M : ℚ) + 22) * dt.val ≤ 343) (hM2 : M + 22 ≤ 2 ^ 23)
    (hT1 : t1.val + 4 * enc.Tmin.val + 2 * enc.Tcod.val + 15 + (M + 36) * dt.val ≤ T.val) (hT2 : t2.val + 4 * enc.Tmin.val + 2 * enc.Tcod.val + 15 + (M + 36) * dt.val ≤ T.val)
    {g : ℕ} (hg : dt.val ≤ 1 / 800 ∨ 1 / 100 + 14 * dt.val ≤ g * dt.val)
    (hgap : v1.val + 6 * dt.val / enc.Tcod.val ≤ rhoQ dt ^ g * (v2.val - 6 * dt.val / enc.Tcod.val) ∨ (v1 = v2 ∧ t1 = t2 ∧ g = 0)) :
    let p := (divFl enc name World.empty).1
    let w := (divFl enc name World.empty).2
    ∃ st, sessionFl H ord enc dt T w p.1 [.value v1 p.2.1 t1, .value v2 p.2.2.1 t2] = .ok st ∧
      CarriesFl enc (8 * dt.val / enc.Tcod.val + 12 * dt.val / enc.Tcod.val / (v2.val - 6 * dt.val / enc.Tcod.val) + 6 * dt.val / 5) (st.spikeLog p.2.2.2) (v1.val / v2.val) := by
  intro p w
  have hC0 : 0 < enc.Tcod.val := by linarith
  have hr := rho_bounds hdt (show dt.val ≤ 1 by linarith)
  have hr0 : 0 ≤ rhoQ dt := by linarith [hr.1]
  have hg1 : rhoQ dt ^ g ≤ 1 := pow_le_one₀ hr0 hr.2.le
  have hε0 : 0 < 6 * dt.val / enc.Tcod.val := by positivity
  have hle : v1.val + 6 * dt.val / enc.Tcod.val ≤ v2.val - 6 * dt.val / enc.Tcod.val ∨ v1.val = v2.val := by
    rcases hgap with h | ⟨h, -, -⟩
    · have pos2 : 0 ≤ v2.val - 6 * dt.val / enc.Tcod.val := by
        by_contra hc
        push Not at hc
        have := mul_nonpos_of_nonneg_of_nonpos (pow_nonneg hr0 g) hc.le
        linarith
      exact .inl (h.trans (mul_le_of_le_one_left pos2 hg1))
    · exact .inr (by rw [h])
  obtain ⟨st, s1, x, y, n, s2, s3, s4, s5⟩ := (div_steps H hord hdt hdt1 hC hmin hmax name hv1 (by rcases hle with h | h <;> linarith) (by rcases hle with h | h <;> linarith) hv2' ht1 ht1' ht2 ht2' hM
    (by rcases hle with h | h <;> linarith) hM1 hM2 hT1 hT2 hg).1 hgap
  refine ⟨st, s1, x, y, s2, ?_⟩
  have h22 := rho_22 (x := dt.val / 20) (by positivity) (by linarith)
  have hρ : rhoQ dt = 1 - dt.val / 20 := rfl
  rw [← hρ] at h22
  have := quotient_close hε0 hv1 (by rcases hle with h | h <;> linarith) (by positivity) h22.1 h22.2 (pow_le_one₀ hr0 hr.2.le) (pow_nonneg hr0 n) (pow_le_one₀ hr0 hr.2.le) s4 s5 hle s3
  refine this.trans (le_of_eq ?_)
  rw [show 2 * (6 * dt.val / enc.Tcod.val) = 12 * dt.val / enc.Tcod.val by ring]
  ring

/-- **C112 (fine time steps).** With `dt ≤ 1/800` every quotient below one is computed: `v1` may be as close to `v2` as twelve simulation steps, or equal to it when both are given at the
same time.  It suffices that `20*ln` of the inverse dividend is at most `343 - 23*dt` (ms). -/
theorem C112_quotient_fine (H : EventHeap Double) {ord : ℕ → List ℕ → List ℕ} (hord : SetOrder ord) {enc : Encoder Double} {dt : Double}
    (hdt : 1 / 10000 ≤ dt.val) (hdt1 : dt.val ≤ 1 / 800) (hC : 25 * dt.val ≤ enc.Tcod.val) (hmin : 1 + 12 * dt.val ≤ enc.Tmin.val) (hmax : enc.Tmax.val ≤ 2 ^ 24 * dt.val)
    (name : Option String) {v1 v2 t1 t2 T : Double} (hv1 : 6 * dt.val / enc.Tcod.val < v1.val)
    (hv2' : v2.val ≤ 1 - 7 * dt.val / enc.Tcod.val) (ht1 : 0 ≤ t1.val) (ht1' : t1.val ≤ 2 ^ 48 * dt.val)
    (ht2 : 0 ≤ t2.val) (ht2' : t2.val ≤ 2 ^ 48 * dt.val) (hM : 20 * Real.log (1 / (v1.real - 6 * dt.real / enc.Tcod.real)) ≤ 343 - 23 * dt.real)
    (hT1 : t1.val + 4 * enc.Tmin.val + 2 * enc.Tcod.val + 359 ≤ T.val) (hT2 : t2.val + 4 * enc.Tmin.val + 2 * enc.Tcod.val + 359 ≤ T.val)
    (hgap : v1.val + 12 * dt.val / enc.Tcod.val ≤ v2.val ∨ (v1 = v2 ∧ t1 = t2)) :
    let p := (divFl enc name World.empty).1
    let w := (divFl enc name World.empty).2
    ∃ st, sessionFl H ord enc dt T w p.1 [.value v1 p.2.1 t1, .value v2 p.2.2.1 t2] = .ok st ∧
      CarriesFl enc (8 * dt.val / enc.Tcod.val + 12 * dt.val / enc.Tcod.val / (v2.val - 6 * dt.val / enc.Tcod.val) + 6 * dt.val / 5) (st.spikeLog p.2.2.2) (v1.val / v2.val) := by
  have hdt0 : 0 < dt.val := by linarith
  have hC0 : 0 < enc.Tcod.val := by linarith
  have r0 : 0 < dt.real := by exact_mod_cast hdt0
  have r1 : dt.real ≤ 1 := by
    have : dt.val ≤ 1 := by linarith
    exact_mod_cast this
  have hε0 : 0 < 6 * dt.val / enc.Tcod.val := by positivity
  have hε7 : 0 < 7 * dt.val / enc.Tcod.val := by positivity
  have e12 : 12 * dt.val / enc.Tcod.val = 6 * dt.val / enc.Tcod.val + 6 * dt.val / enc.Tcod.val := by ring
  obtain ⟨X, hX⟩ : ∃ X, X = v1.val - 6 * dt.val / enc.Tcod.val := ⟨_, rfl⟩
  have hX0 : 0 < X := by rw [hX]; linarith
  have hX1 : X ≤ 1 := by
    rw [hX]
    rcases hgap with h | ⟨h, -⟩
    · rw [e12] at h; linarith
    · rw [h]; linarith
  have hXr : ((X : ℚ) : ℝ) = v1.real - 6 * dt.real / enc.Tcod.real := by rw [hX]; push_cast; rfl
  have hX0r : (0 : ℝ) < ((X : ℚ) : ℝ) := by exact_mod_cast hX0
  have hX1r : ((X : ℚ) : ℝ) ≤ 1 := by exact_mod_cast hX1
  rw [← hXr] at hM
  have hL : 0 ≤ Real.log (1 / ((X : ℚ) : ℝ)) := Real.log_nonneg (by rw [le_div_iff₀ hX0r]; linarith)
  obtain ⟨M, hMd⟩ : ∃ M, M = ⌈20 * Real.log (1 / ((X : ℚ) : ℝ)) / dt.real⌉₊ := ⟨_, rfl⟩
  have hN1 : 20 * Real.log (1 / ((X : ℚ) : ℝ)) ≤ M * dt.real := by
    have := Nat.le_ceil (20 * Real.log (1 / ((X : ℚ) : ℝ)) / dt.real)
    rwa [← hMd, div_le_iff₀ r0] at this
  have hN2 : M * dt.real ≤ 20 * Real.log (1 / ((X : ℚ) : ℝ)) + dt.real := by
    have := Nat.ceil_lt_add_one (show 0 ≤ 20 * Real.log (1 / ((X : ℚ) : ℝ)) / dt.real by positivity)
    rw [← hMd] at this
    have := mul_le_mul_of_nonneg_right this.le r0.le
    rwa [add_mul, div_mul_cancel₀ _ r0.ne', one_mul] at this
  have hNl : rhoQ dt ^ M ≤ X := by
    have : rho dt.real ^ M ≤ ((X : ℚ) : ℝ) := by
      rw [← Real.exp_log (rho_pos (show dt.real < 20 by linarith)), ← Real.exp_nat_mul, ← Real.le_log_iff_exp_le hX0r]
      rw [one_div, Real.log_inv] at hN1
      have : (M : ℝ) * (dt.real / 20) ≤ M * -Real.log (rho dt.real) := mul_le_mul_of_nonneg_left (log_rho r0 (by linarith)).1 (Nat.cast_nonneg _)
      linarith
    rw [← rhoQ_real] at this
    exact_mod_cast this
  have hM11 : ((M : ℚ) + 22) * dt.val ≤ 343 := by
    have : ((M : ℝ) + 22) * dt.real ≤ 343 := by linarith
    unfold Fl.real at this
    exact_mod_cast this
  have hMd' : M + 22 ≤ 2 ^ 23 := by
    have h1 : ((M : ℚ) + 22) * (1 / 10000) ≤ ((M : ℚ) + 22) * dt.val := mul_le_mul_of_nonneg_left hdt (by positivity)
    have h2 : (M : ℚ) + 22 ≤ 2 ^ 23 := by norm_num; linarith
    exact_mod_cast h2
  rw [hX] at hNl
  refine C112_quotient H hord hdt0 (by linarith) hC hmin hmax name hv1 hv2' ht1 ht1' ht2 ht2' hNl hM11 hMd' (by linarith) (by linarith) (g := 0) (.inl hdt1) ?_
  rcases hgap with h | ⟨h, h'⟩
  · left; rw [pow_zero, one_mul]; rw [e12] at h; linarith
  · exact .inr ⟨h, h', rfl⟩

/-- **C112 (operands in the wrong order).** If the dividend clearly exceeds the divisor, the output stays silent. -/
theorem C112_reversed_silent (H : EventHeap Double) {ord : ℕ → List ℕ → List ℕ} (hord : SetOrder ord) {enc : Encoder Double} {dt : Double}
    (hdt : 0 < dt.val) (hdt1 : dt.val ≤ 1 / 20) (hC : 25 * dt.val ≤ enc.Tcod.val) (hmin : 1 + 12 * dt.val ≤ enc.Tmin.val) (hmax : enc.Tmax.val ≤ 2 ^ 24 * dt.val)
    (name : Option String) {v1 v2 t1 t2 T : Double} (hv1' : v1.val ≤ 1 - 7 * dt.val / enc.Tcod.val)
    (hv2 : 6 * dt.val / enc.Tcod.val < v2.val) (ht1 : 0 ≤ t1.val) (ht1' : t1.val ≤ 2 ^ 48 * dt.val)
    (ht2 : 0 ≤ t2.val) (ht2' : t2.val ≤ 2 ^ 48 * dt.val) {M : ℕ} (hM : rhoQ dt ^ M ≤ v2.val - 6 * dt.val / enc.Tcod.val)
    (hM1 : ((M : ℚ) + 22) * dt.val ≤ 343) (hM2 : M + 22 ≤ 2 ^ 23)
    (hT1 : t1.val + 4 * enc.Tmin.val + 2 * enc.Tcod.val + 15 + (M + 36) * dt.val ≤ T.val) (hT2 : t2.val + 4 * enc.Tmin.val + 2 * enc.Tcod.val + 15 + (M + 36) * dt.val ≤ T.val)
    {g : ℕ} (hg : 1 / 100 + 14 * dt.val ≤ g * dt.val) (hgap : v2.val + 6 * dt.val / enc.Tcod.val ≤ rhoQ dt ^ g * (v1.val - 6 * dt.val / enc.Tcod.val)) :
    let p := (divFl enc name World.empty).1
    let w := (divFl enc name World.empty).2
    ∃ st, sessionFl H ord enc dt T w p.1 [.value v1 p.2.1 t1, .value v2 p.2.2.1 t2] = .ok st ∧ st.spikeLog p.2.2.2 = some [] := by
  intro p w
  have hC0 : 0 < enc.Tcod.val := by linarith
  have hr := rho_bounds hdt (show dt.val ≤ 1 by linarith)
  have hr0 : 0 ≤ rhoQ dt := by linarith [hr.1]
  have hg1 : rhoQ dt ^ g ≤ 1 := pow_le_one₀ hr0 hr.2.le
  have hε0 : 0 < 6 * dt.val / enc.Tcod.val := by positivity
  have pos2 : 0 ≤ v1.val - 6 * dt.val / enc.Tcod.val := by
    by_contra hc
    push Not at hc
    have := mul_nonpos_of_nonneg_of_nonpos (pow_nonneg hr0 g) hc.le
    linarith
  have hle : rhoQ dt ^ g * (v1.val - 6 * dt.val / enc.Tcod.val) ≤ v1.val - 6 * dt.val / enc.Tcod.val := mul_le_of_le_one_left pos2 hg1
  exact (div_steps H hord hdt hdt1 hC hmin hmax name (by linarith) hv1' hv2 (by linarith) ht1 ht1' ht2 ht2' (by linarith) hM hM1 hM2 hT1 hT2 (.inr hg)).2 hg hgap

/-- **C112 (the same network).** The network of this file is the network of `Verif/Model/Networks.lean` with every weight and delay rounded (the subtractor's long delays in two
roundings). -/
theorem C112_same_network (enc : Encoder Double) (name : Option String) :
    List.Forall₂ (fun s s' => s.pre = s'.pre ∧ s.post = s'.post ∧ s.kind = s'.kind ∧ s.weight.val = fl 53 s'.weight ∧
        (s.delay.val = fl 53 s'.delay ∨ s'.delay = enc.Tmin.val + (3 * 1 + 2 * (1 / 100)) ∧ s.delay.val = fl 53 (enc.Tmin.val + fl 53 (3 * 1 + 2 * (1 / 100)))))
      (divFl enc name World.empty).2.syns (divNetwork enc.exact name World.empty).2.syns := by
  have w1 : enc.waccBarFl.val = fl 53 (enc.exact.waccBar) := by
    rw [Encoder.waccBarFl, Fl.val_div, d1000]; congr 1; norm_num [Encoder.waccBar, Encoder.exact, cVt, ctm]
  have w2 : (-enc.waccBarFl).val = fl 53 (-enc.exact.waccBar) := by rw [fl_neg, ← w1]; rfl
  have c1 : (weFl : Double).val = fl 53 10 := by decide +kernel
  have c2 : (Fl.of (1 / 2) * weFl : Double).val = fl 53 (1 / 2 * 10) := by decide +kernel
  have c3 : (wiFl : Double).val = fl 53 (-10) := by decide +kernel
  have c4 : (tsynFl : Double).val = fl 53 1 := by decide +kernel
  have c5 : (Fl.of 2 * wiFl : Double).val = fl 53 (2 * -10) := by decide +kernel
  have c6 : (Fl.of (1 / 2) * wiFl : Double).val = fl 53 (1 / 2 * -10) := by decide +kernel
  have c7 : (tneuFl : Double).val = fl 53 (1 / 100) := by decide +kernel
  have c8 : (Fl.of 2 * tneuFl : Double).val = fl 53 (2 * (1 / 100)) := by decide +kernel
  have c9 : (dirFl : Double).val = fl 53 (3 * 1 + 2 * (1 / 100)) := by decide +kernel
  have c10 : (enc.Tmin + dirFl : Double).val = fl 53 (enc.Tmin.val + fl 53 (3 * 1 + 2 * (1 / 100))) := by rw [Fl.val_add, c9]
  have c11 : (Fl.of 2 * tsynFl : Double).val = fl 53 (2 * 1) := by decide +kernel
  have c12 : (gmultFl : Double).val = fl 53 (cgmult : ℚ) := by decide +kernel
  have c13 : (tsynFl + enc.Tmin).val = fl 53 (1 + enc.Tmin.val) := by rw [Fl.val_add, tsyn_val]
  have c14 : (-Fl.of 1 : Double).val = fl 53 (-1) := by decide +kernel
  have e1 : (divFl enc name World.empty).2.syns =
    [⟨0, 1, weFl, tsynFl, .V⟩, ⟨1, 1, wiFl, tsynFl, .V⟩, ⟨0, 2, Fl.of (1 / 2) * weFl, tsynFl, .V⟩, ⟨1, 3, enc.waccBarFl, tsynFl + enc.Tmin, .ge⟩,
     ⟨2, 3, -enc.waccBarFl, tsynFl, .ge⟩,
     ⟨5, 6, weFl, tsynFl, .V⟩, ⟨6, 6, wiFl, tsynFl, .V⟩, ⟨5, 7, Fl.of (1 / 2) * weFl, tsynFl, .V⟩, ⟨6, 8, enc.waccBarFl, tsynFl + enc.Tmin, .ge⟩,
     ⟨7, 8, -enc.waccBarFl, tsynFl, .ge⟩,
     ⟨2, 10, Fl.of (1 / 2) * weFl, tsynFl, .V⟩, ⟨7, 10, Fl.of (1 / 2) * weFl, tsynFl, .V⟩, ⟨10, 4, weFl, Fl.of 2 * tsynFl, .V⟩, ⟨10, 9, weFl, Fl.of 2 * tsynFl, .V⟩,
     ⟨10, 3, gmultFl, tsynFl, .gf⟩, ⟨10, 3, Fl.of 1, tsynFl, .gate⟩, ⟨3, 4, weFl, tsynFl + enc.Tmin, .V⟩,
     ⟨10, 8, gmultFl, tsynFl, .gf⟩, ⟨10, 8, Fl.of 1, tsynFl, .gate⟩, ⟨8, 9, weFl, tsynFl + enc.Tmin, .V⟩,
     ⟨11, 13, Fl.of (1 / 2) * weFl, tsynFl, .V⟩, ⟨12, 14, Fl.of (1 / 2) * weFl, tsynFl, .V⟩, ⟨13, 15, weFl, tsynFl, .V⟩, ⟨14, 16, weFl, tsynFl, .V⟩,
     ⟨13, 16, wiFl, tsynFl, .V⟩, ⟨14, 15, wiFl, tsynFl, .V⟩, ⟨13, 17, weFl, enc.Tmin + dirFl, .V⟩, ⟨14, 18, weFl, enc.Tmin + dirFl, .V⟩,
     ⟨14, 17, weFl, dirFl, .V⟩, ⟨13, 18, weFl, dirFl, .V⟩, ⟨16, 18, Fl.of 2 * wiFl, tsynFl, .V⟩, ⟨15, 17, Fl.of 2 * wiFl, tsynFl, .V⟩,
     ⟨17, 16, Fl.of (1 / 2) * weFl, tsynFl, .V⟩, ⟨18, 15, Fl.of (1 / 2) * weFl, tsynFl, .V⟩, ⟨19, 19, weFl, tneuFl, .V⟩,
     ⟨13, 19, Fl.of (1 / 2) * wiFl, Fl.of 2 * tneuFl, .V⟩, ⟨14, 19, Fl.of (1 / 2) * wiFl, Fl.of 2 * tneuFl, .V⟩, ⟨13, 19, Fl.of (1 / 2) * weFl, tneuFl, .V⟩,
     ⟨14, 19, Fl.of (1 / 2) * weFl, tneuFl, .V⟩, ⟨19, 18, Fl.of 2 * wiFl, tneuFl, .V⟩, ⟨19, 16, wiFl, tneuFl, .V⟩,
     ⟨20, 21, weFl, tsynFl, .V⟩, ⟨20, 22, Fl.of (1 / 2) * weFl, tsynFl, .V⟩, ⟨21, 21, wiFl, tsynFl, .V⟩, ⟨21, 23, gmultFl, tsynFl + enc.Tmin, .gf⟩,
     ⟨21, 23, Fl.of 1, tsynFl + enc.Tmin, .gate⟩, ⟨22, 23, -Fl.of 1, tsynFl, .gate⟩, ⟨22, 23, enc.waccBarFl, tsynFl, .ge⟩, ⟨23, 24, weFl, tsynFl + enc.Tmin, .V⟩,
     ⟨22, 24, weFl, Fl.of 2 * tsynFl, .V⟩, ⟨4, 11, weFl, tsynFl, .V⟩, ⟨9, 12, weFl, tsynFl, .V⟩, ⟨17, 20, weFl, tsynFl, .V⟩].reverse := rfl
  have e2 : (divNetwork enc.exact name World.empty).2.syns =
    [⟨0, 1, 10, 1, .V⟩, ⟨1, 1, -10, 1, .V⟩, ⟨0, 2, 1 / 2 * 10, 1, .V⟩, ⟨1, 3, enc.exact.waccBar, 1 + enc.Tmin.val, .ge⟩,
     ⟨2, 3, -enc.exact.waccBar, 1, .ge⟩,
     ⟨5, 6, 10, 1, .V⟩, ⟨6, 6, -10, 1, .V⟩, ⟨5, 7, 1 / 2 * 10, 1, .V⟩, ⟨6, 8, enc.exact.waccBar, 1 + enc.Tmin.val, .ge⟩,
     ⟨7, 8, -enc.exact.waccBar, 1, .ge⟩,
     ⟨2, 10, 1 / 2 * 10, 1, .V⟩, ⟨7, 10, 1 / 2 * 10, 1, .V⟩, ⟨10, 4, 10, 2 * 1, .V⟩, ⟨10, 9, 10, 2 * 1, .V⟩,
     ⟨10, 3, cgmult, 1, .gf⟩, ⟨10, 3, 1, 1, .gate⟩, ⟨3, 4, 10, 1 + enc.Tmin.val, .V⟩,
     ⟨10, 8, cgmult, 1, .gf⟩, ⟨10, 8, 1, 1, .gate⟩, ⟨8, 9, 10, 1 + enc.Tmin.val, .V⟩,
     ⟨11, 13, 1 / 2 * 10, 1, .V⟩, ⟨12, 14, 1 / 2 * 10, 1, .V⟩, ⟨13, 15, 10, 1, .V⟩, ⟨14, 16, 10, 1, .V⟩,
     ⟨13, 16, -10, 1, .V⟩, ⟨14, 15, -10, 1, .V⟩, ⟨13, 17, 10, enc.Tmin.val + (3 * 1 + 2 * (1 / 100)), .V⟩, ⟨14, 18, 10, enc.Tmin.val + (3 * 1 + 2 * (1 / 100)), .V⟩,
     ⟨14, 17, 10, 3 * 1 + 2 * (1 / 100), .V⟩, ⟨13, 18, 10, 3 * 1 + 2 * (1 / 100), .V⟩, ⟨16, 18, 2 * -10, 1, .V⟩, ⟨15, 17, 2 * -10, 1, .V⟩,
     ⟨17, 16, 1 / 2 * 10, 1, .V⟩, ⟨18, 15, 1 / 2 * 10, 1, .V⟩, ⟨19, 19, 10, 1 / 100, .V⟩,
     ⟨13, 19, 1 / 2 * -10, 2 * (1 / 100), .V⟩, ⟨14, 19, 1 / 2 * -10, 2 * (1 / 100), .V⟩, ⟨13, 19, 1 / 2 * 10, 1 / 100, .V⟩,
     ⟨14, 19, 1 / 2 * 10, 1 / 100, .V⟩, ⟨19, 18, 2 * -10, 1 / 100, .V⟩, ⟨19, 16, -10, 1 / 100, .V⟩,
     ⟨20, 21, 10, 1, .V⟩, ⟨20, 22, 1 / 2 * 10, 1, .V⟩, ⟨21, 21, -10, 1, .V⟩, ⟨21, 23, cgmult, 1 + enc.Tmin.val, .gf⟩,
     ⟨21, 23, 1, 1 + enc.Tmin.val, .gate⟩, ⟨22, 23, -1, 1, .gate⟩, ⟨22, 23, enc.exact.waccBar, 1, .ge⟩, ⟨23, 24, 10, 1 + enc.Tmin.val, .V⟩,
     ⟨22, 24, 10, 2 * 1, .V⟩, ⟨4, 11, 10, 1, .V⟩, ⟨9, 12, 10, 1, .V⟩, ⟨17, 20, 10, 1, .V⟩].reverse := rfl
  rw [e1, e2, List.forall₂_reverse_iff]
  simp only [List.forall₂_cons, w1, w2, c1, c2, c3, c4, c5, c6, c7, c8, c9, c10, c11, c12, c13, c14, true_and, and_self, or_true, true_or, List.forall₂_nil_left_iff]

/-- 0.3 / 0.6 with the default encoder and dt = 1/32. -/
example : ∃ st, sessionFl (sortedHeap _) (fun _ l => l) ⟨Fl.of 10, Fl.of 100⟩ (Fl.of (1 / 32)) (Fl.of 700) (divFl ⟨Fl.of 10, Fl.of 100⟩ (some "div") World.empty).2 0
      [.value (Fl.of (3 / 10)) 0 0, .value (Fl.of (6 / 10)) 5 (Fl.of (1 / 3))] = .ok st ∧
      CarriesFl ⟨Fl.of 10, Fl.of 100⟩ (8 * (Fl.of (1 / 32) : Double).val / (Fl.of 100 : Double).val + 12 * (Fl.of (1 / 32) : Double).val / (Fl.of 100 : Double).val /
        ((Fl.of (6 / 10) : Double).val - 6 * (Fl.of (1 / 32) : Double).val / (Fl.of 100 : Double).val) + 6 * (Fl.of (1 / 32) : Double).val / 5) (st.spikeLog 24)
        ((Fl.of (3 / 10) : Double).val / (Fl.of (6 / 10) : Double).val) :=
  C112_quotient (sortedHeap _) id_setOrder (enc := ⟨Fl.of 10, Fl.of 100⟩) (dt := Fl.of (1 / 32)) (by decide +kernel) (by decide +kernel) (by decide +kernel)
    (by decide +kernel) (by decide +kernel) (some "div") (v1 := Fl.of (3 / 10)) (v2 := Fl.of (6 / 10)) (t1 := 0) (t2 := Fl.of (1 / 3)) (by decide +kernel) (by decide +kernel)
    (by decide +kernel) (by decide +kernel) (by decide +kernel) (by decide +kernel) (M := 900) (by decide +kernel) (by decide +kernel) (by norm_num)
    (by decide +kernel) (by decide +kernel) (g := 15) (by decide +kernel) (.inl (by decide +kernel))

/-- 0.6 / 0.3 is silent. -/
example : ∃ st, sessionFl (sortedHeap _) (fun _ l => l) ⟨Fl.of 10, Fl.of 100⟩ (Fl.of (1 / 32)) (Fl.of 700) (divFl ⟨Fl.of 10, Fl.of 100⟩ none World.empty).2 0
      [.value (Fl.of (6 / 10)) 0 0, .value (Fl.of (3 / 10)) 5 0] = .ok st ∧ st.spikeLog 24 = some [] :=
  C112_reversed_silent (sortedHeap _) id_setOrder (enc := ⟨Fl.of 10, Fl.of 100⟩) (dt := Fl.of (1 / 32)) (by decide +kernel) (by decide +kernel) (by decide +kernel)
    (by decide +kernel) (by decide +kernel) none (v1 := Fl.of (6 / 10)) (v2 := Fl.of (3 / 10)) (t1 := 0) (t2 := 0) (by decide +kernel) (by decide +kernel)
    (by decide +kernel) (by decide +kernel) (by decide +kernel) (by decide +kernel) (M := 900) (by decide +kernel) (by decide +kernel) (by norm_num)
    (by decide +kernel) (by decide +kernel) (g := 15) (by decide +kernel) (by decide +kernel)

/-- What 1/2 needs of the decay at the default time step. -/
theorem half_in_time : 20 * Real.log (1 / (Fl.real (Fl.of (1 / 2)) - 6 * Fl.real (Fl.of (1 / 1000)) / Fl.real (Fl.of 100))) ≤ 343 - 23 * Fl.real (Fl.of (1 / 1000)) := by
  have hX : (1 : ℚ) / 3 ≤ (Fl.of (1 / 2) : Double).val - 6 * (Fl.of (1 / 1000) : Double).val / (Fl.of 100 : Double).val := by decide +kernel
  have hd : (Fl.of (1 / 1000) : Double).val ≤ 1 / 100 := by decide +kernel
  have hdr : Fl.real (Fl.of (1 / 1000)) ≤ 1 / 100 := by
    have : Fl.real (Fl.of (1 / 1000)) ≤ (((1 : ℚ) / 100 : ℚ) : ℝ) := by exact_mod_cast hd
    push_cast at this; exact this
  have hXr : (((1 : ℚ) / 3 : ℚ) : ℝ) ≤ (((Fl.of (1 / 2) : Double).val - 6 * (Fl.of (1 / 1000) : Double).val / (Fl.of 100 : Double).val : ℚ) : ℝ) := by exact_mod_cast hX
  push_cast at hXr
  change (1 : ℝ) / 3 ≤ Fl.real (Fl.of (1 / 2)) - 6 * Fl.real (Fl.of (1 / 1000)) / Fl.real (Fl.of 100) at hXr
  generalize Fl.real (Fl.of (1 / 2)) - 6 * Fl.real (Fl.of (1 / 1000)) / Fl.real (Fl.of 100) = X at *
  have h3 : 1 / X ≤ 3 := by rw [div_le_iff₀ (by linarith)]; linarith
  have := Real.log_le_sub_one_of_pos (show 0 < 1 / X from one_div_pos.mpr (by linarith))
  linarith

/-- 0.5 / 0.5 with the default encoder and the default time step 0.001. -/
example : ∃ st, sessionFl (sortedHeap _) (fun _ l => l) ⟨Fl.of 10, Fl.of 100⟩ (Fl.of (1 / 1000)) (Fl.of 700) (divFl ⟨Fl.of 10, Fl.of 100⟩ none World.empty).2 0
      [.value (Fl.of (1 / 2)) 0 0, .value (Fl.of (1 / 2)) 5 0] = .ok st ∧
      CarriesFl ⟨Fl.of 10, Fl.of 100⟩ (8 * (Fl.of (1 / 1000) : Double).val / (Fl.of 100 : Double).val + 12 * (Fl.of (1 / 1000) : Double).val / (Fl.of 100 : Double).val /
        ((Fl.of (1 / 2) : Double).val - 6 * (Fl.of (1 / 1000) : Double).val / (Fl.of 100 : Double).val) + 6 * (Fl.of (1 / 1000) : Double).val / 5) (st.spikeLog 24)
        ((Fl.of (1 / 2) : Double).val / (Fl.of (1 / 2) : Double).val) :=
  C112_quotient_fine (sortedHeap _) id_setOrder (enc := ⟨Fl.of 10, Fl.of 100⟩) (dt := Fl.of (1 / 1000)) (by decide +kernel) (by decide +kernel) (by decide +kernel)
    (by decide +kernel) (by decide +kernel) none (v1 := Fl.of (1 / 2)) (v2 := Fl.of (1 / 2)) (t1 := 0) (t2 := 0) (by decide +kernel) (by decide +kernel)
    (by decide +kernel) (by decide +kernel) (by decide +kernel) (by decide +kernel) half_in_time (by decide +kernel) (by decide +kernel) (.inr ⟨rfl, rfl⟩)

end Axon
