import Verif.Props.FloatLogExp

/-! # C109: the logarithm and the exponential network in Python floats, against the real functions -/
set_option linter.unusedSectionVars false
namespace Axon
open Spec

/-- Two nonpositive exponents. -/
theorem exp_close {a b δ : ℝ} (ha : a ≤ 0) (hb : b ≤ 0) (h : |a - b| ≤ δ) : |Real.exp a - Real.exp b| ≤ δ := by
  have key : ∀ a b : ℝ, a ≤ 0 → Real.exp a - Real.exp b ≤ max 0 (a - b) := by
    intro a b ha
    rcases le_total a b with hab | hab
    · have := Real.exp_le_exp.mpr hab
      exact le_max_of_le_left (by linarith)
    · refine le_max_of_le_right ?_
      have h1 : Real.exp a ≤ 1 := Real.exp_le_one_iff.mpr ha
      have h2 : b - a + 1 ≤ Real.exp (b - a) := Real.add_one_le_exp _
      have h3 : Real.exp b = Real.exp a * Real.exp (b - a) := by rw [← Real.exp_add]; congr 1; ring
      have h4 : Real.exp a * (b - a + 1) ≤ Real.exp b := by rw [h3]; exact mul_le_mul_of_nonneg_left h2 (Real.exp_pos _).le
      have h5 : Real.exp a * (a - b) ≤ 1 * (a - b) := mul_le_mul_of_nonneg_right h1 (by linarith)
      linarith
  obtain ⟨h1, h2⟩ := abs_le.mp h
  rw [abs_le]
  constructor
  · have := key b a hb
    rcases max_choice 0 (b - a) with hm | hm <;> rw [hm] at this
    · linarith [abs_nonneg (a - b)]
    · linarith
  · have := key a b ha
    rcases max_choice 0 (a - b) with hm | hm <;> rw [hm] at this
    · linarith [abs_nonneg (a - b)]
    · linarith

/-- The natural logarithm from the number of steps of decay. -/
theorem log_steps {dt ε v : ℝ} (hdt : 0 < dt) (hdt' : dt < 20) (hl : 0 < v - ε) (hε : 0 ≤ ε) {n : ℕ} (hn : 1 ≤ n) (h1 : rho dt ^ n ≤ v + ε) (h2 : v - ε < rho dt ^ (n - 1)) :
    (20 - dt) * Real.log (1 / (v + ε)) ≤ n * dt ∧ n * dt ≤ 20 * Real.log (1 / (v - ε)) + dt := by
  have hlog := log_rho hdt hdt'
  have e : ∀ n : ℕ, rho dt ^ n = Real.exp (n * Real.log (rho dt)) := fun n => by rw [Real.exp_nat_mul, Real.exp_log (rho_pos hdt')]
  constructor
  · rw [e, ← Real.le_log_iff_exp_le (by linarith)] at h1
    have h3 : (n : ℝ) * -Real.log (rho dt) ≤ n * (dt / (20 - dt)) := mul_le_mul_of_nonneg_left hlog.2 (Nat.cast_nonneg _)
    have h4 : Real.log (1 / (v + ε)) ≤ n * (dt / (20 - dt)) := by
      rw [one_div, Real.log_inv]; linarith
    have := mul_le_mul_of_nonneg_left h4 (show 0 ≤ 20 - dt by linarith)
    rwa [show (20 - dt) * ((n : ℝ) * (dt / (20 - dt))) = n * dt by
      have : (20 - dt) ≠ 0 := by linarith
      field_simp] at this
  · rw [e, ← Real.log_lt_iff_lt_exp hl] at h2
    rw [one_div, Real.log_inv]
    have h4 : ((n - 1 : ℕ) : ℝ) * (dt / 20) ≤ ((n - 1 : ℕ) : ℝ) * -Real.log (rho dt) := mul_le_mul_of_nonneg_left hlog.1 (Nat.cast_nonneg _)
    have h5 : ((n - 1 : ℕ) : ℝ) = n - 1 := by push_cast [Nat.cast_sub hn]; ring
    rw [h5] at h2 h4
    linarith

/-- A float as a real number. -/
abbrev Fl.real (x : Double) : ℝ := ((x.val : ℚ) : ℝ)

/-- **C109 (logarithm).** The logarithm network in Python floats: the output interval is `Tmin + 20*ln(1/v)` up to an explicit error. -/
theorem C109_log (H : EventHeap Double) {ord : ℕ → List ℕ → List ℕ} (hord : SetOrder ord) {enc : Encoder Double} {dt : Double}
    (hdt : 0 < dt.val) (hdt1 : dt.val ≤ 1) (hC : 13 * dt.val ≤ enc.Tcod.val) (hmin : 1 + 12 * dt.val ≤ enc.Tmin.val) (hmax : enc.Tmax.val ≤ 2 ^ 24 * dt.val)
    (name : Option String) {v t0 T : Double} (hv0 : 6 * dt.val / enc.Tcod.val < v.val) (hv1 : v.val ≤ 1 - 7 * dt.val / enc.Tcod.val) (ht : 0 ≤ t0.val)
    (ht' : t0.val ≤ 2 ^ 48 * dt.val)
    (hL : 20 * Real.log (1 / (v.real - 6 * dt.real / enc.Tcod.real)) ≤ (2 ^ 24 - 1) * dt.real)
    (hT : t0.real + 2 * enc.Tmin.real + v.real * enc.Tcod.real + 3 + 13 * dt.real + 20 * Real.log (1 / (v.real - 6 * dt.real / enc.Tcod.real)) ≤ T.real) :
    let p := (logFl enc name World.empty).1
    let w := (logFl enc name World.empty).2
    ∃ st, sessionFl H ord enc dt T w p.1 [.value v p.2.1 t0] = .ok st ∧
      ∃ x y : Double, st.spikeLog p.2.2 = some [x, y] ∧
        enc.Tmin.real + (20 - dt.real) * Real.log (1 / (v.real + 6 * dt.real / enc.Tcod.real)) - 6 * dt.real ≤ (y - x).real ∧
        (y - x).real ≤ enc.Tmin.real + 20 * Real.log (1 / (v.real - 6 * dt.real / enc.Tcod.real)) + 7 * dt.real := by
  intro p w
  have hC0 : 0 < enc.Tcod.val := by linarith
  have hC0r : 0 < enc.Tcod.real := by exact_mod_cast hC0
  have r0 : 0 < dt.real := by exact_mod_cast hdt
  have r1 : dt.real ≤ 1 := by exact_mod_cast hdt1
  have eε : ((6 * dt.val / enc.Tcod.val : ℚ) : ℝ) = 6 * dt.real / enc.Tcod.real := by push_cast; rfl
  have hε0 : 0 < 6 * dt.real / enc.Tcod.real := by positivity
  have hl : 0 < v.real - 6 * dt.real / enc.Tcod.real := by
    rw [← eε]; have : ((6 * dt.val / enc.Tcod.val : ℚ) : ℝ) < v.real := by exact_mod_cast hv0
    linarith
  have hv1r : v.real ≤ 1 := by
    have h7 : 0 ≤ 7 * dt.val / enc.Tcod.val := by positivity
    have : v.val ≤ 1 := by linarith
    exact_mod_cast this
  have hlog := log_rho r0 (by linarith)
  have hL0 : 0 ≤ Real.log (1 / (v.real - 6 * dt.real / enc.Tcod.real)) := Real.log_nonneg (by
    rw [le_div_iff₀ hl]; linarith)
  obtain ⟨N, hN⟩ : ∃ N, N = ⌈20 * Real.log (1 / (v.real - 6 * dt.real / enc.Tcod.real)) / dt.real⌉₊ := ⟨_, rfl⟩
  have hN1 : 20 * Real.log (1 / (v.real - 6 * dt.real / enc.Tcod.real)) ≤ N * dt.real := by
    have := Nat.le_ceil (20 * Real.log (1 / (v.real - 6 * dt.real / enc.Tcod.real)) / dt.real)
    rwa [← hN, div_le_iff₀ r0] at this
  have hN2 : N * dt.real ≤ 20 * Real.log (1 / (v.real - 6 * dt.real / enc.Tcod.real)) + dt.real := by
    have := Nat.ceil_lt_add_one (show 0 ≤ 20 * Real.log (1 / (v.real - 6 * dt.real / enc.Tcod.real)) / dt.real by positivity)
    rw [← hN] at this
    have := mul_le_mul_of_nonneg_right this.le r0.le
    rwa [add_mul, div_mul_cancel₀ _ r0.ne', one_mul] at this
  have hNr : rho dt.real ^ N ≤ v.real - 6 * dt.real / enc.Tcod.real := by
    rw [← Real.exp_log (rho_pos (show dt.real < 20 by linarith)), ← Real.exp_nat_mul, ← Real.le_log_iff_exp_le hl]
    rw [one_div, Real.log_inv] at hN1
    have : (N : ℝ) * (dt.real / 20) ≤ N * -Real.log (rho dt.real) := mul_le_mul_of_nonneg_left hlog.1 (Nat.cast_nonneg _)
    linarith
  have hNq : rhoQ dt ^ N ≤ v.val - 6 * dt.val / enc.Tcod.val := by
    rw [← rhoQ_real, ← eε] at hNr
    exact_mod_cast hNr
  have hN24 : N ≤ 2 ^ 24 := by
    have : (N : ℝ) * dt.real ≤ 2 ^ 24 * dt.real := by linarith
    have := le_of_mul_le_mul_right this r0
    exact_mod_cast this
  obtain ⟨st, s1, x, y, n, s2, s3, n1, _, n3, n4⟩ := C109_log_steps H hord hdt hdt1 hC hmin hmax name (v := v) (t0 := t0) (T := T) (by
      have := mul_le_mul_of_nonneg_right hv1 hC0.le
      rw [sub_mul, div_mul_cancel₀ _ hC0.ne', one_mul] at this
      linarith) ht ht' hNq hN24 (by
      have : t0.real + 2 * enc.Tmin.real + v.real * enc.Tcod.real + 3 + (N + 12) * dt.real ≤ T.real := by linarith
      unfold Fl.real at this; exact_mod_cast this)
  have m1 : rho dt.real ^ n ≤ v.real + 6 * dt.real / enc.Tcod.real := by
    rw [← rhoQ_real, ← eε]; exact_mod_cast n3
  have m2 : v.real - 6 * dt.real / enc.Tcod.real < rho dt.real ^ (n - 1) := by
    rw [← rhoQ_real, ← eε]; exact_mod_cast n4
  obtain ⟨k1, k2⟩ := log_steps r0 (by linarith) hl hε0.le n1 m1 m2
  have s4 : |(y - x).real - (enc.Tmin.real + n * dt.real)| ≤ 6 * dt.real := by unfold Fl.real; exact_mod_cast s3
  obtain ⟨t1, t2⟩ := abs_le.mp s4
  exact ⟨st, s1, x, y, s2, by linarith, by linarith⟩

/-- **C109 (exponential, real).** The exponential network in Python floats: the output carries `exp(-v*Tcod/20)` up to an explicit error of order `dt`. -/
theorem C109_exponential_real (H : EventHeap Double) {ord : ℕ → List ℕ → List ℕ} (hord : SetOrder ord) {enc : Encoder Double} {dt : Double}
    (hdt : 0 < dt.val) (hdt1 : dt.val ≤ 1) (hC : 13 * dt.val ≤ enc.Tcod.val) (hC' : enc.Tcod.val ≤ 300) (hmin : 1 + 12 * dt.val ≤ enc.Tmin.val)
    (hmax : enc.Tmax.val ≤ 2 ^ 24 * dt.val) (name : Option String) {v t0 T : Double} (hv0 : 0 ≤ v.val) (hv1 : v.val ≤ 1) (ht : 0 ≤ t0.val)
    (ht' : t0.val ≤ 2 ^ 48 * dt.val) (hT : t0.val + 2 * enc.Tmin.val + (1 + v.val) * enc.Tcod.val + 3 + 14 * dt.val ≤ T.val) :
    let p := (exponentialFl enc name World.empty).1
    let w := (exponentialFl enc name World.empty).2
    ∃ st, sessionFl H ord enc dt T w p.1 [.value v p.2.1 t0] = .ok st ∧
      ∃ x y : Double, st.spikeLog p.2.2 = some [x, y] ∧
        |(enc.decodeInterval (y - x)).real - Real.exp (-(v.real * enc.Tcod.real / 20))|
          ≤ 8 * dt.real / enc.Tcod.real + (3 * dt.real / 10 + (enc.Tcod.real + 6 * dt.real) / 20 * (dt.real / (20 - dt.real))) := by
  intro p w
  obtain ⟨st, s1, x, y, n, s2, s3, s4⟩ := C109_exponential H hord hdt hdt1 hC hC' hmin hmax name hv0 hv1 ht ht' hT
  refine ⟨st, s1, x, y, s2, ?_⟩
  have hC0 : 0 < enc.Tcod.val := by linarith
  have hC0r : 0 < enc.Tcod.real := by exact_mod_cast hC0
  have r0 : 0 < dt.real := by exact_mod_cast hdt
  have r1 : dt.real ≤ 1 := by exact_mod_cast hdt1
  have v0 : 0 ≤ v.real := by exact_mod_cast hv0
  have v1 : v.real ≤ 1 := by exact_mod_cast hv1
  have hlog := log_rho r0 (by linarith)
  have s3' : |n * dt.real - v.real * enc.Tcod.real| ≤ 6 * dt.real := by unfold Fl.real; exact_mod_cast s3
  have s4' : |(enc.decodeInterval (y - x)).real - ((rhoQ dt : ℚ) : ℝ) ^ n| ≤ 8 * dt.real / enc.Tcod.real := by unfold Fl.real; exact_mod_cast s4
  rw [rhoQ_real, ← Real.exp_log (rho_pos (show dt.real < 20 by linarith)), ← Real.exp_nat_mul] at s4'
  obtain ⟨b1, b2⟩ := abs_le.mp s3'
  have vT : v.real * enc.Tcod.real ≤ enc.Tcod.real := mul_le_of_le_one_left hC0r.le v1
  have vT0 : 0 ≤ v.real * enc.Tcod.real := mul_nonneg v0 hC0r.le
  have hq : 0 < dt.real / (20 - dt.real) := div_pos r0 (by linarith)
  have n0 : (0 : ℝ) ≤ n := Nat.cast_nonneg _
  have hq2 : 0 ≤ (enc.Tcod.real + 6 * dt.real) / 20 * (dt.real / (20 - dt.real)) := by positivity
  have hup := mul_le_mul_of_nonneg_left hlog.1 n0
  have hdn := mul_le_mul_of_nonneg_left hlog.2 n0
  have h4 : dt.real / (20 - dt.real) = dt.real / 20 + dt.real / 20 * (dt.real / (20 - dt.real)) := by
    have : (20 - dt.real) ≠ 0 := by linarith
    field_simp; ring
  have h5 : (n : ℝ) * (dt.real / 20 * (dt.real / (20 - dt.real))) ≤ (enc.Tcod.real + 6 * dt.real) / 20 * (dt.real / (20 - dt.real)) := by
    rw [← mul_assoc]
    exact mul_le_mul_of_nonneg_right (by linarith) hq.le
  rw [h4, mul_add] at hdn
  have hn0 : (n : ℝ) * Real.log (rho dt.real) ≤ 0 := by
    have : 0 ≤ (n : ℝ) * (dt.real / 20) := by positivity
    linarith
  have hc := exp_close (a := (n : ℝ) * Real.log (rho dt.real)) (b := -(v.real * enc.Tcod.real / 20))
    (δ := 3 * dt.real / 10 + (enc.Tcod.real + 6 * dt.real) / 20 * (dt.real / (20 - dt.real))) hn0 (by linarith) (by
      rw [abs_le]; constructor <;> linarith)
  obtain ⟨c1, c2⟩ := abs_le.mp hc
  obtain ⟨e1, e2⟩ := abs_le.mp s4'
  rw [abs_le]; constructor <;> linarith

/-- **C109 (the same networks).** The networks of this file are the networks of `Verif/Model/Networks.lean` with every weight and delay rounded. -/
theorem C109_same_networks (enc : Encoder Double) (name : Option String) :
    List.Forall₂ Rounds (logFl enc name World.empty).2.syns (logNetwork enc.exact name World.empty).2.syns ∧
    List.Forall₂ Rounds (exponentialFl enc name World.empty).2.syns (exponentialNetwork enc.exact name World.empty).2.syns := by
  have w1 : enc.waccBarFl.val = fl 53 (enc.exact.waccBar) := by
    rw [Encoder.waccBarFl, Fl.val_div, d1000]; congr 1; norm_num [Encoder.waccBar, Encoder.exact, cVt, ctm]
  have w2 : (-enc.waccBarFl).val = fl 53 (-enc.exact.waccBar) := by rw [fl_neg, ← w1]; rfl
  have c1 : (weFl : Double).val = fl 53 10 := by decide +kernel
  have c2 : (Fl.of (1 / 2) * weFl : Double).val = fl 53 (1 / 2 * 10) := by decide +kernel
  have c3 : (wiFl : Double).val = fl 53 (-10) := by decide +kernel
  have c4 : (tsynFl : Double).val = fl 53 1 := by decide +kernel
  have c5 : (Fl.of 2 * tsynFl : Double).val = fl 53 (2 * 1) := by decide +kernel
  have c6 : (gmultFl : Double).val = fl 53 (cgmult : ℚ) := by decide +kernel
  have c7 : (tsynFl + enc.Tmin).val = fl 53 (1 + enc.Tmin.val) := by rw [Fl.val_add, tsyn_val]
  have c8 : (Fl.of 1 : Double).val = fl 53 1 := by decide +kernel
  have c9 : (-Fl.of 1 : Double).val = fl 53 (-1) := by decide +kernel
  refine ⟨?_, ?_⟩
  · show List.Forall₂ Rounds [⟨2, 4, weFl, Fl.of 2 * tsynFl, .V⟩, ⟨3, 4, weFl, tsynFl + enc.Tmin, .V⟩, ⟨2, 3, gmultFl, tsynFl, .gf⟩, ⟨2, 3, -enc.waccBarFl, tsynFl, .ge⟩,
      ⟨2, 3, Fl.of 1, tsynFl, .gate⟩, ⟨1, 3, enc.waccBarFl, tsynFl + enc.Tmin, .ge⟩, ⟨1, 1, wiFl, tsynFl, .V⟩, ⟨0, 2, Fl.of (1 / 2) * weFl, tsynFl, .V⟩, ⟨0, 1, weFl, tsynFl, .V⟩]
      [⟨2, 4, 10, 2 * 1, .V⟩, ⟨3, 4, 10, 1 + enc.Tmin.val, .V⟩, ⟨2, 3, cgmult, 1, .gf⟩, ⟨2, 3, -enc.exact.waccBar, 1, .ge⟩,
      ⟨2, 3, 1, 1, .gate⟩, ⟨1, 3, enc.exact.waccBar, 1 + enc.Tmin.val, .ge⟩, ⟨1, 1, -10, 1, .V⟩, ⟨0, 2, 1 / 2 * 10, 1, .V⟩, ⟨0, 1, 10, 1, .V⟩]
    simp only [List.forall₂_cons, Rounds, w1, w2, c1, c2, c3, c4, c5, c6, c7, and_self, List.forall₂_nil_left_iff]
  · show List.Forall₂ Rounds [⟨2, 4, weFl, Fl.of 2 * tsynFl, .V⟩, ⟨3, 4, weFl, tsynFl + enc.Tmin, .V⟩, ⟨2, 3, enc.waccBarFl, tsynFl, .ge⟩, ⟨2, 3, -Fl.of 1, tsynFl, .gate⟩,
      ⟨1, 3, Fl.of 1, tsynFl + enc.Tmin, .gate⟩, ⟨1, 3, gmultFl, tsynFl + enc.Tmin, .gf⟩, ⟨1, 1, wiFl, tsynFl, .V⟩, ⟨0, 2, Fl.of (1 / 2) * weFl, tsynFl, .V⟩, ⟨0, 1, weFl, tsynFl, .V⟩]
      [⟨2, 4, 10, 2 * 1, .V⟩, ⟨3, 4, 10, 1 + enc.Tmin.val, .V⟩, ⟨2, 3, enc.exact.waccBar, 1, .ge⟩, ⟨2, 3, -1, 1, .gate⟩,
      ⟨1, 3, 1, 1 + enc.Tmin.val, .gate⟩, ⟨1, 3, cgmult, 1 + enc.Tmin.val, .gf⟩, ⟨1, 1, -10, 1, .V⟩, ⟨0, 2, 1 / 2 * 10, 1, .V⟩, ⟨0, 1, 10, 1, .V⟩]
    simp only [List.forall₂_cons, Rounds, w1, c1, c2, c3, c4, c5, c6, c7, c9, and_self, List.forall₂_nil_left_iff]

/-- `ln 2` with the default encoder and dt = 0.001: 9 decay constants are enough for 0.5 - 6*dt/Tcod. -/
noncomputable example : ∃ st, sessionFl (sortedHeap _) (fun _ l => l) ⟨Fl.of 10, Fl.of 100⟩ (Fl.of (1 / 1000)) (Fl.of 300) (logFl ⟨Fl.of 10, Fl.of 100⟩ none World.empty).2 0
      [.value (Fl.of (1 / 2)) 0 0] = .ok st ∧ ∃ x y : Double, st.spikeLog 4 = some [x, y] ∧
        Fl.real (Fl.of 10) + (20 - Fl.real (Fl.of (1 / 1000))) * Real.log (1 / (Fl.real (Fl.of (1 / 2)) + 6 * Fl.real (Fl.of (1 / 1000)) / Fl.real (Fl.of 100))) - 6 * Fl.real (Fl.of (1 / 1000)) ≤ (y - x).real ∧
        (y - x).real ≤ Fl.real (Fl.of 10) + 20 * Real.log (1 / (Fl.real (Fl.of (1 / 2)) - 6 * Fl.real (Fl.of (1 / 1000)) / Fl.real (Fl.of 100))) + 7 * Fl.real (Fl.of (1 / 1000)) := by
  have q1 : (Fl.of 10 : Double).val = 10 := by decide +kernel
  have q2 : (Fl.of 100 : Double).val = 100 := by decide +kernel
  have q3 : (Fl.of (1 / 2) : Double).val = 1 / 2 := by decide +kernel
  have q4 : (0 : Double).val = 0 := by decide +kernel
  have q5 : (Fl.of 300 : Double).val = 300 := by decide +kernel
  have q6 : (999 : ℚ) / 1000000 ≤ (Fl.of (1 / 1000) : Double).val ∧ (Fl.of (1 / 1000) : Double).val ≤ 1001 / 1000000 := by decide +kernel
  have q7 : (999 : ℝ) / 1000000 ≤ Fl.real (Fl.of (1 / 1000)) ∧ Fl.real (Fl.of (1 / 1000)) ≤ 1001 / 1000000 := by
    have h1 : (((999 : ℚ) / 1000000 : ℚ) : ℝ) ≤ Fl.real (Fl.of (1 / 1000)) := by exact_mod_cast q6.1
    have h2 : Fl.real (Fl.of (1 / 1000)) ≤ (((1001 : ℚ) / 1000000 : ℚ) : ℝ) := by exact_mod_cast q6.2
    push_cast at h1 h2
    exact ⟨h1, h2⟩
  have hL : Real.log (1 / (Fl.real (Fl.of (1 / 2)) - 6 * Fl.real (Fl.of (1 / 1000)) / Fl.real (Fl.of 100))) ≤ 2 := by
    have e : 1 / 3 ≤ Fl.real (Fl.of (1 / 2)) - 6 * Fl.real (Fl.of (1 / 1000)) / Fl.real (Fl.of 100) := by
      have e1 : Fl.real (Fl.of (1 / 2)) = 1 / 2 := by rw [Fl.real, q3]; norm_num
      have e2 : Fl.real (Fl.of 100) = 100 := by rw [Fl.real, q2]; norm_num
      rw [e1, e2]; linarith [q7.2]
    have h3 : 1 / (Fl.real (Fl.of (1 / 2)) - 6 * Fl.real (Fl.of (1 / 1000)) / Fl.real (Fl.of 100)) ≤ 3 := by
      rw [div_le_iff₀ (by linarith)]; linarith
    have := Real.log_le_sub_one_of_pos (show 0 < 1 / (Fl.real (Fl.of (1 / 2)) - 6 * Fl.real (Fl.of (1 / 1000)) / Fl.real (Fl.of 100)) from one_div_pos.mpr (by linarith))
    linarith
  refine C109_log (sortedHeap _) id_setOrder (enc := ⟨Fl.of 10, Fl.of 100⟩) (dt := Fl.of (1 / 1000)) (by decide +kernel) (by decide +kernel) (by decide +kernel)
    (by decide +kernel) (by decide +kernel) none (v := Fl.of (1 / 2)) (t0 := 0) (by decide +kernel) (by decide +kernel) (by decide +kernel) (by decide +kernel) ?_ ?_
  · have : (40 : ℝ) ≤ (2 ^ 24 - 1) * (999 / 1000000) := by norm_num
    have := mul_le_mul_of_nonneg_left q7.1 (show (0 : ℝ) ≤ 2 ^ 24 - 1 by norm_num)
    linarith
  · have e0 : Fl.real 0 = 0 := by rw [Fl.real, q4]; norm_num
    have e1 : Fl.real (Fl.of (1 / 2)) = 1 / 2 := by rw [Fl.real, q3]; norm_num
    have e2 : Fl.real (Fl.of 100) = 100 := by rw [Fl.real, q2]; norm_num
    have e3 : Fl.real (Fl.of 10) = 10 := by rw [Fl.real, q1]; norm_num
    have e4 : Fl.real (Fl.of 300) = 300 := by rw [Fl.real, q5]; norm_num
    show Fl.real 0 + 2 * Fl.real (Fl.of 10) + Fl.real (Fl.of (1 / 2)) * Fl.real (Fl.of 100) + 3 + 13 * Fl.real (Fl.of (1 / 1000)) + 20 * Real.log (1 / (Fl.real (Fl.of (1 / 2)) - 6 * Fl.real (Fl.of (1 / 1000)) / Fl.real (Fl.of 100))) ≤ Fl.real (Fl.of 300)
    rw [e0, e3, e4]
    rw [e1, e2] at hL ⊢
    linarith [q7.2]

/-- The exponential of 0.3 with the default encoder and dt = 0.001. -/
example : ∃ st, sessionFl (sortedHeap _) (fun _ l => l) ⟨Fl.of 10, Fl.of 100⟩ (Fl.of (1 / 1000)) (Fl.of 300) (exponentialFl ⟨Fl.of 10, Fl.of 100⟩ (some "exp") World.empty).2 0
      [.value (Fl.of (3 / 10)) 0 0] = .ok st ∧ ∃ (x y : Double) (n : ℕ), st.spikeLog 4 = some [x, y] ∧
        |n * (Fl.of (1 / 1000) : Double).val - (Fl.of (3 / 10) : Double).val * (Fl.of 100 : Double).val| ≤ 6 * (Fl.of (1 / 1000) : Double).val ∧
        |((⟨Fl.of 10, Fl.of 100⟩ : Encoder Double).decodeInterval (y - x)).val - rhoQ (Fl.of (1 / 1000)) ^ n| ≤ 8 * (Fl.of (1 / 1000) : Double).val / (Fl.of 100 : Double).val :=
  C109_exponential (sortedHeap _) id_setOrder (enc := ⟨Fl.of 10, Fl.of 100⟩) (dt := Fl.of (1 / 1000)) (by decide +kernel) (by decide +kernel) (by decide +kernel)
    (by decide +kernel) (by decide +kernel) (by decide +kernel) (some "exp") (v := Fl.of (3 / 10)) (t0 := 0) (by decide +kernel) (by decide +kernel) (by decide +kernel)
    (by decide +kernel) (by decide +kernel)

end Axon
