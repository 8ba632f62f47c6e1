import Verif.Proofs.FloatGates
import Mathlib.Algebra.Order.Archimedean.Basic

/-! # How many rounded increments it takes to reach the threshold -/
set_option linter.unusedSectionVars false
namespace Axon
open Spec

/-- The relative error of a rounded operation. -/
abbrev uu : ℚ := 1 / 2 ^ 53

theorem fl_near (x : ℚ) : |fl 53 x - x| ≤ |x| * uu := by
  have := fl_err (p := 53) x
  rwa [div_eq_mul_one_div] at this

theorem climb_val (d V : Double) (k : ℕ) : (climb d V (k + 1)).val = fl 53 ((climb d V k).val + d.val) := rfl

theorem climb_err (d V : Double) (k : ℕ) (h : ∀ j < k, |(climb d V j).val + d.val| ≤ 12) :
    |(climb d V k).val - (V.val + k * d.val)| ≤ k * (12 * uu) := by
  induction k with
  | zero => simp [climb]
  | succ k ih =>
    have h1 := ih fun j hj => h j (by omega)
    have h2 := fl_near ((climb d V k).val + d.val)
    have h3 := h k (by omega)
    have h4 : |(climb d V k).val + d.val| * uu ≤ 12 * uu := mul_le_mul_of_nonneg_right h3 (by norm_num)
    rw [climb_val]
    have h5 := abs_le.mp h1
    have h6 := abs_le.mp (h2.trans h4)
    rw [abs_le]
    push_cast
    constructor <;> linarith [h5.1, h5.2, h6.1, h6.2]

theorem climb_mono {d : Double} (hd : 0 ≤ d.val) (V : Double) (k : ℕ) : (climb d V k).val ≤ (climb d V (k + 1)).val := by
  rw [climb_val]
  have : fl 53 (climb d V k).val ≤ fl 53 ((climb d V k).val + d.val) := fl_mono (by linarith)
  rwa [(climb d V k).exact] at this

theorem climb_ge {d : Double} (hd : 0 ≤ d.val) (V : Double) (k : ℕ) : V.val ≤ (climb d V k).val := by
  induction k with
  | zero => exact le_rfl
  | succ k ih => exact ih.trans (climb_mono hd V k)

theorem climb_mono_le {d : Double} (hd : 0 ≤ d.val) (V : Double) {j k : ℕ} (h : j ≤ k) : (climb d V j).val ≤ (climb d V k).val := by
  induction k with
  | zero => rw [show j = 0 by omega]
  | succ k ih =>
    rcases Nat.eq_or_lt_of_le h with rfl | h'
    · exact le_rfl
    · exact (ih (by omega)).trans (climb_mono hd V k)

theorem d10_val : d10.val = 10 := by decide +kernel

/-- From a voltage between -10 and 10, a small positive increment reaches the threshold, after the expected number of steps up to rounding. -/
theorem climb_fires {d V : Double} (hd0 : 24 * uu ≤ d.val) (hd1 : d.val ≤ 1) (hV0 : -10 ≤ V.val) (hV1 : V.val < 10) :
    ∃ k, (∀ j ≤ k, climb d V j < d10) ∧ d10 ≤ climb d V (k + 1) ∧ 10 ≤ V.val + (k + 1 : ℕ) * (d.val + 12 * uu) ∧ V.val + k * (d.val - 12 * uu) < 10 := by
  have hu : (0 : ℚ) < uu := by norm_num
  have hd : 0 ≤ d.val := by linarith
  have hb : ∀ k, (∀ j < k, (climb d V j).val < 10) → |(climb d V k).val - (V.val + k * d.val)| ≤ k * (12 * uu) := by
    intro k hk
    refine climb_err d V k fun j hj => ?_
    have h1 := hk j hj
    have h2 := climb_ge hd V j
    rw [abs_le]; constructor <;> linarith
  have hex : ∃ k, d10 ≤ climb d V k := by
    by_contra hc
    push Not at hc
    have hc' : ∀ k, (climb d V k).val < 10 := fun k => by have := hc k; rw [Fl.lt_iff, d10_val] at this; exact this
    obtain ⟨N, hN⟩ := exists_nat_gt ((20 : ℚ) / (12 * uu))
    have h1 := abs_le.mp (hb N fun j _ => hc' j)
    have h2 := hc' N
    rw [div_lt_iff₀ (by positivity)] at hN
    have h3 : (N : ℚ) * (24 * uu) ≤ N * d.val := mul_le_mul_of_nonneg_left hd0 (Nat.cast_nonneg _)
    linarith [h1.1]
  classical
  have hspec := Nat.find_spec hex
  have hmin : ∀ j < Nat.find hex, climb d V j < d10 := fun j hj => not_le.mp (Nat.find_min hex hj)
  have hpos : 0 < Nat.find hex := by
    by_contra h0
    rw [show Nat.find hex = 0 by omega, Fl.le_iff, d10_val] at hspec
    have : (climb d V 0).val = V.val := rfl
    linarith
  obtain ⟨k, hk⟩ : ∃ k, Nat.find hex = k + 1 := ⟨Nat.find hex - 1, by omega⟩
  rw [hk] at hspec hmin
  have hlt : ∀ j ≤ k, (climb d V j).val < 10 := fun j hj => by
    have := hmin j (by omega); rw [Fl.lt_iff, d10_val] at this; exact this
  refine ⟨k, fun j hj => hmin j (by omega), hspec, ?_, ?_⟩
  · have h1 := abs_le.mp (hb (k + 1) fun j hj => hlt j (by omega))
    rw [Fl.le_iff, d10_val] at hspec
    push_cast at h1 ⊢
    linarith [h1.2]
  · have h1 := abs_le.mp (hb k fun j hj => hlt j (by omega))
    have := hlt k le_rfl
    linarith [h1.1]

/-- Counting the increments: if `M` of them reach the threshold 10 and `M - 1` do not (up to rounding), `M` is the quotient rounded up, up to an eighth. -/
theorem count_bounds {n d M e : ℚ} (hn0 : 1 ≤ n) (hn : n ≤ 2 ^ 24) (hd : |d - 10 / n| ≤ 10 / n * (4 * uu))
    (he0 : 0 ≤ e) (he : e ≤ 1000 * uu) (h1 : 10 - e ≤ M * (d + 12 * uu)) (h2 : (M - 1) * (d - 12 * uu) ≤ 10 + e) : n - 1 / 16 ≤ M ∧ M ≤ n + 1 + 1 / 8 := by
  have hn' : 0 < n := by linarith
  have hu0 : 0 < uu := by norm_num
  have hub : (2 : ℚ) ^ 24 * uu = 1 / 2 ^ 29 := by norm_num
  generalize uu = u at *
  set D := 10 / n with hD
  have hDn : D * n = 10 := by rw [hD]; field_simp
  have hD0 : 0 < D := by positivity
  obtain ⟨d1, d2⟩ := abs_le.mp hd
  have p1 : n * u ≤ 1 / 100000 := by
    calc n * u ≤ 2 ^ 24 * u := mul_le_mul_of_nonneg_right hn hu0.le
      _ = 1 / 2 ^ 29 := hub
      _ ≤ 1 / 100000 := by norm_num
  have p2 : n * (n * u) ≤ 1 / 32 := by
    calc n * (n * u) ≤ 2 ^ 24 * (2 ^ 24 * u) := mul_le_mul hn (mul_le_mul_of_nonneg_right hn hu0.le) (by positivity) (by norm_num)
      _ = 1 / 32 := by rw [hub]; norm_num
  have hus : u ≤ 1 / 100000 := le_trans (by nlinarith) p1
  have hen : e * n ≤ 1 / 100 := by
    have : e * n ≤ 1000 * u * n := mul_le_mul_of_nonneg_right he hn'.le
    linarith
  have hen0 : 0 ≤ e * n := by positivity
  have he1 : e ≤ 1 := by linarith
  have hM0 : 0 < M := by
    by_contra hc
    push Not at hc
    have : M * (d + 12 * u) ≤ 0 := mul_nonpos_of_nonpos_of_nonneg hc (by nlinarith)
    linarith
  constructor
  · by_contra hc
    push Not at hc
    have e1 : 10 * n - e * n ≤ M * (10 + 40 * u + 12 * (n * u)) := by
      have : M * (d + 12 * u) ≤ M * (D * (1 + 4 * u) + 12 * u) := mul_le_mul_of_nonneg_left (by linarith) hM0.le
      have h3 : 10 - e ≤ M * (D * (1 + 4 * u) + 12 * u) := h1.trans this
      calc 10 * n - e * n = (10 - e) * n := by ring
        _ ≤ M * (D * (1 + 4 * u) + 12 * u) * n := mul_le_mul_of_nonneg_right h3 hn'.le
        _ = M * ((D * n) * (1 + 4 * u) + 12 * (n * u)) := by ring
        _ = M * (10 + 40 * u + 12 * (n * u)) := by rw [hDn]; ring
    have e2 : M * (10 + 40 * u + 12 * (n * u)) < (n - 1 / 16) * (10 + 40 * u + 12 * (n * u)) := mul_lt_mul_of_pos_right hc (by positivity)
    have e3 : (n - 1 / 16) * (10 + 40 * u + 12 * (n * u)) = 10 * n + 40 * (n * u) + 12 * (n * (n * u)) - 10 / 16 - (40 * u + 12 * (n * u)) / 16 := by ring
    have : 0 ≤ n * u := by positivity
    linarith
  · by_contra hc
    push Not at hc
    have hM1 : 0 < M - 1 := by linarith
    have e1 : (M - 1) * (10 - 40 * u - 12 * (n * u)) ≤ 10 * n + e * n := by
      have : (M - 1) * (D * (1 - 4 * u) - 12 * u) ≤ (M - 1) * (d - 12 * u) := mul_le_mul_of_nonneg_left (by linarith) hM1.le
      have h3 : (M - 1) * (D * (1 - 4 * u) - 12 * u) ≤ 10 + e := this.trans h2
      calc (M - 1) * (10 - 40 * u - 12 * (n * u)) = (M - 1) * ((D * n) * (1 - 4 * u) - 12 * (n * u)) := by rw [hDn]; ring
        _ = (M - 1) * (D * (1 - 4 * u) - 12 * u) * n := by ring
        _ ≤ (10 + e) * n := mul_le_mul_of_nonneg_right h3 hn'.le
        _ = 10 * n + e * n := by ring
    have e2 : (n + 1 / 8) * (10 - 40 * u - 12 * (n * u)) < (M - 1) * (10 - 40 * u - 12 * (n * u)) := by
      refine mul_lt_mul_of_pos_right (by linarith) ?_
      linarith
    have e3 : (n + 1 / 8) * (10 - 40 * u - 12 * (n * u)) = 10 * n - 40 * (n * u) - 12 * (n * (n * u)) + 10 / 8 - (40 * u + 12 * (n * u)) / 8 := by ring
    linarith

theorem d1000 : (Fl.of 10 * Fl.of 100 : Double).val = 1000 := by decide +kernel

theorem zero_addD (x : Double) : 0 + x = x := Fl.val_injective (by rw [Fl.val_add, Fl.val_zero, zero_add, x.exact])

/-- The increment of one step, up to three roundings. -/
theorem slope_near {enc : Encoder Double} {dt : Double} (hdt : 0 < dt.val) (hT : 0 < enc.Tmax.val) :
    |(slopeR stdFl dt (0 + enc.waccFl)).val - 10 / (enc.Tmax.val / dt.val)| ≤ 10 / (enc.Tmax.val / dt.val) * (4 * uu) := by
  have h100 : stdFl.tm.val = 100 := by decide +kernel
  have hz : (0 : Double) * 0 = 0 := RoundedArith.mul_zero _
  have e : (slopeR stdFl dt (0 + enc.waccFl)).val = fl 53 (fl 53 (dt.val * fl 53 (1000 / enc.Tmax.val)) / 100) := by
    unfold slopeR
    rw [zero_addD, hz, RoundedArith.add_zero, Fl.val_div, h100, Fl.val_mul, Encoder.waccFl, Fl.val_div, d1000]
  rw [e]
  set T := enc.Tmax.val
  set t := dt.val
  have hu0 : (0 : ℚ) < uu := by norm_num
  have hus : uu ≤ 1 / 100 := by norm_num
  have fnear := fl_near
  generalize uu = u at *
  set A := 1000 / T with hA
  have hA0 : 0 < A := by positivity
  have a1 := abs_le.mp (fnear A)
  rw [abs_of_pos hA0] at a1
  set A' := fl 53 A
  have hA'0 : 0 < A' := fl_pos hA0
  have b1 := abs_le.mp (fnear (t * A'))
  rw [abs_of_pos (by positivity)] at b1
  set B' := fl 53 (t * A')
  have htA' : 0 < t * A' := by positivity
  have hB'0 : 0 < B' := fl_pos htA'
  have c1 := abs_le.mp (fnear (B' / 100))
  rw [abs_of_pos (by positivity)] at c1
  set C' := fl 53 (B' / 100)
  have hg : 10 / (T / t) = t * A / 100 := by rw [hA]; field_simp; norm_num
  rw [hg]
  have htA : 0 < t * A := by positivity
  have t1 : t * A' ≤ t * A * (1 + u) := by
    have : t * A' ≤ t * (A + A * u) := mul_le_mul_of_nonneg_left (by linarith [a1.2]) hdt.le
    linarith
  have t2 : t * A * (1 - u) ≤ t * A' := by
    have : t * (A - A * u) ≤ t * A' := mul_le_mul_of_nonneg_left (by linarith [a1.1]) hdt.le
    linarith
  have t3 : B' ≤ t * A * ((1 + u) * (1 + u)) := by
    have : t * A' * (1 + u) ≤ t * A * (1 + u) * (1 + u) := mul_le_mul_of_nonneg_right t1 (by linarith)
    linarith [b1.2]
  have t4 : t * A * ((1 - u) * (1 - u)) ≤ B' := by
    have : t * A * (1 - u) * (1 - u) ≤ t * A' * (1 - u) := mul_le_mul_of_nonneg_right t2 (by linarith)
    linarith [b1.1]
  have t5 : C' ≤ t * A / 100 * ((1 + u) * (1 + u) * (1 + u)) := by
    have : B' * (1 + u) ≤ t * A * ((1 + u) * (1 + u)) * (1 + u) := mul_le_mul_of_nonneg_right t3 (by linarith)
    linarith [c1.2]
  have t6 : t * A / 100 * ((1 - u) * (1 - u) * (1 - u)) ≤ C' := by
    have : t * A * ((1 - u) * (1 - u)) * (1 - u) ≤ B' * (1 - u) := mul_le_mul_of_nonneg_right t4 (by linarith)
    linarith [c1.1]
  have w1 : u * u ≤ u * (1 / 100) := mul_le_mul_of_nonneg_left hus hu0.le
  have w2 : u * u * u ≤ u * u * (1 / 100) := mul_le_mul_of_nonneg_left hus (by positivity)
  have w3 : 0 ≤ u * u * u := by positivity
  have p1 : (1 + u) * (1 + u) * (1 + u) ≤ 1 + 4 * u := by linarith
  have p2 : 1 - 4 * u ≤ (1 - u) * (1 - u) * (1 - u) := by linarith
  have q1 : t * A / 100 * ((1 + u) * (1 + u) * (1 + u)) ≤ t * A / 100 * (1 + 4 * u) := mul_le_mul_of_nonneg_left p1 (by positivity)
  have q2 : t * A / 100 * (1 - 4 * u) ≤ t * A / 100 * ((1 - u) * (1 - u) * (1 - u)) := mul_le_mul_of_nonneg_left p2 (by positivity)
  rw [abs_le]
  constructor <;> linarith


theorem slope_neg (dt w : Double) : (slopeR stdFl dt (0 + -w)).val = -(slopeR stdFl dt (0 + w)).val := by
  have hz : (0 : Double) * 0 = 0 := RoundedArith.mul_zero _
  unfold slopeR
  have hn : (-w : Double).val = -w.val := rfl
  rw [zero_addD, zero_addD, hz, RoundedArith.add_zero, RoundedArith.add_zero, Fl.val_div, Fl.val_div, Fl.val_mul, Fl.val_mul, hn, mul_neg, fl_neg, neg_div, fl_neg]

theorem add_negD (w : Double) : 0 + w + -w = 0 := by
  have hn : (-w : Double).val = -w.val := rfl
  exact Fl.val_injective (by rw [zero_addD, Fl.val_add, hn, add_neg_cancel, fl_zero, Fl.val_zero])

theorem neg_addD (w : Double) : 0 + -w + w = 0 := by
  have hn : (-w : Double).val = -w.val := rfl
  exact Fl.val_injective (by rw [zero_addD, Fl.val_add, hn, neg_add_cancel, fl_zero, Fl.val_zero])

theorem negD_neg (w : Double) : - -w = w := Fl.val_injective (show - -w.val = w.val from neg_neg _)

variable {enc : Encoder Double} {dt : Double}

/-- What is known about the increment. -/
structure GoodSlope (d : Double) (n : ℚ) : Prop where
  n1 : 13 ≤ n
  n2 : n ≤ 2 ^ 24
  near : |d.val - 10 / n| ≤ 10 / n * (4 * uu)

theorem GoodSlope.lo {d : Double} {n : ℚ} (h : GoodSlope d n) : 24 * uu ≤ d.val := by
  have h1 := (abs_le.mp h.near).1
  have hn : 0 < n := by linarith [h.n1]
  have h2 : 10 / 2 ^ 24 ≤ 10 / n := div_le_div_of_nonneg_left (by norm_num) hn h.n2
  have h3 : 10 / n * (4 * uu) ≤ 10 / n * (1 / 2) := mul_le_mul_of_nonneg_left (by norm_num) (by positivity)
  have h4 : 24 * uu ≤ 10 / 2 ^ 24 * (1 / 2) := by norm_num
  generalize 10 / n * (4 * uu) = X at *
  generalize 24 * uu = Y at *
  generalize 10 / n = Z at *
  linarith

theorem GoodSlope.hi {d : Double} {n : ℚ} (h : GoodSlope d n) : d.val ≤ 8 / 10 := by
  have h1 := (abs_le.mp h.near).2
  have hn : 0 < n := by linarith [h.n1]
  have h2 : 10 / n ≤ 10 / 13 := div_le_div_of_nonneg_left (by norm_num) (by norm_num) h.n1
  have h3 : 10 / n * (4 * uu) ≤ 10 / 13 * (1 / 100) := mul_le_mul h2 (by norm_num) (by norm_num) (by norm_num)
  linarith

/-- From zero, the ramp takes `n` steps, up to rounding. -/
theorem ramp_count {d : Double} {n : ℚ} (h : GoodSlope d n) : ∃ k : ℕ, (∀ j ≤ k, climb d 0 j < d10) ∧ d10 ≤ climb d 0 (k + 1) ∧
    n - 1 / 16 ≤ k + 1 ∧ (k : ℚ) + 1 ≤ n + 1 + 1 / 8 := by
  obtain ⟨k, h1, h2, h3, h4⟩ := climb_fires (d := d) (V := 0) h.lo (by linarith [h.hi]) (by rw [Fl.val_zero]; norm_num) (by rw [Fl.val_zero]; norm_num)
  rw [Fl.val_zero] at h3 h4
  push_cast at h3
  obtain ⟨b1, b2⟩ := count_bounds (n := n) (d := d.val) (M := (k : ℚ) + 1) (e := 0) (by linarith [h.n1]) h.n2 h.near le_rfl (by norm_num) (by linarith)
    (by rw [add_sub_cancel_right]; linarith)
  exact ⟨k, h1, h2, b1, b2⟩

/-- **A store in doubles**: driven from `a` to `b` (or backwards for a few steps, if the order is reversed) and again from `c` on, the neuron fires
when the two periods add up to `n` steps, up to rounding. -/
theorem store_fits {hits : ℕ → List (SynKind × Double)} {w : Double} {n : ℚ} (h : GoodSlope (slopeR stdFl dt (0 + w)) n) {a b c : ℕ} (ha : 0 < a) (hb : 0 < b) (hac : a < c) (hbc : b < c)
    (hm : (b : ℚ) - a ≤ n - 3 / 2) (hm' : (a : ℚ) ≤ b + 12)
    (hh : ∀ i, hits i = (if i = a then [(.ge, w)] else []) ++ (if i = b then [(.ge, -w)] else []) ++ (if i = c then [(.ge, w)] else [])) :
    ∃ k : ℕ, FitsR stdFl dt hits [c + k] ∧ n - 1 / 16 ≤ (b : ℚ) - a + (k + 1) ∧ (b : ℚ) - a + (k + 1) ≤ n + 1 + 1 / 8 := by
  set d := slopeR stdFl dt (0 + w) with hd
  obtain ⟨k0, r1, r2, r3, r4⟩ := ramp_count h
  have hd0 : 0 ≤ d.val := by have := h.lo; have : (0 : ℚ) ≤ 24 * uu := by norm_num
                             linarith [h.lo]
  rcases Nat.lt_trichotomy a b with hab | hab | hab
  · -- the usual order
    have hlow : ∀ j ≤ b - a, climb d 0 j < d10 := by
      intro j hj
      refine r1 j ?_
      have hj' : (j : ℚ) ≤ (b : ℚ) - a := by
        have : j + a ≤ b := by omega
        have : (j : ℚ) + a ≤ b := by exact_mod_cast this
        linarith
      have : (j : ℚ) < k0 + 1 := by linarith
      have : j < k0 + 1 := by exact_mod_cast this
      omega
    have hlt : ∀ j ≤ b - a, (climb d 0 j).val < 10 := fun j hj => by have := hlow j hj; rw [Fl.lt_iff, d10_val] at this; exact this
    have herr := abs_le.mp (climb_err d 0 (b - a) (fun j hj => by
      have h1 := hlt j hj.le
      have h2 := climb_ge hd0 0 j
      rw [Fl.val_zero] at h2
      have := h.hi
      rw [abs_le]; constructor <;> linarith))
    rw [Fl.val_zero, zero_add] at herr
    have hV0 := climb_ge hd0 0 (b - a)
    rw [Fl.val_zero] at hV0
    obtain ⟨k, q1, q2, q3, q4⟩ := climb_fires (d := d) (V := climb d 0 (b - a)) h.lo (by linarith [h.hi]) (by linarith) (hlt _ le_rfl)
    refine ⟨k, ?_, ?_⟩
    · refine FitsR.store (a := a) (b := b) (c := c) (u := w) (u' := -w) (w := w) ha hab hbc (add_negD w) ?_ hlow q1 q2
      intro i
      rw [hh]
      by_cases e1 : i = a
      · simp [e1, show ¬ a = b by omega, show ¬ a = c by omega]
      · by_cases e2 : i = b
        · simp [e2, show ¬ b = a by omega, show ¬ b = c by omega]
        · simp [e1, e2]
    · have hc : ((b - a : ℕ) : ℚ) = (b : ℚ) - a := by push_cast [hab.le]; ring
      rw [hc] at herr
      push_cast at q3
      refine count_bounds (d := d.val) (e := 0) (by linarith [h.n1]) h.n2 h.near le_rfl (by norm_num) ?_ ?_
      · linarith [herr.2]
      · linarith [herr.1]
  · -- on and off in the same step
    subst hab
    refine ⟨k0, ?_, by rw [sub_self, zero_add]; exact r3, by rw [sub_self, zero_add]; exact r4⟩
    refine FitsR.store_none (a := a) (c := c) (w := w) (w' := -w) ha hac (add_negD w) (neg_addD w) ?_ r1 r2
    intro i
    rw [hh]
    by_cases e1 : i = a
    · simp [e1, show ¬ a = c by omega]
    · simp [e1]
  · -- off before on
    set d' := slopeR stdFl dt (0 + -w) with hd'
    have hneg : d'.val = -d.val := slope_neg dt w
    have hk8 : ∀ j ≤ a - b, (j : ℚ) ≤ 12 := by
      intro j hj
      have : (j : ℚ) + b ≤ a := by have : j + b ≤ a := by omega
                                   exact_mod_cast this
      linarith
    have hclimb : ∀ j ≤ a - b, |(climb d' 0 j).val - (0 + j * d'.val)| ≤ j * (12 * uu) := by
      intro j
      induction j with
      | zero => intro _; simp [climb, Fl.val_zero]
      | succ j ih =>
        intro hj
        refine climb_err d' 0 (j + 1) fun i hi => ?_
        have hi8 := hk8 i (by omega)
        have e : ∀ i < j + 1, |(climb d' 0 i).val - (0 + i * d'.val)| ≤ i * (12 * uu) → |(climb d' 0 i).val + d'.val| ≤ 12 := by
          intro i hi hh
          have hi8 := hk8 i (by omega)
          have hi0 : (0 : ℚ) ≤ i := Nat.cast_nonneg _
          obtain ⟨p1, p2⟩ := abs_le.mp hh
          have t1 : (i : ℚ) * (12 * uu) ≤ 12 * (1 / 100) := mul_le_mul hi8 (by norm_num) (by norm_num) (by norm_num)
          have t2 : (i : ℚ) * d.val ≤ 12 * (8 / 10) := mul_le_mul hi8 h.hi hd0 (by norm_num)
          have t3 : 0 ≤ (i : ℚ) * d.val := by positivity
          rw [hneg] at p1 p2 ⊢
          rw [mul_neg, zero_add, sub_neg_eq_add] at p1 p2
          generalize (i : ℚ) * (12 * uu) = X at p1 p2 t1
          have := h.hi
          generalize (i : ℚ) * d.val = Y at p1 p2 t2 t3
          rw [abs_le]; constructor <;> linarith
        refine e i hi ?_
        -- the bound at i follows from climb_err at i
        have : ∀ i ≤ j, |(climb d' 0 i).val - (0 + i * d'.val)| ≤ i * (12 * uu) := by
          intro i
          induction i with
          | zero => intro _; simp [climb, Fl.val_zero]
          | succ i ih2 =>
            intro hij
            have h3 := e i (by omega) (ih2 (by omega))
            have h4 := abs_le.mp (ih2 (by omega))
            have h5 := fl_near ((climb d' 0 i).val + d'.val)
            have h6 : |(climb d' 0 i).val + d'.val| * uu ≤ 12 * uu := mul_le_mul_of_nonneg_right h3 (by norm_num)
            have h7 := abs_le.mp (h5.trans h6)
            rw [climb_val, abs_le]
            push_cast
            constructor <;> linarith [h4.1, h4.2, h7.1, h7.2]
        exact this i (by omega)
    have hb1 : ∀ j ≤ a - b, -10 ≤ (climb d' 0 j).val ∧ (climb d' 0 j).val < 1 := by
      intro j hj
      have hi8 := hk8 j hj
      have hi0 : (0 : ℚ) ≤ j := Nat.cast_nonneg _
      obtain ⟨p1, p2⟩ := abs_le.mp (hclimb j hj)
      have t1 : (j : ℚ) * (12 * uu) ≤ 12 * (1 / 100) := mul_le_mul hi8 (by norm_num) (by norm_num) (by norm_num)
      have t2 : (j : ℚ) * d.val ≤ 12 * (8 / 10) := mul_le_mul hi8 h.hi hd0 (by norm_num)
      have t3 : 0 ≤ (j : ℚ) * d.val := by positivity
      rw [hneg, mul_neg, zero_add, sub_neg_eq_add] at p1 p2
      generalize (j : ℚ) * (12 * uu) = X at p1 p2 t1
      generalize (j : ℚ) * d.val = Y at p1 p2 t2 t3
      constructor <;> linarith
    have herr := abs_le.mp (hclimb (a - b) le_rfl)
    obtain ⟨k, q1, q2, q3, q4⟩ := climb_fires (d := d) (V := climb d' 0 (a - b)) h.lo (by linarith [h.hi]) (hb1 _ le_rfl).1 (by linarith [(hb1 _ le_rfl).2])
    refine ⟨k, ?_, ?_⟩
    · refine FitsR.store (a := b) (b := a) (c := c) (u := -w) (u' := w) (w := w) hb hab hac (neg_addD w) ?_ (fun j hj => ?_) q1 q2
      · intro i
        rw [hh]
        by_cases e1 : i = a
        · simp [e1, show ¬ a = b by omega, show ¬ a = c by omega]
        · by_cases e2 : i = b
          · simp [e2, show ¬ b = a by omega, show ¬ b = c by omega]
          · simp [e1, e2]
      · rw [Fl.lt_iff, d10_val]; linarith [(hb1 j hj).2]
    · have hc : ((a - b : ℕ) : ℚ) = (a : ℚ) - b := by push_cast [hab.le]; ring
      have h8 := hk8 (a - b) le_rfl
      rw [hc] at herr h8
      rw [hneg] at herr
      push_cast at q3
      have hab' : (0 : ℚ) ≤ (a : ℚ) - b := by have : (b : ℚ) ≤ a := by exact_mod_cast hab.le
                                              linarith
      have hu0 : (0 : ℚ) ≤ uu := by norm_num
      have hpr : ((a : ℚ) - b) * uu ≤ 12 * uu := mul_le_mul_of_nonneg_right h8 hu0
      have hpr0 : 0 ≤ ((a : ℚ) - b) * uu := mul_nonneg hab' hu0
      refine count_bounds (d := d.val) (e := 24 * (((a : ℚ) - b) * uu)) (by linarith [h.n1]) h.n2 h.near (by linarith) (by linarith) ?_ ?_
      · linarith [herr.2]
      · linarith [herr.1]

end Axon
