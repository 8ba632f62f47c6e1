import Verif.Model.Double
import Verif.Spec.Rounded
import Mathlib.Tactic.Linarith
import Mathlib.Tactic.Positivity
import Mathlib.Tactic.FieldSimp
import Mathlib.Tactic.Ring
import Mathlib.Algebra.Order.Field.Power

set_option linter.unusedSectionVars false
namespace Axon
open Spec

theorem roundEven_le (x : ℚ) : (roundEven x : ℚ) ≤ x + 1 / 2 := by
  have h1 := Int.floor_le x
  unfold roundEven
  split_ifs <;> push_cast <;> linarith

theorem le_roundEven (x : ℚ) : x - 1 / 2 ≤ (roundEven x : ℚ) := by
  have h1 := Int.lt_floor_add_one x
  unfold roundEven
  split_ifs <;> push_cast <;> linarith

theorem floor_le_roundEven (x : ℚ) : ⌊x⌋ ≤ roundEven x ∧ roundEven x ≤ ⌊x⌋ + 1 := by
  unfold roundEven; split_ifs <;> omega

theorem roundEven_mono {x y : ℚ} (h : x ≤ y) : roundEven x ≤ roundEven y := by
  have hf : ⌊x⌋ ≤ ⌊y⌋ := Int.floor_mono h
  rcases hf.lt_or_eq with hlt | he
  · have h1 := (floor_le_roundEven x).2
    have h2 := (floor_le_roundEven y).1
    omega
  · unfold roundEven
    rw [← he]
    split_ifs <;> first | omega | (exfalso; linarith)

theorem roundEven_int (m : ℤ) : roundEven (m : ℚ) = m := by
  unfold roundEven; simp

theorem roundEven_neg (x : ℚ) : roundEven (-x) = -roundEven x := by
  by_cases hx : (⌊x⌋ : ℚ) = x
  · rw [← hx, ← Int.cast_neg, roundEven_int, roundEven_int]
  · have hlt : (⌊x⌋ : ℚ) < x := lt_of_le_of_ne (Int.floor_le x) hx
    have h1 := Int.lt_floor_add_one x
    have hn : ⌊-x⌋ = -⌊x⌋ - 1 := by
      rw [Int.floor_eq_iff]; push_cast; constructor <;> linarith
    unfold roundEven
    rw [hn]; push_cast
    split_ifs <;> first | omega | (exfalso; linarith)

section
variable {p : ℕ} [NeZero p]

theorem fl_zero : fl p 0 = 0 := by simp [fl]

theorem ulpExp_neg (x : ℚ) : ulpExp p (-x) = ulpExp p x := by unfold ulpExp; rw [abs_neg]

theorem fl_neg (x : ℚ) : fl p (-x) = -fl p x := by
  unfold fl
  by_cases hx : x = 0
  · simp [hx]
  · rw [if_neg (neg_ne_zero.mpr hx), if_neg hx, ulpExp_neg, neg_div, roundEven_neg]; push_cast; ring

theorem log_bounds {x : ℚ} (hx : x ≠ 0) :
    (2 : ℚ) ^ Int.log 2 |x| ≤ |x| ∧ |x| < (2 : ℚ) ^ (Int.log 2 |x| + 1) := by
  have h := abs_pos.mpr hx
  exact ⟨by exact_mod_cast Int.zpow_log_le_self (b := 2) (by norm_num) h, by exact_mod_cast Int.lt_zpow_succ_log_self (b := 2) (by norm_num) |x|⟩

theorem log_unique {x : ℚ} {k : ℤ} (h1 : (2 : ℚ) ^ k ≤ |x|) (h2 : |x| < (2 : ℚ) ^ (k + 1)) : Int.log 2 |x| = k := by
  have hx : x ≠ 0 := by
    rintro rfl
    have : (0 : ℚ) < 2 ^ k := by positivity
    simp at h1; linarith
  obtain ⟨h3, h4⟩ := log_bounds hx
  have a := (zpow_lt_zpow_iff_right₀ (a := (2 : ℚ)) (by norm_num)).mp (lt_of_le_of_lt h1 h4)
  have b := (zpow_lt_zpow_iff_right₀ (a := (2 : ℚ)) (by norm_num)).mp (lt_of_le_of_lt h3 h2)
  omega

/-- Relative error of rounding. -/
theorem fl_err (x : ℚ) : |fl p x - x| ≤ |x| / 2 ^ p := by
  unfold fl
  by_cases hx : x = 0
  · simp [hx]
  rw [if_neg hx]
  set e := ulpExp p x with he
  have hp : (0 : ℚ) < 2 ^ e := by positivity
  have h1 := roundEven_le (x / 2 ^ e)
  have h2 := le_roundEven (x / 2 ^ e)
  have h3 : |(roundEven (x / 2 ^ e) : ℚ) - x / 2 ^ e| ≤ 1 / 2 := abs_le.mpr ⟨by linarith, by linarith⟩
  have h4 : (roundEven (x / 2 ^ e) : ℚ) * 2 ^ e - x = ((roundEven (x / 2 ^ e) : ℚ) - x / 2 ^ e) * 2 ^ e := by
    rw [sub_mul, div_mul_cancel₀ _ hp.ne']
  rw [h4, abs_mul, abs_of_pos hp]
  have h5 : (2 : ℚ) ^ e = 2 ^ Int.log 2 |x| * 2 / 2 ^ p := by
    rw [he, ulpExp, zpow_sub₀ (by norm_num), zpow_add₀ (by norm_num), zpow_one, zpow_natCast]
  have h6 := (log_bounds hx).1
  have h7 : (0 : ℚ) < 2 ^ p := by positivity
  calc _ ≤ 1 / 2 * (2 : ℚ) ^ e := by gcongr
    _ = 2 ^ Int.log 2 |x| / 2 ^ p := by rw [h5]; ring
    _ ≤ _ := by gcongr

/-- Numbers with at most `p` significant bits are not changed. -/
theorem fl_exact (m k : ℤ) (hm : |m| ≤ 2 ^ p) : fl p ((m : ℚ) * 2 ^ k) = (m : ℚ) * 2 ^ k := by
  by_cases h0 : m = 0
  · simp [h0, fl]
  have hx : (m : ℚ) * 2 ^ k ≠ 0 := mul_ne_zero (by exact_mod_cast h0) (by positivity)
  unfold fl
  rw [if_neg hx]
  set x : ℚ := (m : ℚ) * 2 ^ k with hxd
  have hax : |x| = |(m : ℚ)| * 2 ^ k := by
    rw [hxd, abs_mul, abs_of_pos (show (0 : ℚ) < 2 ^ k by positivity)]
  -- it is enough that x / 2 ^ e is an integer
  have hint : ∃ r : ℤ, x / 2 ^ ulpExp p x = (r : ℚ) := by
    have hmq : |(m : ℚ)| ≤ 2 ^ p := by exact_mod_cast hm
    have hp1 : 1 ≤ p := Nat.one_le_iff_ne_zero.mpr (NeZero.ne p)
    rcases hmq.lt_or_eq with hlt | heq
    · have h1 := (log_bounds hx).1
      have h2 : (2 : ℚ) ^ Int.log 2 |x| < 2 ^ ((p : ℤ) + k) := by
        refine lt_of_le_of_lt h1 ?_
        rw [hax, zpow_add₀ (by norm_num), zpow_natCast]
        have : (0 : ℚ) < 2 ^ k := by positivity
        exact mul_lt_mul_of_pos_right hlt this
      have h3 := (zpow_lt_zpow_iff_right₀ (a := (2 : ℚ)) (by norm_num)).mp h2
      obtain ⟨d, hd⟩ : ∃ d : ℕ, k - ulpExp p x = d := by
        unfold ulpExp; exact ⟨(k - (Int.log 2 |x| + 1 - p)).toNat, by omega⟩
      refine ⟨m * 2 ^ d, ?_⟩
      have : (2 : ℚ) ^ k = 2 ^ (d : ℤ) * 2 ^ ulpExp p x := by rw [← zpow_add₀ (by norm_num), ← hd]; congr 1; ring
      rw [div_eq_iff (by positivity)]
      push_cast
      calc x = (m : ℚ) * 2 ^ k := hxd
        _ = (m : ℚ) * 2 ^ d * 2 ^ ulpExp p x := by rw [this, zpow_natCast]; ring
    · have hl : Int.log 2 |x| = (p : ℤ) + k := by
        apply log_unique
        · rw [hax, heq, zpow_add₀ (by norm_num), zpow_natCast]
        · rw [hax, heq, zpow_add₀ (by norm_num), zpow_add₀ (by norm_num), zpow_natCast, zpow_one]
          have : (0 : ℚ) < 2 ^ p * 2 ^ k := by positivity
          linarith
      have he : ulpExp p x = k + 1 := by unfold ulpExp; rw [hl]; ring
      obtain ⟨q, rfl⟩ : ∃ q, p = q + 1 := ⟨p - 1, by omega⟩
      rcases abs_choice (m : ℚ) with hc | hc
      · refine ⟨2 ^ q, ?_⟩
        rw [he, hxd, ← hc, heq, zpow_add₀ (by norm_num)]; push_cast; field_simp; ring
      · refine ⟨-2 ^ q, ?_⟩
        have : (m : ℚ) = -2 ^ (q + 1) := by rw [← heq, hc]; ring
        rw [he, hxd, this, zpow_add₀ (by norm_num)]; push_cast; field_simp; ring
  obtain ⟨r, hr⟩ := hint
  have hp : (0 : ℚ) < 2 ^ ulpExp p x := by positivity
  rw [hr, roundEven_int, ← hr, div_mul_cancel₀ _ hp.ne']

theorem fl_nat (n : ℕ) (h : n ≤ 2 ^ p) : fl p (n : ℚ) = n := by
  have := fl_exact (p := p) (n : ℤ) 0 (by rw [abs_of_nonneg (by positivity)]; exact_mod_cast h)
  simpa using this

theorem fl_pow (k : ℤ) : fl p ((2 : ℚ) ^ k) = 2 ^ k := by
  have := fl_exact (p := p) 1 k (by simpa using one_le_pow₀ (by norm_num))
  simpa using this

theorem scaled_lt (x : ℚ) (hx : x ≠ 0) : |x / 2 ^ ulpExp p x| < 2 ^ p := by
  have h := (log_bounds hx).2
  rw [abs_div, abs_of_pos (show (0 : ℚ) < 2 ^ ulpExp p x by positivity), div_lt_iff₀ (by positivity), ← zpow_natCast, ← zpow_add₀ (by norm_num)]
  have e : (p : ℤ) + ulpExp p x = Int.log 2 |x| + 1 := by unfold ulpExp; ring
  rw [e]; exact h

/-- Rounding twice is rounding once. -/
theorem fl_idem (x : ℚ) : fl p (fl p x) = fl p x := by
  by_cases hx : x = 0
  · rw [hx, fl_zero, fl_zero]
  have e : fl p x = (roundEven (x / 2 ^ ulpExp p x) : ℚ) * 2 ^ ulpExp p x := by unfold fl; rw [if_neg hx]
  rw [e]
  apply fl_exact
  have h := abs_lt.mp (scaled_lt (p := p) x hx)
  have h1 : roundEven (x / 2 ^ ulpExp p x) ≤ 2 ^ p := by
    have := roundEven_mono h.2.le
    rwa [show (2 : ℚ) ^ p = ((2 ^ p : ℤ) : ℚ) by push_cast; rfl, roundEven_int] at this
  have h2 : -2 ^ p ≤ roundEven (x / 2 ^ ulpExp p x) := by
    have := roundEven_mono h.1.le
    rwa [show -(2 : ℚ) ^ p = ((-2 ^ p : ℤ) : ℚ) by push_cast; rfl, roundEven_int] at this
  exact abs_le.mpr ⟨h2, h1⟩

theorem fl_pos_bounds {x : ℚ} (hx : 0 < x) : (2 : ℚ) ^ Int.log 2 |x| ≤ fl p x ∧ fl p x ≤ 2 ^ (Int.log 2 |x| + 1) := by
  obtain ⟨h1, h2⟩ := log_bounds hx.ne'
  have hp1 : 1 ≤ p := Nat.one_le_iff_ne_zero.mpr (NeZero.ne p)
  have hpos : (0 : ℚ) < 2 ^ ulpExp p x := by positivity
  have e : fl p x = (roundEven (x / 2 ^ ulpExp p x) : ℚ) * 2 ^ ulpExp p x := by unfold fl; rw [if_neg hx.ne']
  rw [abs_of_pos hx] at h1 h2 ⊢
  have hu : ulpExp p x = Int.log 2 x + 1 - p := by unfold ulpExp; rw [abs_of_pos hx]
  constructor
  · have : (2 : ℚ) ^ Int.log 2 x = ((2 ^ (p - 1) : ℤ) : ℚ) * 2 ^ ulpExp p x := by
      push_cast
      rw [← zpow_natCast, ← zpow_add₀ (by norm_num), hu]; congr 1; push_cast [hp1]; ring
    rw [e, this]
    apply mul_le_mul_of_nonneg_right _ hpos.le
    have h3 : ((2 ^ (p - 1) : ℤ) : ℚ) ≤ x / 2 ^ ulpExp p x := by rw [le_div_iff₀ hpos, ← this]; exact h1
    have := roundEven_mono h3
    rw [roundEven_int] at this
    exact_mod_cast this
  · have : (2 : ℚ) ^ (Int.log 2 x + 1) = ((2 ^ p : ℤ) : ℚ) * 2 ^ ulpExp p x := by
      push_cast
      rw [← zpow_natCast, ← zpow_add₀ (by norm_num), hu]; congr 1; ring
    rw [e, this]
    apply mul_le_mul_of_nonneg_right _ hpos.le
    have h3 : x / 2 ^ ulpExp p x ≤ ((2 ^ p : ℤ) : ℚ) := by rw [div_le_iff₀ hpos, ← this]; exact h2.le
    have := roundEven_mono h3
    rw [roundEven_int] at this
    exact_mod_cast this

theorem fl_pos {x : ℚ} (hx : 0 < x) : 0 < fl p x := lt_of_lt_of_le (by positivity) (fl_pos_bounds hx).1

theorem fl_mono_pos {x y : ℚ} (hx : 0 < x) (h : x ≤ y) : fl p x ≤ fl p y := by
  have hy := lt_of_lt_of_le hx h
  have hl : Int.log 2 |x| ≤ Int.log 2 |y| := by
    rw [abs_of_pos hx, abs_of_pos hy]; exact Int.log_mono_right hx h
  rcases hl.lt_or_eq with hlt | he
  · calc fl p x ≤ 2 ^ (Int.log 2 |x| + 1) := (fl_pos_bounds hx).2
      _ ≤ 2 ^ Int.log 2 |y| := zpow_le_zpow_right₀ (by norm_num) (by omega)
      _ ≤ fl p y := (fl_pos_bounds hy).1
  · unfold fl
    rw [if_neg hx.ne', if_neg hy.ne']
    have hu : ulpExp p y = ulpExp p x := by unfold ulpExp; rw [he]
    rw [hu]
    apply mul_le_mul_of_nonneg_right _ (by positivity)
    have : x / 2 ^ ulpExp p x ≤ y / 2 ^ ulpExp p x := div_le_div_of_nonneg_right h (by positivity)
    exact_mod_cast roundEven_mono this

/-- Rounding is monotone. -/
theorem fl_mono {x y : ℚ} (h : x ≤ y) : fl p x ≤ fl p y := by
  rcases lt_trichotomy x 0 with hx | hx | hx
  · rcases lt_trichotomy y 0 with hy | hy | hy
    · have := fl_mono_pos (p := p) (x := -y) (y := -x) (by linarith) (by linarith)
      rw [fl_neg, fl_neg] at this; linarith
    · have := fl_pos (p := p) (x := -x) (by linarith)
      rw [fl_neg] at this; rw [hy, fl_zero]; linarith
    · have := fl_pos (p := p) (x := -x) (by linarith)
      rw [fl_neg] at this
      have := fl_pos (p := p) hy; linarith
  · rw [hx, fl_zero]
    rcases (hx ▸ h : 0 ≤ y).lt_or_eq with hy | hy
    · exact (fl_pos hy).le
    · rw [← hy, fl_zero]
  · exact fl_mono_pos hx h

end
end Axon
