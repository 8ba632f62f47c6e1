import Verif.Model.ReportText
import Verif.Spec.Text
import Verif.Props.Report
import Verif.Proofs.Double
import Verif.Proofs.Modules

/-! # What the power report prints -/
set_option linter.unusedSectionVars false
namespace Axon
open Spec

theorem toNat_digit {d : ℕ} (h : d < 10) : (Char.ofNat (48 + d)).toNat - 48 = d := by interval_cases d <;> decide

theorem digitsVal_reverse (l : List ℕ) (h : ∀ d ∈ l, d < 10) : digitsVal ((l.map (fun d => Char.ofNat (48 + d))).reverse) = Nat.ofDigits 10 l := by
  unfold digitsVal
  rw [List.foldl_reverse]
  induction l with
  | nil => rfl
  | cons d l ih =>
    rw [List.map_cons, List.foldr_cons, ih fun x hx => h x (by simp [hx]), Nat.ofDigits_cons, toNat_digit (h d (by simp))]
    ring

theorem digitsVal_decimal (n : ℕ) : digitsVal (decimal n) = n := by
  unfold decimal
  split_ifs with h
  · subst h; rfl
  · rw [digitsVal_reverse _ fun d hd => Nat.digits_lt_base (by norm_num) hd, Nat.ofDigits_digits]

theorem digitsVal_pad3 {n : ℕ} (h : n < 1000) : digitsVal (pad3 n) = n := by
  simp only [digitsVal, pad3, List.foldl_cons, List.foldl_nil]
  rw [toNat_digit (Nat.mod_lt _ (by norm_num)), toNat_digit (Nat.mod_lt _ (by norm_num)), toNat_digit (Nat.mod_lt _ (by norm_num))]
  omega

theorem pad3_digits (n : ℕ) : ∀ c ∈ pad3 n, c.isDigit = true := by
  intro c hc
  simp only [pad3, List.mem_cons, List.not_mem_nil, or_false] at hc
  rcases hc with rfl | rfl | rfl <;> exact digitChar_isDigit (Nat.mod_lt _ (by norm_num))

theorem digit_ne_dot {c : Char} (h : c.isDigit = true) : c ≠ '.' := by rintro rfl; revert h; decide

theorem decimal_ne_nil (n : ℕ) : decimal n ≠ [] := by
  unfold decimal
  split_ifs with h
  · simp
  · simp [Nat.digits_ne_nil_iff_ne_zero.mpr h]

theorem decimal_head (n : ℕ) (l : List Char) : (decimal n ++ l).head? ≠ some '-' := by
  obtain ⟨c, r, e⟩ := List.exists_cons_of_ne_nil (decimal_ne_nil n)
  rw [e]
  intro h
  have := decimal_digits n c (by rw [e]; simp)
  simp at h
  subst h
  revert this; decide

theorem read_abs (a b : ℕ) (hb : b < 1000) :
    (digitsVal ((decimal a ++ '.' :: pad3 b).takeWhile (· ≠ '.')) : ℚ) +
      digitsVal ((decimal a ++ '.' :: pad3 b).dropWhile (· ≠ '.')).tail / 10 ^ ((decimal a ++ '.' :: pad3 b).dropWhile (· ≠ '.')).tail.length =
      a + (b : ℚ) / 1000 := by
  have h : ∀ c ∈ decimal a, decide (c ≠ '.') = true := fun c hc => by simpa using digit_ne_dot (decimal_digits a c hc)
  rw [List.takeWhile_append_of_pos h, List.dropWhile_append_of_pos h]
  simp only [ne_eq, decide_not, decide_true, Bool.not_true, Bool.false_eq_true, not_false_eq_true, List.takeWhile_cons_of_neg, List.append_nil,
    List.dropWhile_cons_of_neg, List.tail_cons, digitsVal_decimal, digitsVal_pad3 hb]
  simp [pad3]; norm_num

theorem read_fixed3 (x : ℚ) : |readNumber (fixed3 x) - x| ≤ 1 / 2000 := by
  have hx0 : (0 : ℚ) ≤ |x| * 1000 := by positivity
  have h0 : 0 ≤ roundEven (|x| * 1000) := by
    have := roundEven_mono hx0
    simpa [roundEven] using this
  set q := (roundEven (|x| * 1000)).toNat with hq
  have hqe : ((q : ℤ)) = roundEven (|x| * 1000) := Int.toNat_of_nonneg h0
  have hqq : (q : ℚ) = (roundEven (|x| * 1000) : ℚ) := by rw [← hqe]; simp
  have b1 := roundEven_le (|x| * 1000)
  have b2 := le_roundEven (|x| * 1000)
  rw [← hqq] at b1 b2
  have hsplit : ((q / 1000 : ℕ) : ℚ) + ((q % 1000 : ℕ) : ℚ) / 1000 = (q : ℚ) / 1000 := by
    have : (1000 * (q / 1000) + q % 1000 : ℕ) = q := Nat.div_add_mod q 1000
    have : (1000 * ((q / 1000 : ℕ) : ℚ) + ((q % 1000 : ℕ) : ℚ)) = q := by exact_mod_cast this
    linarith
  have hr := read_abs (q / 1000) (q % 1000) (Nat.mod_lt _ (by norm_num))
  rw [hsplit] at hr
  unfold fixed3 readNumber
  simp only [← hq]
  by_cases hn : x < 0
  · simp only [hn, if_true, List.cons_append, List.nil_append, List.head?_cons, List.tail_cons]
    rw [hr, abs_le]
    rw [abs_of_neg hn] at b1 b2
    constructor <;> linarith
  · simp only [hn, if_false, List.nil_append, if_neg (decimal_head _ _)]
    rw [hr, abs_le]
    rw [abs_of_nonneg (not_lt.mp hn)] at b1 b2
    constructor <;> linarith

theorem fixed3_chars (x : ℚ) : fixed3 x ≠ [] ∧ ∀ c ∈ fixed3 x, c.isDigit = true ∨ c = '-' ∨ c = '.' := by
  constructor
  · simp [fixed3]
  · intro c hc
    simp only [fixed3, List.mem_append, List.mem_cons] at hc
    rcases hc with (hc | hc) | hc | hc
    · split_ifs at hc
      · simp at hc; exact .inr (.inl hc)
      · simp at hc
    · exact .inl (decimal_digits _ c hc)
    · exact .inr (.inr hc)
    · exact .inl (pad3_digits _ c hc)

theorem numeral_not_white {c : Char} (h : c.isDigit = true ∨ c = '-' ∨ c = '.') : c.isWhitespace = false := by
  rcases h with h | rfl | rfl
  · by_contra hw
    simp only [Char.isWhitespace, Bool.or_eq_true, Bool.not_eq_false, decide_eq_true_eq] at hw
    rcases hw with ((rfl | rfl) | rfl) | rfl <;> revert h <;> decide
  · decide
  · decide

theorem dropWhile_white {l : List Char} (h : ∀ c ∈ l, c.isWhitespace = false) : l.dropWhile Char.isWhitespace = l := by
  cases l with
  | nil => rfl
  | cons c l => rw [List.dropWhile_cons_of_neg (by rw [h c (by simp)]; simp)]

theorem strip_line {num r : List Char} (h0 : num ≠ []) (hn : ∀ c ∈ num, c.isWhitespace = false) (hr : ∀ c ∈ r, c.isWhitespace = false) :
    strip (num ++ ' ' :: r) = num ++ (if r = [] then [] else ' ' :: r) := by
  obtain ⟨c, l, rfl⟩ := List.exists_cons_of_ne_nil h0
  unfold strip
  rw [List.cons_append, List.dropWhile_cons_of_neg (by rw [hn c (by simp)]; simp), ← List.cons_append]
  split_ifs with h
  · subst h
    rw [List.reverse_append]
    have : [' '].reverse = [' '] := rfl
    rw [this, List.cons_append, List.nil_append, List.dropWhile_cons_of_pos (by decide), dropWhile_white (by intro x hx; exact hn x (List.mem_reverse.mp hx)), List.reverse_reverse,
      List.append_nil]
  · have e : (c :: l ++ ' ' :: r).reverse = r.reverse ++ ' ' :: (c :: l).reverse := by simp
    rw [e]
    obtain ⟨d, m, e2⟩ := List.exists_cons_of_ne_nil (mt List.reverse_eq_nil_iff.mp h)
    rw [e2, List.cons_append, List.dropWhile_cons_of_neg (by rw [hr d (by rw [← List.mem_reverse, e2]; simp)]; simp), ← List.cons_append, ← e2, ← e, List.reverse_reverse]

/-- **C102.** `human_readable` prints a number, a blank, the prefix and the unit (or only the number if there is neither prefix nor unit); the printed number has
three decimals, and times the prefix it is the value up to half a unit of its last digit.  So for values of at least a picounit, the relative error is at most 0.05 %. -/
theorem C102_text (v : ℚ) {unit : String} (hu : ∀ c ∈ unit.toList, c.isWhitespace = false) :
    ∃ (num : List Char) (pre : String), pre ∈ ["", "p", "n", "μ", "m", "K", "M", "G"] ∧
      humanText v unit = num ++ (if pre.toList ++ unit.toList = [] then [] else ' ' :: (pre.toList ++ unit.toList)) ∧
      (∀ c ∈ num, c.isDigit = true ∨ c = '-' ∨ c = '.') ∧ (∃ a b, num = a ++ '.' :: b ∧ b.length = 3 ∧ ∀ c ∈ b, c.isDigit = true) ∧
      |readNumber num * siFactor pre - v| ≤ siFactor pre / 2000 ∧ (1 / 10 ^ 12 ≤ v → |readNumber num * siFactor pre - v| ≤ v / 2000) := by
  have hp : (humanReadable v).2 ∈ ["", "p", "n", "μ", "m", "K", "M", "G"] ∧ (0 : ℚ) < siFactor (humanReadable v).2 := by
    rw [humanReadable_cases]
    split_ifs <;> simp [siFactor]
  have hpw : ∀ c ∈ (humanReadable v).2.toList ++ unit.toList, c.isWhitespace = false := by
    intro c hc
    rcases List.mem_append.mp hc with hc | hc
    · have : ∀ p ∈ ["", "p", "n", "μ", "m", "K", "M", "G"], ∀ c ∈ p.toList, c.isWhitespace = false := by decide +kernel
      exact this _ hp.1 c hc
    · exact hu c hc
  obtain ⟨f1, f2⟩ := fixed3_chars (humanReadable v).1
  have hd : |readNumber (fixed3 (humanReadable v).1) * siFactor (humanReadable v).2 - v| ≤ siFactor (humanReadable v).2 / 2000 := by
    have h := read_fixed3 (humanReadable v).1
    have hl := C64_lossless v
    have : readNumber (fixed3 (humanReadable v).1) * siFactor (humanReadable v).2 - v =
        (readNumber (fixed3 (humanReadable v).1) - (humanReadable v).1) * siFactor (humanReadable v).2 := by rw [sub_mul, hl]
    rw [this, abs_mul, abs_of_pos hp.2]
    have := mul_le_mul_of_nonneg_right h hp.2.le
    linarith
  refine ⟨fixed3 (humanReadable v).1, (humanReadable v).2, hp.1, ?_, f2, ⟨_, _, rfl, rfl, pad3_digits _⟩, hd, fun hv => hd.trans ?_⟩
  · exact strip_line f1 (fun c hc => numeral_not_white (f2 c hc)) hpw
  · have : siFactor (humanReadable v).2 ≤ v := by
      rw [humanReadable_cases]
      split_ifs <;> simp only [siFactor] <;> simp <;> linarith
    linarith

/-- Half of the last digit can make the number 1000: 999.9996 m is printed as 1000.000 m. -/
example : humanText (9999996 / 10000000) "W" = "1000.000 mW".toList ∧ humanText 12 "" = "12.000".toList ∧
    humanText (-3 / 10 ^ 16) "J" = "-0.000 pJ".toList ∧ humanText (284 * 12 / 10 ^ 12) "J" = "3.408 nJ".toList := by decide +kernel

/-- **C102.** The energy report of a simulation or a compiled net never fails.  With `U = V + 13 (ge + gf + gm)` updates it prints the latency `(3 U + 5) / (200 MHz)`, the energy
`latency * 35.627 mW + 12 pJ * U`, and mean power = energy / latency = 0.9 V * current. -/
theorem C102_report (v ge gf gm : ℕ) :
    ∃ p q, energyReport v ge gf gm = .ok (p, q) ∧
      let U : ℚ := v + 13 * (ge + gf + gm)
      p.seconds = (3 * U + 5) / 200000000 ∧ q.energy = p.seconds * (35627 / 1000000) + 12 / 10 ^ 12 * U ∧
      q.total * p.seconds = q.energy ∧ q.current * (9 / 10) = q.total ∧ q.rate * p.seconds = U := by
  obtain ⟨p, L, c, h1, h2, h3, h4, h5, h6⟩ := C63_formula (K := ℚ) v ge gf gm 5000 200 1 (by norm_num) (by norm_num) (by norm_num)
  have hL : L = 13 := by
    refine le_antisymm (h2.2 (by simp)) ?_
    by_contra hlt
    have h := h2.1
    have : L ≤ 12 := by omega
    have h7 : (2 : ℤ) ^ L ≤ 2 ^ 12 := pow_le_pow_right₀ (by norm_num) this
    simp only [Set.mem_setOf_eq] at h
    norm_num at h7
    omega
  subst hL
  have hcu : (c : ℚ) = p.updates := by
    have a := h4.1
    have b := h4.2 (show (p.updates : ℤ) ∈ {c : ℤ | (p.updates : ℚ) / ((1 : ℤ) : ℚ) ≤ c} by simp)
    simp only [Set.mem_setOf_eq, Int.cast_one, div_one] at a
    exact le_antisymm (by exact_mod_cast b) a
  have hsec : p.seconds = (3 * ((v : ℚ) + 13 * (ge + gf + gm)) + 5) / 200000000 := by
    have e : (p.updates : ℚ) = (v : ℚ) + 13 * (ge + gf + gm) := by rw [h3]; push_cast; ring
    have e2 : (p.cycles : ℚ) = 3 * c + 5 := by exact_mod_cast h5
    rw [e2, hcu, e] at h6
    rw [eq_div_iff (by norm_num), ← h6]; norm_num
  have hpos : 0 < p.seconds := by rw [hsec]; positivity
  have hU : (p.updates : ℚ) = v + 13 * (ge + gf + gm) := by rw [h3]; push_cast; ring
  obtain ⟨q, q1, q2, q3, q4, q5⟩ := C63_energy p 200 12 27 178 (9 / 10) hpos (by norm_num)
  refine ⟨p, q, by rw [energyReport, h1]; simp only [q1], hsec, ?_, ?_, q4, by rw [q5, hU]⟩
  · rw [q3, hU]; ring
  · unfold estimatePower at q1
    simp only [if_pos hpos] at q1
    rw [if_neg (by norm_num)] at q1
    cases q1
    rfl

end Axon
