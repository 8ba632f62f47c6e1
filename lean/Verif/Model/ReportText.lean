import Verif.Model.Report
import Verif.Model.Double

/-!
# The text of the power report (axon_sdk/usagereport/power_metrics.py:14-32, 95-127; usagereport.py:163-194)

Numbers are rational (every float is); the arithmetic before formatting is exact.
-/
set_option linter.unusedSectionVars false
namespace Axon

/-- power_metrics.py:28 (`:.3f`): the last three digits of a number, with leading zeros. -/
def pad3 (n : ℕ) : List Char := [Char.ofNat (48 + n / 100 % 10), Char.ofNat (48 + n / 10 % 10), Char.ofNat (48 + n % 10)]

/-- power_metrics.py:28: Python's `f"{x:.3f}"`: correctly rounded to three decimals, ties to even; a negative number keeps its sign even if it is rounded to zero. -/
def fixed3 (x : ℚ) : List Char :=
  let q := (roundEven (|x| * 1000)).toNat
  (if x < 0 then ['-'] else []) ++ decimal (q / 1000) ++ '.' :: pad3 (q % 1000)

/-- power_metrics.py:28: Python's `str.strip()`, for strings whose only white space is ASCII. -/
def strip (s : List Char) : List Char :=
  ((s.dropWhile Char.isWhitespace).reverse.dropWhile Char.isWhitespace).reverse

/-- power_metrics.py:14-33 `human_readable(value, unit)`. -/
def humanText (value : ℚ) (unit : String) : List Char :=
  strip (fixed3 (humanReadable value).1 ++ ' ' :: ((humanReadable value).2.toList ++ unit.toList))

/-- usagereport.py:163-194 `_report_energy_and_latency`: the printed latency, and the numbers behind the other printed lines (with the default batch size of
power_metrics.py:42 and the default constants of power_metrics.py:98-101). -/
def energyReport (v ge gf gm : ℕ) : Except PyErr (Perf ℚ × Power ℚ) :=
  match estimatePerformance (K := ℚ) v ge gf gm 5000 200 1 with
  | .error e => .error e
  | .ok p =>
    match estimatePower p 200 12 27 178 (9 / 10) with
    | .error e => .error e
    | .ok q => .ok (p, q)

end Axon
