import Verif.Model.Simulator
import Mathlib.Data.Int.Log
import Mathlib.Algebra.Order.Field.Basic
import Mathlib.Data.Rat.Floor

/-! # Python floats

All numbers of /repo are Python floats (IEEE 754 binary64, round to nearest, ties to even).  The model: rationals with `p` significant bits,
every operation rounded.  Simplifications: the exponent range is unbounded (no overflow, no underflow, no infinities and NaNs), and a zero has no
sign. -/
namespace Axon

/-- Rounding to the nearest integer, ties to even (IEEE 754, `roundTiesToEven`). -/
def roundEven (x : ℚ) : ℤ :=
  if x - ⌊x⌋ < 1 / 2 then ⌊x⌋ else if 1 / 2 < x - ⌊x⌋ then ⌊x⌋ + 1 else if ⌊x⌋ % 2 = 0 then ⌊x⌋ else ⌊x⌋ + 1

/-- The spacing of the numbers with `p` significant bits in the binade of `x`, as an exponent of two (IEEE 754; models no line
of the repository but the `float` all of its numbers are, e.g. encoders.py:2-14, simulator.py:88-89). -/
def ulpExp (p : ℕ) (x : ℚ) : ℤ := Int.log 2 |x| + 1 - p

/-- Rounding a number to `p` significant bits (IEEE 754, unbounded exponent). -/
def fl (p : ℕ) (x : ℚ) : ℚ := if x = 0 then 0 else roundEven (x / 2 ^ ulpExp p x) * 2 ^ ulpExp p x

end Axon
