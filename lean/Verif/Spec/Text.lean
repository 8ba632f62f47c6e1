import Mathlib.Data.Rat.Defs
import Mathlib.Algebra.Field.Rat

/-! # Reading a printed number -/
namespace Axon.Spec

/-- The number a string of digits stands for. -/
def digitsVal (l : List Char) : ℕ := l.foldl (fun n c => 10 * n + (c.toNat - 48)) 0

/-- The number a decimal fraction such as `-12.340` stands for. -/
def readNumber (t : List Char) : ℚ :=
  let u := if t.head? = some '-' then t.tail else t
  let whole := u.takeWhile (· ≠ '.')
  let frac := (u.dropWhile (· ≠ '.')).tail
  let m := (digitsVal whole : ℚ) + digitsVal frac / 10 ^ frac.length
  if t.head? = some '-' then -m else m

end Axon.Spec
