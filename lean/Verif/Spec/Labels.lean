import Verif.Spec.Text
import Verif.Model.Scalar

/-! # Printed numbers -/
namespace Axon.Spec

/-- The text `num` is a decimal fraction with `d` decimals, such as `-12.340`, and no other such fraction is nearer to `x`. -/
structure Prints (d : ℕ) (x : ℚ) (num : List Char) : Prop where
  form : ∃ s a b, num = s ++ a ++ '.' :: b ∧ (s = [] ∨ s = ['-']) ∧ a ≠ [] ∧ b.length = d ∧ (∀ c ∈ a, c.isDigit = true) ∧ ∀ c ∈ b, c.isDigit = true
  near : ∀ k : ℤ, |readNumber num - x| ≤ |(k : ℚ) / 10 ^ d - x|

/-- The sign of an operation in a drawing. -/
def opSign : OpType → String
  | .load => "load"
  | .add => "+"
  | .mul => "*"
  | .pow => "**"
  | .neg => "-1*"
  | .div => "/"

end Axon.Spec
