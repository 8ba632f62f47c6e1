import Verif.Model.Print
import Verif.Spec.Text

/-! # Reading a printed report -/
namespace Axon.Spec

/-- The line `s` says `<who>: <n> <what>`, indented by `k` blanks: it is that text with `n` in digits. -/
def Says (k : ℕ) (who : List Char) (n : ℕ) (what : String) (l : Line) : Prop :=
  ∃ ds : List Char, l = .text (List.replicate k ' ' ++ who ++ ": ".toList ++ ds ++ ' ' :: what.toList) ∧ ds ≠ [] ∧
    (∀ c ∈ ds, c.isDigit = true) ∧ digitsVal ds = n

/-- The line says `<label>: <n>`. -/
def Counts (label : String) (n : ℕ) (l : Line) : Prop :=
  ∃ ds : List Char, l = .text (label.toList ++ ": ".toList ++ ds) ∧ ds ≠ [] ∧ (∀ c ∈ ds, c.isDigit = true) ∧ digitsVal ds = n

/-- The line with this text. -/
def title (s : String) : Line := .text s.toList

end Axon.Spec
