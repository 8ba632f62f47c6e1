import Verif.Model.Scalar
import Mathlib.Logic.Relation

/-! # Specification vocabulary for Scalars -/
namespace Axon.Spec
variable {K : Type*}

/-- Ordinary arithmetic: the value of an expression when Scalar `i` stands for the number `env i`
(`none` if some division is by zero). -/
def denote [Field K] [DecidableEq K] (env : ℕ → K) : SExpr K → Option K
  | .num x => some x
  | .var i => some (env i)
  | .neg a => (denote env a).map (fun x => -x)
  | .add a b => (denote env a).bind fun x => (denote env b).map fun y => x + y
  | .sub a b => (denote env a).bind fun x => (denote env b).map fun y => x - y
  | .mul a b => (denote env a).bind fun x => (denote env b).map fun y => x * y
  | .div a b => (denote env a).bind fun x => (denote env b).bind fun y => if y = 0 then none else some (x / y)

/-- The expression mentions a Scalar (so its Python value is a Scalar). -/
def HasScalar : SExpr K → Prop
  | .num _ => False
  | .var _ => True
  | .neg a => HasScalar a
  | .add a b | .sub a b | .mul a b | .div a b => HasScalar a ∨ HasScalar b

/-- All Scalars mentioned are among the first `n` objects. -/
def UsesBelow (n : ℕ) : SExpr K → Prop
  | .num _ => True
  | .var i => i < n
  | .neg a => UsesBelow n a
  | .add a b | .sub a b | .mul a b | .div a b => UsesBelow n a ∧ UsesBelow n b

/-- Somewhere a plain number is divided by a Scalar. -/
def NumOverScalar : SExpr K → Prop
  | .num _ => False
  | .var _ => False
  | .neg a => NumOverScalar a
  | .add a b | .sub a b | .mul a b => NumOverScalar a ∨ NumOverScalar b
  | .div a b => NumOverScalar a ∨ NumOverScalar b ∨ (¬ HasScalar a ∧ HasScalar b)

/-- The number a Python value stands for. -/
def valueOf [Zero K] (h : SHeap K) : SVal K → K
  | .num x => x
  | .sc i => h.data i
  | .obj => 0

/-- Operands are older than the operation (true of every heap made by constructor and operator calls:
an object must exist before it can be passed as an operand). -/
def OperandsOlder (h : SHeap K) : Prop := ∀ v < h.length, ∀ p ∈ h.prev v, p < v

/-- Number of operands an operation takes. -/
def arity : OpType → ℕ
  | .load => 0
  | .neg => 1
  | _ => 2

/-- Every object has as many operands as its operation takes (true of heaps made by the operators). -/
def AritiesOK (h : SHeap K) : Prop := ∀ v < h.length, (h.prev v).length = arity (h.op v)

/-- Ordinary arithmetic, one operation at a time. -/
def opValue [Field K] : OpType → List K → Option K
  | .add, [a, b] => some (a + b)
  | .mul, [a, b] => some (a * b)
  | .div, [a, b] => some (a / b)
  | .neg, [a] => some (-a)
  | _, _ => none

/-- The data of every operation is what ordinary arithmetic gives on the data of its operands (true of heaps made by the operators). -/
def DataOK [Field K] (h : SHeap K) : Prop :=
  ∀ v < h.length, h.op v ≠ .load → opValue (h.op v) ((h.prev v).map h.data) = some (h.data v)

/-- `p` is reachable from `v` through operands. -/
def Reach (h : SHeap K) : ℕ → ℕ → Prop := Relation.ReflTransGen (fun v p => p ∈ h.prev v)

end Axon.Spec
