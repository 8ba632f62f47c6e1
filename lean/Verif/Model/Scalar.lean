import Verif.Model.Py
import Mathlib.Algebra.Field.Defs

/-!
# Scalars and their computation graph (axon_sdk/compilation/scalar.py)

`Scalar` objects live on a heap: object number `i` is the `i`-th entry.  `Scalar` defines no `__eq__`, so
`in`, `==` and dict keys use object identity, i.e. these numbers.
-/
namespace Axon
variable {K : Type*}

/-- scalar.py:4-10 `OpType`. -/
inductive OpType
  | load | add | mul | pow | neg | div
  deriving DecidableEq, Repr

/-- scalar.py:24-27: the fields of a `Scalar` (`prev` holds object numbers). -/
structure SNode (K : Type*) where
  data : K
  prev : List ℕ
  op : OpType
  deriving DecidableEq, Repr

/-- scalar.py:24-27: all `Scalar` objects created so far, in creation order. -/
abbrev SHeap (K : Type*) := List (SNode K)

/-- scalar.py:29-72, 135-143: a Python value an operator may be applied to: a number (`int`/`float`), a `Scalar`, or an object
of another type without arithmetic (e.g. `None`). -/
inductive SVal (K : Type*)
  | num (x : K)
  | sc (id : ℕ)
  | obj
  deriving DecidableEq, Repr

/-- scalar.py:25 `.data` of an object. -/
def SHeap.data [Zero K] (h : SHeap K) (i : ℕ) : K := (h[i]?.map (·.data)).getD 0
/-- scalar.py:26 `.prev` of an object. -/
def SHeap.prev (h : SHeap K) (i : ℕ) : List ℕ := (h[i]?.map (·.prev)).getD []
/-- scalar.py:27 `.op` of an object. -/
def SHeap.op (h : SHeap K) (i : ℕ) : OpType := (h[i]?.map (·.op)).getD .load

/-- scalar.py:24-27 `Scalar(data, prev, op)`. -/
def newScalar (h : SHeap K) (data : K) (prev : List ℕ) (op : OpType) : ℕ × SHeap K :=
  (h.length, h ++ [⟨data, prev, op⟩])

/-- scalar.py:135-143 `can_proceed`. -/
def canProceed : SVal K → Bool
  | .num _ => true
  | .sc _ => true
  | .obj => false

/-- scalar.py:31, 37, 46: `other if isinstance(other, Scalar) else Scalar(other)`. -/
def wrap (h : SHeap K) : SVal K → ℕ × SHeap K
  | .num x => newScalar h x [] .load
  | .sc i => (i, h)
  | .obj => (h.length, h) -- excluded by `canProceed`

section
variable [Field K] [DecidableEq K]

/-- The result of a Python expression (an operator of scalar.py:29-72): a value and the heap, or an exception. -/
abbrev SRes (K : Type*) := Except PyErr (SVal K × SHeap K)

/-- scalar.py:29-33 `__add__`. -/
def Scalar.add (h : SHeap K) (self : ℕ) (other : SVal K) : SRes K :=
  if canProceed other then
    let o := wrap h other
    let r := newScalar o.2 (o.2.data self + o.2.data o.1) [self, o.1] .add
    .ok (.sc r.1, r.2)
  else .error .assertionError

/-- scalar.py:35-39 `__mul__`. -/
def Scalar.mul (h : SHeap K) (self : ℕ) (other : SVal K) : SRes K :=
  if canProceed other then
    let o := wrap h other
    let r := newScalar o.2 (o.2.data self * o.2.data o.1) [self, o.1] .mul
    .ok (.sc r.1, r.2)
  else .error .assertionError

/-- scalar.py:44-48 `__truediv__`; dividing by zero raises ZeroDivisionError. -/
def Scalar.truediv (h : SHeap K) (self : ℕ) (other : SVal K) : SRes K :=
  if canProceed other then
    let o := wrap h other
    if o.2.data o.1 = 0 then .error .zeroDivision
    else
      let r := newScalar o.2 (o.2.data self / o.2.data o.1) [self, o.1] .div
      .ok (.sc r.1, r.2)
  else .error .assertionError

/-- scalar.py:50-52 `__neg__`. -/
def Scalar.neg (h : SHeap K) (self : ℕ) : SVal K × SHeap K :=
  let r := newScalar h (-1 * h.data self) [self] .neg
  (.sc r.1, r.2)

/-- scalar.py:54-56 `__radd__`. -/
def Scalar.radd (h : SHeap K) (self : ℕ) (other : SVal K) : SRes K :=
  if canProceed other then Scalar.add h self other else .error .assertionError

/-- scalar.py:66-68 `__rmul__`. -/
def Scalar.rmul (h : SHeap K) (self : ℕ) (other : SVal K) : SRes K :=
  if canProceed other then Scalar.mul h self other else .error .assertionError

/-- Python's unary `-` (scalar.py:50-52): plain for numbers, `__neg__` for Scalars, TypeError otherwise. -/
def pyNeg (h : SHeap K) : SVal K → SRes K
  | .num x => .ok (.num (-x), h)
  | .sc i => .ok (Scalar.neg h i)
  | .obj => .error .typeError

/-- Python's `+` (scalar.py:29-33, 54-56): plain for two numbers, `__add__` if the left operand is a Scalar, `__radd__` of the
right operand if only that one is (numbers return NotImplemented), TypeError otherwise. -/
def pyAdd (h : SHeap K) : SVal K → SVal K → SRes K
  | .sc i, b => Scalar.add h i b
  | a, .sc j => Scalar.radd h j a
  | .num x, .num y => .ok (.num (x + y), h)
  | _, _ => .error .typeError

/-- Python's `*` (scalar.py:35-39, 66-68), dispatched like `+`. -/
def pyMul (h : SHeap K) : SVal K → SVal K → SRes K
  | .sc i, b => Scalar.mul h i b
  | a, .sc j => Scalar.rmul h j a
  | .num x, .num y => .ok (.num (x * y), h)
  | _, _ => .error .typeError

/-- scalar.py:58-60 `__sub__`: `self + (-other)`. -/
def Scalar.sub (h : SHeap K) (self : ℕ) (other : SVal K) : SRes K :=
  if canProceed other then
    match pyNeg h other with
    | .error e => .error e
    | .ok r => pyAdd r.2 (.sc self) r.1
  else .error .assertionError

/-- scalar.py:62-64 `__rsub__`: `other + (-self)`. -/
def Scalar.rsub (h : SHeap K) (self : ℕ) (other : SVal K) : SRes K :=
  if canProceed other then
    match pyNeg h (.sc self) with
    | .error e => .error e
    | .ok r => pyAdd r.2 other r.1
  else .error .assertionError

/-- Python's `-` (scalar.py:58-64), dispatched like `+`. -/
def pySub (h : SHeap K) : SVal K → SVal K → SRes K
  | .sc i, b => Scalar.sub h i b
  | a, .sc j => Scalar.rsub h j a
  | .num x, .num y => .ok (.num (x - y), h)
  | _, _ => .error .typeError

/-- scalar.py:70-72 `__rtruediv__`: `return other / self`, which for a number `other` dispatches to
`__rtruediv__` again; `limit` is the number of Python frames left. -/
def Scalar.rtruediv (h : SHeap K) (self : ℕ) (other : SVal K) : ℕ → SRes K
  | 0 => .error .recursionError
  | limit + 1 =>
    if canProceed other then
      match other with
      | .sc i => Scalar.truediv h i (.sc self)
      | other => Scalar.rtruediv h self other limit
    else .error .assertionError

/-- Python's `/` (scalar.py:44-48, 70-72), dispatched like `+`. -/
def pyDiv (limit : ℕ) (h : SHeap K) : SVal K → SVal K → SRes K
  | .sc i, b => Scalar.truediv h i b
  | a, .sc j => Scalar.rtruediv h j a limit
  | .num x, .num y => if y = 0 then .error .zeroDivision else .ok (.num (x / y), h)
  | _, _ => .error .typeError

end

/-- A user expression over numbers and existing Scalars, built with the operators of scalar.py:29-72. -/
inductive SExpr (K : Type*)
  | num (x : K)
  | var (i : ℕ)
  | neg (a : SExpr K)
  | add (a b : SExpr K)
  | sub (a b : SExpr K)
  | mul (a b : SExpr K)
  | div (a b : SExpr K)

/-- Python's left-to-right evaluation of a binary expression (operators of scalar.py:29-72). -/
def evalBin {K : Type*} (l : SHeap K → SRes K) (r : SHeap K → SRes K)
    (op : SHeap K → SVal K → SVal K → SRes K) (h : SHeap K) : SRes K :=
  match l h with
  | .error e => .error e
  | .ok (v, h1) =>
    match r h1 with
    | .error e => .error e
    | .ok (u, h2) => op h2 v u

/-- Evaluation of a user expression by the Python interpreter with the operators of scalar.py:29-72;
`limit` is the recursion limit. -/
def evalPy [Field K] [DecidableEq K] (limit : ℕ) : SExpr K → SHeap K → SRes K
  | .num x, h => .ok (.num x, h)
  | .var i, h => .ok (.sc i, h)
  | .neg a, h =>
    match evalPy limit a h with
    | .error e => .error e
    | .ok (v, h1) => pyNeg h1 v
  | .add a b, h => evalBin (evalPy limit a) (evalPy limit b) pyAdd h
  | .sub a b, h => evalBin (evalPy limit a) (evalPy limit b) pySub h
  | .mul a b, h => evalBin (evalPy limit a) (evalPy limit b) pyMul h
  | .div a b, h => evalBin (evalPy limit a) (evalPy limit b) (pyDiv limit) h

/-! ## trace -/

/-- scalar.py:123-129 `build(v)` with the lists `nodes`, `edges` it appends to and `limit` Python
frames left. -/
def traceBuild (h : SHeap K) : ℕ → List ℕ × List (ℕ × ℕ) → ℕ → Except PyErr (List ℕ × List (ℕ × ℕ))
  | 0, _, _ => .error .recursionError
  | limit + 1, st, v =>
    if v ∈ st.1 then .ok st
    else
      (h.prev v).foldlM (fun s parent =>
        traceBuild h limit (s.1, if (parent, v) ∈ s.2 then s.2 else s.2 ++ [(parent, v)]) parent)
        (st.1 ++ [v], st.2)

/-- scalar.py:119-132 `trace(root)`. -/
def trace (h : SHeap K) (limit root : ℕ) : Except PyErr (List ℕ × List (ℕ × ℕ)) :=
  traceBuild h limit ([], []) root

end Axon
