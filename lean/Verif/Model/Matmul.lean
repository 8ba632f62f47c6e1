import Verif.Model.Scalar

/-!
# The matrix example (axon_sdk/networks/examples/matmul.py)

A function body is a list of assignments; the expressions refer to the local variables by position.
-/
namespace Axon
variable {K : Type*}

/-- matmul.py:14-58: a name in a function body stands for the Scalar it holds; replace local variable `i` by that Scalar. -/
def SExpr.rename (env : List ℕ) : SExpr K → SExpr K
  | .num x => .num x
  | .var i => .var (env.getD i 0)
  | .neg a => .neg (a.rename env)
  | .add a b => .add (a.rename env) (b.rename env)
  | .sub a b => .sub (a.rename env) (b.rename env)
  | .mul a b => .mul (a.rename env) (b.rename env)
  | .div a b => .div (a.rename env) (b.rename env)

/-- matmul.py:14-58: execute a list of assignments, each to a new local variable.  (Every right-hand side below is a Scalar
expression; other values do not occur.) -/
def runProg [Field K] [DecidableEq K] (limit : ℕ) : List (SExpr K) → List ℕ → SHeap K → Except PyErr (List ℕ × SHeap K)
  | [], env, h => .ok (env, h)
  | e :: es, env, h =>
    match evalPy limit (e.rename env) h with
    | .error err => .error err
    | .ok (.sc i, h') => runProg limit es (env ++ [i]) h'
    | .ok (_, _) => .error .typeError

/-- A 2x2 matrix of Scalars. -/
structure Mat2 where (x11 x12 x21 x22 : ℕ)
  deriving DecidableEq, Repr

section
variable [Field K] [DecidableEq K]
open SExpr

/-- matmul.py:17-20: the four assignments of `regular_matmul`; variables 0-3 are the entries of A, 4-7 those
of B (row by row). -/
def regularBody : List (SExpr K) :=
  [add (mul (var 0) (var 4)) (mul (var 1) (var 6)),
   add (mul (var 0) (var 5)) (mul (var 1) (var 7)),
   add (mul (var 2) (var 4)) (mul (var 3) (var 6)),
   add (mul (var 2) (var 5)) (mul (var 3) (var 7))]

/-- matmul.py:14-22 `regular_matmul`; line 15 first creates four Scalars that are then dropped. -/
def regularMatmul (limit : ℕ) (A B : Mat2) (h : SHeap K) : Except PyErr (Mat2 × SHeap K) :=
  match runProg limit regularBody [A.x11, A.x12, A.x21, A.x22, B.x11, B.x12, B.x21, B.x22]
      (h ++ [⟨0, [], .load⟩, ⟨0, [], .load⟩, ⟨0, [], .load⟩, ⟨0, [], .load⟩]) with
  | .error e => .error e
  | .ok (env, h') => .ok (⟨env.getD 8 0, env.getD 9 0, env.getD 10 0, env.getD 11 0⟩, h')

/-- matmul.py:26-37: the assignments of `strassen_matmul`; variables 8-14 are M1..M7, 15-18 are c11..c22. -/
def strassenBody : List (SExpr K) :=
  [mul (add (var 0) (var 3)) (add (var 4) (var 7)),
   mul (add (var 2) (var 3)) (var 4),
   mul (var 0) (sub (var 5) (var 7)),
   mul (var 3) (sub (var 6) (var 4)),
   mul (add (var 0) (var 1)) (var 7),
   mul (sub (var 2) (var 0)) (add (var 4) (var 5)),
   mul (sub (var 1) (var 3)) (add (var 6) (var 7)),
   add (sub (add (var 8) (var 11)) (var 12)) (var 14),
   add (var 10) (var 12),
   add (var 9) (var 11),
   add (add (sub (var 8) (var 9)) (var 10)) (var 13)]

/-- matmul.py:25-41 `strassen_matmul`. -/
def strassenMatmul (limit : ℕ) (A B : Mat2) (h : SHeap K) : Except PyErr (Mat2 × SHeap K) :=
  match runProg limit strassenBody [A.x11, A.x12, A.x21, A.x22, B.x11, B.x12, B.x21, B.x22] h with
  | .error e => .error e
  | .ok (env, h') => .ok (⟨env.getD 15 0, env.getD 16 0, env.getD 17 0, env.getD 18 0⟩, h')

/-- matmul.py:56: `out += M[i][j]`. -/
def sumStep (limit : ℕ) (acc : ℕ × SHeap K) (x : ℕ) : Except PyErr (ℕ × SHeap K) :=
  match evalPy limit (add (var acc.1) (var x)) acc.2 with
  | .error e => .error e
  | .ok (.sc i, h') => .ok (i, h')
  | .ok (_, _) => .error .typeError

/-- matmul.py:54-56: the entry `M[i][j]`, or IndexError, then `+=`. -/
def sumEntry (limit : ℕ) (row : List ℕ) (acc : ℕ × SHeap K) (j : ℕ) : Except PyErr (ℕ × SHeap K) :=
  match row[j]? with
  | none => .error .indexError
  | some x => sumStep limit acc x

/-- matmul.py:52-58 `sum_mat`: every row is read up to the length of the first row. -/
def sumMat (limit : ℕ) (M : List (List ℕ)) (h : SHeap K) : Except PyErr (ℕ × SHeap K) :=
  M.foldlM (fun acc row => (List.range (M.headD []).length).foldlM (sumEntry limit row) acc)
    (newScalar h 0 [] .load)

end
end Axon
