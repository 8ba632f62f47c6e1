import Verif.Spec.Session
import Mathlib.Algebra.BigOperators.Group.Finset.Basic

/-! # What a linear combinator is given and should compute -/
namespace Axon.Spec
variable {K : Type*} [Field K] [LinearOrder K]

/-- The calls that give the signed values `x 0, x 1, ...` at the times `t 0, t 1, ...` to the inputs of a linear combinator. -/
def putAll (p : LinPorts) (N : ℕ) (x t : ℕ → K) : List (Call K) :=
  (List.range N).map (fun i => putSigned (x i) (p.inputPlus[i]!) (p.inputMinus[i]!) (t i))

/-- The sum of the positive terms of `coeff[0]*x 0 + coeff[1]*x 1 + ...`. -/
def plusPart (coeff : List K) (x : ℕ → K) : K := ∑ i ∈ Finset.range coeff.length, max (coeff.getD i 0 * x i) 0

/-- The sum of the magnitudes of the negative terms. -/
def minusPart (coeff : List K) (x : ℕ → K) : K := ∑ i ∈ Finset.range coeff.length, max (-(coeff.getD i 0 * x i)) 0

/-- `coeff[0]*x 0 + coeff[1]*x 1 + ...`. -/
def combination (coeff : List K) (x : ℕ → K) : K := ∑ i ∈ Finset.range coeff.length, coeff.getD i 0 * x i

/-- `|coeff[0]| + |coeff[1]| + ...`. -/
def absSum (coeff : List K) : K := ∑ i ∈ Finset.range coeff.length, |coeff.getD i 0|

end Axon.Spec
