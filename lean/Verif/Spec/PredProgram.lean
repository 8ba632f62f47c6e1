import Verif.Spec.Compiler
import Verif.Spec.PredSession
import Verif.Spec.EndToEnd
import Mathlib.Analysis.SpecialFunctions.Log.Basic

/-! # What a compiled program should compute in the predictive simulator, and how precisely -/
namespace Axon.Spec

/-- `PredBudget h r dt v x ε`: with range `r` and time step `dt`, Scalar number `v` stands for the number `x` (computed from the loaded
data by ordinary arithmetic), and the rules below grant that the predictive simulator shows `x` with an inter-spike interval that is off
by at most `ε` (an error of `r*ε/100` in the value).

* a loaded value must be within the range; it is shown exactly;
* negation is exact;
* an addition adds the errors and at most one time step; its positive and its negative operands must each stay (with the errors) within
  the range, and the result must not be in the zone around zero where the network cannot answer;
* a multiplication amplifies the errors by `r`; its factors must (with the errors) be strictly within the range and not be zero, the
  product must stay within the range, and be large enough for the decay that computes it to end in the 343 ms it has;
* a multiplication by an exact zero is exact; if the zero is the second factor, the decay of the first must end within the 500 ms
  horizon of the engine.

A product also needs the time `110/r` to be within that horizon. -/
inductive PredBudget (h : SHeap ℝ) (r dt : ℝ) : ℕ → ℝ → ℝ → Prop
  | load {v : ℕ} {ε : ℝ} (hop : h.op v = .load) (hp : h.prev v = []) (hx : |h.data v| ≤ r) (hε : 0 ≤ ε) : PredBudget h r dt v (h.data v) ε
  | neg {v u : ℕ} {x ε : ℝ} (hop : h.op v = .neg) (hp : h.prev v = [u]) (hu : PredBudget h r dt u x ε) : PredBudget h r dt v (-x) ε
  | add {v u₁ u₂ : ℕ} {x₁ x₂ ε₁ ε₂ ε : ℝ} (hop : h.op v = .add) (hp : h.prev v = [u₁, u₂])
      (h₁ : PredBudget h r dt u₁ x₁ ε₁) (h₂ : PredBudget h r dt u₂ x₂ ε₂)
      (hpos : (max x₁ 0 + max x₂ 0) / r * 100 + (ε₁ + ε₂ + dt) ≤ 100)
      (hneg : (max (-x₁) 0 + max (-x₂) 0) / r * 100 + (ε₁ + ε₂ + dt) ≤ 100)
      (hzero : ε₁ + ε₂ ≤ (x₁ + x₂) / r * 100 ∨ (x₁ + x₂) / r * 100 + (ε₁ + ε₂ + dt) + 1 / 100 ≤ 0)
      (hε : ε₁ + ε₂ + dt ≤ ε) : PredBudget h r dt v (x₁ + x₂) ε
  | mul {v u₁ u₂ : ℕ} {x₁ x₂ ε₁ ε₂ ε : ℝ} (hop : h.op v = .mul) (hp : h.prev v = [u₁, u₂])
      (h₁ : PredBudget h r dt u₁ x₁ ε₁) (h₂ : PredBudget h r dt u₂ x₂ ε₂)
      (hx₁ : ε₁ < |x₁| / r * 100) (hx₁' : |x₁| / r * 100 + ε₁ < 100) (hx₂ : ε₂ < |x₂| / r * 100) (hx₂' : |x₂| / r * 100 + ε₂ < 100)
      (hxx : |x₁ * x₂| ≤ r)
      (hdecay : -20 * Real.log (|x₁| / r - ε₁ / 100) + -20 * Real.log (|x₂| / r - ε₂ / 100) + 2 * dt ≤ 343)
      (hhor : 110 / r + 2 * dt ≤ 500) (hamp : r * (ε₁ + ε₂ + 10 * dt) < 10) (hε : r * (ε₁ + ε₂ + 11 * dt) + dt ≤ ε) :
      PredBudget h r dt v (x₁ * x₂) ε
  | zeroMul {v u₁ u₂ : ℕ} {x₂ ε₂ ε : ℝ} (hop : h.op v = .mul) (hp : h.prev v = [u₁, u₂])
      (h₁ : PredBudget h r dt u₁ 0 0) (h₂ : PredBudget h r dt u₂ x₂ ε₂) (hx₂' : |x₂| / r * 100 + ε₂ < 100) (hr1 : 1 ≤ r) (hε : 0 ≤ ε) :
      PredBudget h r dt v 0 ε
  | mulZero {v u₁ u₂ : ℕ} {x₁ ε₁ ε : ℝ} (hop : h.op v = .mul) (hp : h.prev v = [u₁, u₂])
      (h₁ : PredBudget h r dt u₁ x₁ ε₁) (h₂ : PredBudget h r dt u₂ 0 0) (hx₁ : ε₁ < |x₁| / r * 100) (hx₁' : |x₁| / r * 100 + ε₁ < 100)
      (hdecay : -20 * Real.log (|x₁| / r - ε₁ / 100) + 2 * dt ≤ 500) (hr1 : 1 ≤ r) (hε : 0 ≤ ε) : PredBudget h r dt v 0 ε

/-- The values operation `v` works on are in the range its network can handle in the predictive simulator. -/
def PredInRange (h : SHeap ℝ) (r : ℝ) (v : ℕ) : Prop :=
  match h.op v, h.prev v with
  | .load, _ => |h.data v| ≤ r
  | .neg, _ => True
  | .add, [u, w] => max (h.data u) 0 + max (h.data w) 0 < r ∧ max (-h.data u) 0 + max (-h.data w) 0 < r ∧
      (0 < h.data u + h.data w ∨ h.data u + h.data w < -(r / 10000))
  | .mul, [u, w] => |h.data u| < r ∧ |h.data w| < r ∧
      ((|h.data u * h.data w| ≤ r ∧ Real.exp (-343 / 20) * r ^ 2 < |h.data u * h.data w| ∧ 110 / r < 500) ∨
        (1 ≤ r ∧ (ZeroSource h u ∨ (ZeroSource h w ∧ Real.exp (-500 / 20) * r < |h.data u|))))
  | _, _ => False

end Axon.Spec
