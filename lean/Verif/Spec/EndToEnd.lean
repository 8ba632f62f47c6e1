import Verif.Spec.Compiler
import Verif.Spec.Session
import Mathlib.Analysis.SpecialFunctions.Exp

/-! # What a compiled program should compute, and how precisely -/
namespace Axon.Spec
variable {K : Type*} [Field K] [LinearOrder K]

/-- The time the multiplier may be off because a decay lasts a whole number of steps. -/
def decayLoss (dt : K) : K := 100 * (1 / (1 - dt / 20) ^ 2 - 1)

/-- Scalar number `v` is a loaded 0, or that negated (any number of times). -/
inductive ZeroSource (h : SHeap K) : ℕ → Prop
  | load {v : ℕ} (hop : h.op v = .load) (hp : h.prev v = []) (hx : h.data v = 0) : ZeroSource h v
  | neg {v u : ℕ} (hop : h.op v = .neg) (hp : h.prev v = [u]) (hu : ZeroSource h u) : ZeroSource h v

/-- `Budget h r dt v x ε D`: with range `r` and time step `dt`, Scalar number `v` stands for the number `x` (computed from the
loaded data by ordinary arithmetic), and the rules below grant that the network shows `x` by time `D` with an
inter-spike interval that is off by at most `ε` (an error of `r*ε/100` in the value).

* a loaded value must be within the range;
* negation is exact;
* an addition adds the errors; its positive and its negative operands must each stay (with the errors) within the range, and the
  result must not be in the zone around zero where the network cannot answer;
* a multiplication amplifies the errors by `r`; its factors must (with the errors) be strictly within the range and not be zero, the
  product must stay within the range, and be large enough for the decay that computes it to end in the 343 ms it has;
* a multiplication by a loaded zero needs a time step that divides 1 ms (and so 10 ms): then the network recognises the zero. -/
inductive Budget (h : SHeap K) (r dt : K) : ℕ → K → K → K → Prop
  | load {v : ℕ} {ε D : K} (hop : h.op v = .load) (hp : h.prev v = []) (hx : |h.data v| ≤ r) (hε : dt ≤ ε) (hD : 111 + dt ≤ D) :
      Budget h r dt v (h.data v) ε D
  | neg {v u : ℕ} {x ε D D' : K} (hop : h.op v = .neg) (hp : h.prev v = [u]) (hu : Budget h r dt u x ε D)
      (hD : D + 2 + 2 * dt ≤ D') : Budget h r dt v (-x) ε D'
  | add {v u₁ u₂ : ℕ} {x₁ x₂ ε₁ ε₂ D₁ D₂ ε D : K} (hop : h.op v = .add) (hp : h.prev v = [u₁, u₂])
      (h₁ : Budget h r dt u₁ x₁ ε₁ D₁) (h₂ : Budget h r dt u₂ x₂ ε₂ D₂)
      (hε₁ : ε₁ ≤ 1) (hε₂ : ε₂ ≤ 1)
      (hpos : (max x₁ 0 + max x₂ 0) / r * 100 + (ε₁ + ε₂ + 2 * dt) ≤ 100)
      (hneg : (max (-x₁) 0 + max (-x₂) 0) / r * 100 + (ε₁ + ε₂ + 2 * dt) ≤ 100)
      (hzero : ε₁ + ε₂ + 2 * dt ≤ (x₁ + x₂) / r * 100 ∨ (x₁ + x₂) / r * 100 + (ε₁ + ε₂ + 2 * dt) + 1 / 100 + dt ≤ 0)
      (hε : ε₁ + ε₂ + 4 * dt ≤ ε) (hD₁ : D₁ + 371 + 18 * dt ≤ D) (hD₂ : D₂ + 371 + 18 * dt ≤ D) :
      Budget h r dt v (x₁ + x₂) ε D
  | mul {v u₁ u₂ : ℕ} {x₁ x₂ ε₁ ε₂ D₁ D₂ ε D : K} (hop : h.op v = .mul) (hp : h.prev v = [u₁, u₂])
      (h₁ : Budget h r dt u₁ x₁ ε₁ D₁) (h₂ : Budget h r dt u₂ x₂ ε₂ D₂)
      (hx₁ : ε₁ + dt ≤ |x₁| / r * 100) (hx₁' : |x₁| / r * 100 + (ε₁ + dt) ≤ 100)
      (hx₂ : ε₂ + dt ≤ |x₂| / r * 100) (hx₂' : |x₂| / r * 100 + (ε₂ + dt) ≤ 100)
      (hxx : |x₁ * x₂| ≤ r)
      (hdecay : ∃ M : ℕ, left dt M ≤ (|x₁| / r - (ε₁ + dt) / 100) * (|x₂| / r - (ε₂ + dt) / 100) ∧ ((M : K) + 6) * dt ≤ 343)
      (hsmall : ε₁ + ε₂ + 6 * dt + decayLoss dt ≤ |x₁| / r * (|x₂| / r) * 100)
      (hamp : r * (ε₁ + ε₂ + 6 * dt + decayLoss dt) ≤ 10)
      (hε : r * (ε₁ + ε₂ + 6 * dt + decayLoss dt) + 2 * dt ≤ ε)
      (hD₁ : D₁ + 597 + 110 / r + 12 * dt ≤ D) (hD₂ : D₂ + 597 + 110 / r + 12 * dt ≤ D) :
      Budget h r dt v (x₁ * x₂) ε D
  | mulZero {v u₁ u₂ : ℕ} {x₁ x₂ ε₁ ε₂ D₁ D₂ ε D : K} (hop : h.op v = .mul) (hp : h.prev v = [u₁, u₂])
      (h₁ : Budget h r dt u₁ x₁ ε₁ D₁) (h₂ : Budget h r dt u₂ x₂ ε₂ D₂) (hz : ZeroSource h u₁ ∨ ZeroSource h u₂)
      (hk : ∃ k : ℕ, (k : K) * dt = 1) (hε₁ : ε₁ ≤ 8) (hε₂ : ε₂ ≤ 8)
      (hx₁' : |x₁| / r * 100 + (ε₁ + dt) ≤ 100) (hx₂' : |x₂| / r * 100 + (ε₂ + dt) ≤ 100) (hamp : r * (2 * dt) ≤ 10)
      (hε : r * (2 * dt) + 2 * dt ≤ ε) (hD₁ : D₁ + 597 + 110 / r + 12 * dt ≤ D) (hD₂ : D₂ + 597 + 110 / r + 12 * dt ≤ D) :
      Budget h r dt v (x₁ * x₂) ε D

/-- The values operation `v` works on are in the range its network can handle. `zeros` says whether multiplications by a loaded zero are
allowed (they are when the time step divides 1 ms). -/
def InRange (zeros : Prop) (h : SHeap ℝ) (r : ℝ) (v : ℕ) : Prop :=
  match h.op v, h.prev v with
  | .load, _ => |h.data v| ≤ r
  | .neg, _ => True
  | .add, [u, w] => max (h.data u) 0 + max (h.data w) 0 < r ∧ max (-h.data u) 0 + max (-h.data w) 0 < r ∧
      (0 < h.data u + h.data w ∨ h.data u + h.data w < -(r / 10000))
  | .mul, [u, w] => |h.data u| < r ∧ |h.data w| < r ∧
      ((h.data u ≠ 0 ∧ h.data w ≠ 0 ∧ |h.data u * h.data w| ≤ r ∧ Real.exp (-343 / 20) * r ^ 2 < |h.data u * h.data w|) ∨
        (zeros ∧ (ZeroSource h u ∨ ZeroSource h w)))
  | _, _ => False

end Axon.Spec
