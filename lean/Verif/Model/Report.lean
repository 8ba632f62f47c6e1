import Verif.Model.Modules
import Mathlib.Algebra.Order.Field.Basic
import Mathlib.Algebra.Order.Floor.Ring
import Mathlib.Data.Nat.Log
import Mathlib.Data.Rat.Floor

/-!
# Spike/energy estimation (axon_sdk/usagereport/usagereport.py, power_metrics.py)
-/
set_option linter.unusedSectionVars false
namespace Axon
variable {K : Type*}

/-- usagereport.py:58-86 (`isinstance(mod, ...)`): the class of module `m`. -/
def World.kindOf (w : World K) (m : ℕ) : ModKind := ((w.mods.reverse[m]?).map (·.kind)).getD .plain

/-- usagereport.py:58-70 `_module_to_total_spikes`. -/
def moduleTotalSpikes : ModKind → Except PyErr ℕ
  | .injector => .ok 2
  | .signFlipper => .ok 4
  | .signedMulNorm => .ok 29
  | .adder => .ok 58
  | .div => .ok 31
  | .plain => .error .valueError

/-- usagereport.py:75-86: the dictionaries `{"V", "ge", "gf", "gm"}` of `_module_to_spikes`. -/
structure SynCounts where (V ge gf gm : ℕ)
  deriving DecidableEq, Repr

/-- usagereport.py:73-86 `_module_to_spikes`. -/
def moduleSpikes : ModKind → Except PyErr SynCounts
  | .injector => .ok ⟨0, 0, 0, 0⟩
  | .signFlipper => .ok ⟨2, 0, 0, 0⟩
  | .signedMulNorm => .ok ⟨42, 9, 3, 4⟩
  | .adder => .ok ⟨76, 16, 0, 0⟩
  | .div => .ok ⟨48, 5, 3, 4⟩
  | .plain => .error .valueError

/-- usagereport.py:105-108: one iteration of the loop over the submodules. -/
def World.spikeStep (w : World K) (acc : List (ℕ × ℕ) × ℕ) (s : ℕ) : Except PyErr (List (ℕ × ℕ) × ℕ) :=
  match moduleTotalSpikes (w.kindOf s) with
  | .error e => .error e
  | .ok k => .ok (acc.1 ++ [(s, k)], acc.2 + k)

/-- usagereport.py:89-111 `report_spike_estimation_for_net`: whether the warning is printed, the line for
each submodule (module, spikes) and the printed total.  (What was printed before an exception is not
modelled.) -/
def World.spikeEstimation (w : World K) (m : ℕ) : Except PyErr (Bool × List (ℕ × ℕ) × ℕ) :=
  match (w.subnetworks m).foldlM w.spikeStep ([], 0) with
  | .error e => .error e
  | .ok r => .ok (decide ((w.topNeurons m).length ≠ 0), r.1, r.2)

/-- usagereport.py:137-146: the sums in `report_energy_and_latency_estimation_for_net`. -/
def World.energyCounts (w : World K) (m : ℕ) : Except PyErr SynCounts :=
  (w.subnetworks m).foldlM (fun acc s =>
      match moduleSpikes (w.kindOf s) with
      | .error e => (.error e : Except PyErr SynCounts)
      | .ok k => .ok ⟨acc.V + k.V, acc.ge + k.ge, acc.gf + k.gf, acc.gm + k.gm⟩) ⟨0, 0, 0, 0⟩

section
variable [Field K] [LinearOrder K] [FloorRing K]

/-- power_metrics.py:88-92: the dictionary returned by `estimate_performance`. -/
structure Perf (K : Type*) where
  updates : ℕ
  cycles : ℤ
  seconds : K

/-- power_metrics.py:35-92 `estimate_performance`.  `math.log2` of a non-positive number is a ValueError
(line 64); `math.ceil(math.log2(n))` is the ceiling of the exact logarithm; division by a zero batch size
(line 73) or a zero clock (line 88) is a ZeroDivisionError.  Quotients are exact rather than floating
point. -/
def estimatePerformance (v ge gf gm : ℕ) (steps : ℤ) (mhz : K) (batch : ℤ) : Except PyErr (Perf K) :=
  if steps ≤ 0 then .error .valueError
  else if batch = 0 then .error .zeroDivision
  else if mhz * 1000000 = 0 then .error .zeroDivision
  else
    let total := v + Nat.clog 2 steps.toNat * (ge + gf + gm)
    let cycles := ⌈((total : ℤ) : ℚ) / (batch : ℚ)⌉ * 3 + 5
    .ok ⟨total, cycles, (cycles : K) / (mhz * 1000000)⟩

/-- power_metrics.py:107-117: the numbers computed by `estimate_power_and_energy` before formatting. -/
structure Power (K : Type*) where
  leak : K
  idle : K
  dyn : K
  total : K
  energy : K
  current : K
  rate : K

/-- power_metrics.py:95-127 `estimate_power_and_energy` (before formatting); a zero `V_dd` is a
ZeroDivisionError (line 118). -/
def estimatePower (perf : Perf K) (mhz Esop Pleak Pidle Vdd : K) : Except PyErr (Power K) :=
  let r := if 0 < perf.seconds then (perf.updates : K) / perf.seconds else 0
  let leak := Pleak / 10 ^ 6
  let idle := Pidle * mhz / 10 ^ 6
  let dyn := Esop / 10 ^ 12 * r
  let total := leak + idle + dyn
  if Vdd = 0 then .error .zeroDivision
  else .ok ⟨leak, idle, dyn, total, total * perf.seconds, total / Vdd, r⟩

/-- power_metrics.py:15-24: the table of prefixes, largest first (the loop runs over `reversed(prefixes)`). -/
def prefixes : List (K × String) :=
  [(10 ^ 9, "G"), (10 ^ 6, "M"), (10 ^ 3, "K"), (1, ""), (1 / 10 ^ 3, "m"), (1 / 10 ^ 6, "μ"), (1 / 10 ^ 9, "n"),
    (1 / 10 ^ 12, "p")]

/-- power_metrics.py:25-28: the loop. -/
def humanLoop (value : K) : List (K × String) → Option (K × String)
  | [] => none
  | (f, p) :: rest => if f ≤ value ∨ f = 1 / 10 ^ 12 then some (value / f, p) else humanLoop value rest

/-- power_metrics.py:14-33 `human_readable`: the scaled number and the prefix (the final formatting with
three decimals is not modelled). -/
def humanReadable (value : K) : K × String :=
  match humanLoop value prefixes with
  | some r => r
  | none => (value / (1 / 10 ^ 12), "p")

end
end Axon
