import Verif.Model.ReportText
import Verif.Model.GraphData
import Verif.Model.Predictive

/-!
# What the usage reports print, also before an exception (axon_sdk/usagereport/usagereport.py)

A report is a sequence of calls of `print`, possibly ended by an exception.
-/
set_option linter.unusedSectionVars false
namespace Axon
variable {K : Type*}

/-- usagereport.py: one call of `print`: a text, or (lines 183-185, where a float is printed with `str`) a text with a number in it, whose digits are not
modelled. -/
inductive Line
  | text (s : List Char)
  | value (before : String) (x : ℚ) (after : String)
  deriving DecidableEq

/-- usagereport.py: the lines printed by a function, in order, and how it ended. -/
structure Printed where
  lines : List Line
  result : Except PyErr Unit

namespace Printed

/-- A statement that prints nothing and goes on (an `if` that is not taken). -/
def skip : Printed := ⟨[], .ok ()⟩

/-- `raise`. -/
def fail (e : PyErr) : Printed := ⟨[], .error e⟩

/-- `print(s)`. -/
def line (s : List Char) : Printed := ⟨[.text s], .ok ()⟩

/-- `print` of a string literal. -/
def say (s : String) : Printed := line s.toList

/-- One statement after the other: after an exception nothing more is executed. -/
def andThen (p q : Printed) : Printed :=
  match p.result with
  | .error _ => p
  | .ok () => ⟨p.lines ++ q.lines, q.result⟩

/-- Statements, one after the other. -/
def seq : List Printed → Printed
  | [] => skip
  | p :: ps => p.andThen (seq ps)

end Printed
open Printed

/-- usagereport.py:48 (`" " * indent`). -/
def spaces (n : ℕ) : List Char := List.replicate n ' '

/-- usagereport.py:45-55 `_print_neurons`; recursive calls do not pass `max_recursion` on, so they use the default 1. -/
def World.printTree (w : World K) : ℕ → ℕ → ℕ → ℕ → ℕ → Printed
  | 0, _, _, _, _ => fail .recursionError
  | fuel + 1, m, maxRec, indent, level =>
    match w.neurons m with
    | .error e => fail e
    | .ok ns => seq [
        line (spaces indent ++ w.moduleUidOf m ++ ": ".toList ++ decimal ns.length ++ " neurons".toList),
        if level < maxRec then seq [
          if (w.subnetworks m).length ≠ 0 then line (spaces (indent + 4) ++ "own ".toList ++ decimal (w.topNeurons m).length) else skip,
          seq ((w.subnetworks m).map (fun s => w.printTree fuel s 1 (indent + 4) (level + 1)))]
        else skip]

/-- usagereport.py:38-42 `report_neuron_usage(net, print_depth)`.  Three levels of recursion are enough, see `printTree`. -/
def World.reportNeuronUsage (w : World K) (m depth : ℕ) : Printed := seq [
  say "--------------- NEURON USAGE REPORT --------------",
  w.printTree 3 m depth 0 0,
  match w.neurons m with
  | .error e => fail e
  | .ok ns => line ("-> Total: ".toList ++ decimal ns.length ++ " neurons".toList),
  say "\n"]

/-- usagereport.py:104-108: the loop over the submodules, with the sum so far; what follows the loop gets the sum. -/
def World.spikeLines (w : World K) (after : ℕ → Printed) : List ℕ → ℕ → Printed
  | [], count => after count
  | s :: rest, count =>
    match moduleTotalSpikes (w.kindOf s) with
    | .error e => fail e
    | .ok k => seq [line (spaces 4 ++ w.moduleUidOf s ++ ": ".toList ++ decimal k ++ " spikes".toList), w.spikeLines after rest (count + k)]

/-- usagereport.py:89-111 `report_spike_estimation_for_net`. -/
def World.reportSpikeEstimation (w : World K) (m : ℕ) : Printed := seq [
  say "--------- SPIKE COUNT REPORT (ESTIMATION) --------",
  if (w.topNeurons m).length ≠ 0 then seq [
    say "IMP: Spike count estimation might not be accurate",
    say "     Noticed your net has neurons in the top module",
    say "     Spikes in top module neurons are not counted",
    say "     Use estimation with care."] else skip,
  w.spikeLines (fun count => seq [line ("-> Total: ".toList ++ decimal count ++ " spikes".toList), say "\n"]) (w.subnetworks m) 0]

/-- usagereport.py:163-194 `_report_energy_and_latency`. -/
def reportEnergy (v ge gf gm : ℕ) : Printed :=
  match energyReport v ge gf gm with
  | .error e => fail e
  | .ok (p, q) => seq [
      say "-------", say "Predictive logic report:",
      line ("V-type updates: ".toList ++ decimal v), line ("ge-type updates: ".toList ++ decimal ge),
      line ("gf-type updates: ".toList ++ decimal gf), line ("gm-type updates: ".toList ++ decimal gm),
      say "-------",
      ⟨[.value "Latency per iteration: " p.seconds " s"], .ok ()⟩,
      line ("Energy per iteration:  ".toList ++ humanText q.energy "J"), line ("Power:                 ".toList ++ humanText q.total "W"),
      say "-------",
      line ("P_leak:                ".toList ++ humanText q.leak "W"), line ("P_idle:                ".toList ++ humanText q.idle "W"),
      line ("P_dynamic:             ".toList ++ humanText q.dyn "W"), line ("I_total:               ".toList ++ humanText q.current "A"),
      line ("r_SOP:                 ".toList ++ humanText q.rate "SOP/s"),
      say "\n"]

/-- usagereport.py:128-149 `report_energy_and_latency_estimation_for_net`: the sums are formed before anything is printed. -/
def World.reportEnergyEstimation (w : World K) (m : ℕ) : Printed :=
  match w.energyCounts m with
  | .error e => fail e
  | .ok c => seq [say "------ ENERGY & LATENCY REPORT (ESTIMATION) ------", reportEnergy c.V c.ge c.gf c.gm]

/-- usagereport.py:29-35 `benchmark_net(net)`. -/
def World.benchmarkNet (w : World K) (m : ℕ) : Printed := seq [
  say "IMP: Benchmarks on a net are estimations!",
  say "To benchmark actual runtime behaviour, use 'benchmark_simulation()'",
  w.reportNeuronUsage m 1, w.reportSpikeEstimation m, w.reportEnergyEstimation m]

/-- usagereport.py:114-125 `report_spike_usage_for_simulation(sim)`; `keys` enumerates the dictionary `spike_log`. -/
def reportSpikeUsage (st : PSim K) (keys : List ℕ) : Printed :=
  if st.finished = false then fail .valueError
  else seq [
    say "--------------- SPIKE COUNT REPORT ---------------",
    line ("-> Total: ".toList ++ decimal ((keys.map (fun n => ((st.spikeLog n).getD []).length)).sum) ++ " spikes".toList),
    say "\n"]

/-- usagereport.py:152-160 `report_energy_and_latency_for_simulation(sim)`. -/
def reportEnergySimulation (st : PSim K) : Printed :=
  match reportedUpdates st with
  | .error e => fail e
  | .ok (v, ge, gf, gm) => seq [say "------------ ENERGY & LATENCY REPORT -------------", reportEnergy v ge gf gm]

/-- usagereport.py:14-26 `benchmark_simulation(sim)`; `m` is `sim.net`. -/
def World.benchmarkSimulation (w : World K) (m : ℕ) (st : PSim K) (keys : List ℕ) : Printed :=
  if st.finished = false then fail .valueError
  else seq [
    say "\n", say "--------------------------------------------------", say "---------- SIMULATION BENCHMARK REPORT -----------",
    say "--------------------------------------------------", say "\n",
    w.reportNeuronUsage m 0, reportSpikeUsage st keys, reportEnergySimulation st]

end Axon
