import Verif.Model.Modules
import Mathlib.Data.List.Sort

/-!
# Topology view and chronogram (axon_sdk/visualization/topovis.py, chronogram.py)

Synapse objects are identified by their creation numbers (positions in `World.syns`, oldest first), module
uids by module numbers (`C08`).  Python sets are duplicate-free lists in insertion order; the order in which
`list(set)` enumerates them is unspecified, so no theorem depends on it.
-/
set_option linter.unusedSectionVars false
namespace Axon
variable {K : Type*}

/-- elements.py:151-170: the synapse with creation number `i`. -/
def World.synAt (w : World K) (i : ℕ) : Option (Synapse K) := w.syns.reverse[i]?

/-- elements.py: `neuron.out_synapses` (creation numbers with the synapses), oldest first. -/
def World.outSyns (w : World K) (n : ℕ) : List (Synapse K × ℕ) :=
  w.syns.reverse.zipIdx.filter (fun x => x.1.pre = n)

/-- topovis.py:24-26: assign one submodule's neurons; `subnet.neurons` may raise. -/
def World.mapSubnet (w : World K) (d : ℕ → Option ℕ) (s : ℕ) : Except PyErr (ℕ → Option ℕ) :=
  match w.neurons s with
  | .error e => .error e
  | .ok ns => .ok (ns.foldl (fun d n => Function.update d n (some s)) d)

/-- topovis.py:8-28 `generate_mapping_neuron_to_net`. -/
def World.neuronToNet (w : World K) (m : ℕ) : Except PyErr (ℕ → Option ℕ) :=
  (w.subnetworks m).foldlM w.mapSubnet
    ((w.topNeurons m).foldl (fun d n => Function.update d n (some m)) (fun _ => none))

/-- topovis.py:38-40, 51-53: `set.add`. -/
def setAdd (l : List ℕ) (x : ℕ) : List ℕ := if x ∈ l then l else l ++ [x]

/-- topovis.py:38-40 / 51-53: add a synapse and its two endpoints. -/
def addSyn (acc : List ℕ × List ℕ) (x : Synapse K × ℕ) : List ℕ × List ℕ :=
  (setAdd (setAdd acc.1 x.1.pre) x.1.post, setAdd acc.2 x.2)

/-- topovis.py:43-53: one synapse in the second loop; a missing key is a KeyError. -/
def crossStep (d : ℕ → Option ℕ) (acc : List ℕ × List ℕ) (x : Synapse K × ℕ) : Except PyErr (List ℕ × List ℕ) :=
  match d x.1.pre, d x.1.post with
  | some a, some b => .ok (if a ≠ b then addSyn acc x else acc)
  | _, _ => .error .keyError

/-- topovis.py:31-55 `get_neurons_and_synapses_to_display`. -/
def World.display (w : World K) (m : ℕ) : Except PyErr (List ℕ × List ℕ) :=
  let acc := ((w.topNeurons m).flatMap w.outSyns).foldl addSyn ([], [])
  match w.neuronToNet m with
  | .error e => .error e
  | .ok d =>
    match w.neurons m with
    | .error e => .error e
    | .ok ns => (ns.flatMap w.outSyns).foldlM (crossStep d) acc

/-- topovis.py:68: one entry of `selected_groups`; a missing key is a KeyError. -/
def lookupGroup (d : ℕ → Option ℕ) (n : ℕ) : Except PyErr (ℕ × ℕ) :=
  match d n with
  | none => .error .keyError
  | some g => .ok (n, g)

/-- topovis.py:58-71 `get_groups_to_display`. -/
def World.groups (w : World K) (m : ℕ) (ns : List ℕ) : Except PyErr (List (ℕ × ℕ)) :=
  match w.neuronToNet m with
  | .error e => .error e
  | .ok d =>
    match ns.mapM (lookupGroup d) with
    | .error e => .error e
    | .ok l => .ok (l.filter (fun x => x.2 ≠ m))

/-- topovis.py:119-122 `add_element` on an insertion-ordered dictionary of lists. -/
def addElement (d : List (ℕ × List ℕ)) (key value : ℕ) : List (ℕ × List ℕ) :=
  match d with
  | [] => [(key, [value])]
  | (k, vs) :: rest => if k = key then (k, vs ++ [value]) :: rest else (k, vs) :: addElement rest key value

/-- topovis.py:113-136 `format_groups`: the `id`/`label` (module) and `nodes` (neurons) of every group. -/
def formatGroups (groups : List (ℕ × ℕ)) : List (ℕ × List ℕ) :=
  groups.foldl (fun d g => addElement d g.2 g.1) []

section
variable {V I : Type*} [LinearOrder I] [NatCast I] [Zero V]

/-- chronogram.py:12-13: the dictionary built from the entries sorted (stably) by index; later entries
overwrite earlier ones. -/
def entryDict (entries : List (V × I)) : I → Option V :=
  (entries.mergeSort (fun a b => decide (a.2 ≤ b.2))).foldl (fun d t => Function.update d t.2 (some t.1)) (fun _ => none)

/-- chronogram.py:17-21: one iteration of the loop, carrying `result[0..i-1]` and `last_valid_value`. -/
def arrayStep (d : I → Option V) (acc : List V × V) (i : ℕ) : List V × V :=
  let v := (d (i : I)).getD acc.2
  (acc.1 ++ [v], v)

/-- chronogram.py:5-23 `build_array` (values are numbers, never `None`). -/
def buildArray (length : ℕ) (entries : List (V × I)) : List V :=
  ((List.range length).foldl (arrayStep (entryDict entries)) ([], 0)).1

end

/-- chronogram.py:38-45: what is plotted for one neuron: the raw list of pairs if it happens to have one entry
per time step, the reconstructed array otherwise. -/
inductive Plotted (V I : Type*)
  | pairs (l : List (V × I))
  | array (l : List V)

/-- chronogram.py:42-44. -/
def plotData {V I : Type*} [LinearOrder I] [NatCast I] [Zero V] (steps : ℕ) (log : List (V × I)) : Plotted V I :=
  if steps ≠ log.length then .array (buildArray steps log) else .pairs log

end Axon
