import Verif.Model.Simulator
import Mathlib.Data.Nat.Digits.Defs

/-!
# Neurons, modules and their construction (axon_sdk/primitives/networks.py, elements.py)

Python objects live in a `World`: neurons and modules are identified by their creation numbers (the
class counters `AbstractNeuron._instance_count` and `SpikingNetworkModule._global_instance_count`).
The append-only lists of Python are kept newest first, so every append is a `cons`.
-/
set_option linter.unusedSectionVars false
namespace Axon
variable {K : Type*}

/-! ## Nested lists -/

/-- networks.py:9, primitives/helpers.py:20: a Python value that is a list or not a list (`isinstance(item, list)`). -/
inductive PyVal (α : Type*)
  | item (a : α)
  | list (l : List (PyVal α))

mutual
/-- networks.py:6-13 = helpers.py:1-24 `flatten_nested_list`: the loop over the items. -/
def flattenNested {α : Type*} : List (PyVal α) → List α
  | [] => []
  | v :: vs => flattenItem v ++ flattenNested vs
/-- networks.py:9-12: what one item contributes. -/
def flattenItem {α : Type*} : PyVal α → List α
  | .item a => [a]
  | .list l => flattenNested l
end

/-! ## The object world -/

/-- The classes of modules the code distinguishes (`isinstance` in usagereport.py:58-86). -/
inductive ModKind
  | injector | signFlipper | signedMulNorm | adder | div | plain
  deriving DecidableEq, Repr

/-- elements.py:9-47: a neuron object: parameters, name, `parent_mod_id`. -/
structure NeuronObj (K : Type*) where
  par : Params K
  name : Option String
  mod : Option ℕ

/-- networks.py:26-35: a module object: name and class. -/
structure ModObj where
  name : Option String
  kind : ModKind

/-- networks.py:26-35, 82-119, elements.py:8-48: all objects created so far.  `neus`, `mods`, `own`, `sub`, `syns` are newest first. `own` logs the
appends to `_neurons` (module, neuron), `sub` those to `_subnetworks` (parent, child), `syns` those
to `out_synapses`. -/
structure World (K : Type*) where
  neus : List (NeuronObj K)
  mods : List ModObj
  own : List (ℕ × ℕ)
  sub : List (ℕ × ℕ)
  syns : List (Synapse K)

/-- networks.py:24, elements.py:8: the world of a fresh Python process (all counters zero). -/
def World.empty : World K := ⟨[], [], [], [], []⟩

/-- elements.py:8,48 `AbstractNeuron._instance_count`. -/
def World.nCount (w : World K) : ℕ := w.neus.length

/-- networks.py:24,35 `SpikingNetworkModule._global_instance_count`. -/
def World.mCount (w : World K) : ℕ := w.mods.length

/-- A constructor or method call that changes the world and returns something (networks.py:26,82,101,104 and every
`__init__` under networks/). -/
abbrev Build (K : Type*) (α : Type*) := World K → α × World K

/-- networks.py:26-35 `SpikingNetworkModule.__init__`. -/
def newModule (kind : ModKind) (name : Option String) : Build K ℕ := fun w =>
  (w.mods.length, { w with mods := ⟨name, kind⟩ :: w.mods })

/-- networks.py:82-99 `add_neuron`. -/
def addNeuron (m : ℕ) (Vt tm tf Vreset : K) (name : Option String) : Build K ℕ := fun w =>
  (w.neus.length, { w with neus := ⟨⟨Vt, tm, tf, Vreset⟩, name, some m⟩ :: w.neus
                           own := (m, w.neus.length) :: w.own })

/-- networks.py:101-102 `add_subnetwork`. -/
def addSubnetwork (m sub : ℕ) : Build K Unit := fun w =>
  ((), { w with sub := (m, sub) :: w.sub })

/-- networks.py:104-119 `connect_neurons`. -/
def connect (pre post : ℕ) (kind : SynKind) (weight delay : K) : Build K Unit := fun w =>
  ((), { w with syns := ⟨pre, post, weight, delay, kind⟩ :: w.syns })

/-- Sequencing of constructor statements (the bodies of every `__init__` under networks/). -/
@[inline] def Build.bind {α β : Type*} (a : Build K α) (f : α → Build K β) : Build K β := fun w =>
  f (a w).1 (a w).2

/-- The value of a constructor (the end of every `__init__` under networks/): no further effect. -/
@[inline] def Build.pure {α : Type*} (a : α) : Build K α := fun w => (a, w)

/-- Statement sequences of the constructors under networks/ written with `do`. -/
instance : Monad (Build K) where
  pure := Build.pure
  bind := Build.bind

/-! ## Reading the world -/

/-- networks.py:78-80 `top_module_neurons` (`self._neurons`), oldest first. -/
def World.topNeurons (w : World K) (m : ℕ) : List ℕ :=
  ((w.own.filter (fun x => x.1 = m)).map (·.2)).reverse

/-- networks.py:51-53 `subnetworks`, oldest first. -/
def World.subnetworks (w : World K) (m : ℕ) : List ℕ :=
  ((w.sub.filter (fun x => x.1 = m)).map (·.2)).reverse

/-- networks.py:41-49 `neurons`, with the Python call stack bounded by `fuel`. -/
def World.neuronsFuel (w : World K) : ℕ → ℕ → Except PyErr (List ℕ)
  | 0, _ => .error .recursionError
  | fuel + 1, m =>
    match (w.subnetworks m).mapM (fun s => w.neuronsFuel fuel s) with
    | .error e => .error e
    | .ok ls => .ok (w.topNeurons m ++
        flattenNested (ls.map (fun l => PyVal.list (l.map PyVal.item))))

/-- networks.py:41-49 `neurons`.  A call stack deeper than the number of modules means that a module
is (transitively) its own submodule, in which case Python recurses until RecursionError
(`C07_recursion_error_iff_cycle`).  Python's recursion limit itself is not modelled. -/
def World.neurons (w : World K) (m : ℕ) : Except PyErr (List ℕ) := w.neuronsFuel (w.mCount + 1) m

/-- networks.py:59-68 `recurse_neurons_with_module_uid`: one single-entry dict per neuron. -/
def World.withModFuel (w : World K) : ℕ → ℕ → Except PyErr (List (ℕ × ℕ))
  | 0, _ => .error .recursionError
  | fuel + 1, m =>
    match (w.subnetworks m).mapM (fun s => w.withModFuel fuel s) with
    | .error e => .error e
    | .ok ls => .ok ((w.topNeurons m).map (fun n => (n, m)) ++
        flattenNested (ls.map (fun l => PyVal.list (l.map PyVal.item))))

/-- networks.py:70-76 `neurons_with_module_uid`: later entries overwrite earlier ones.  The dict is a
partial function from neurons to modules (module numbers instead of their uid strings, which are
injective by `C08`). -/
def World.neuronsWithModule (w : World K) (m : ℕ) : Except PyErr (ℕ → Option ℕ) :=
  match w.withModFuel (w.mCount + 1) m with
  | .error e => .error e
  | .ok l => .ok (l.foldl (fun d x => Function.update d x.1 (some x.2)) (fun _ => none))

/-- Parameters of neuron `n` (elements.py:29-32); neurons not yet created get arbitrary values. -/
def World.par [Zero K] (w : World K) (n : ℕ) : Params K :=
  ((w.neus.reverse[n]?).map (·.par)).getD ⟨0, 0, 0, 0⟩

/-- simulator.py:30, predictive_simulator.py:38: the network a simulator sees when started on module `m` with `ns = m.neurons`. -/
def World.net [Zero K] (w : World K) (ns : List ℕ) : Net K := ⟨ns, w.par, w.syns.reverse⟩

/-! ## uids -/

/-- The digits an f-string prints for a non-negative `int` (elements.py:41-45, networks.py:30-33). -/
def decimal (n : ℕ) : List Char :=
  if n = 0 then ['0'] else ((Nat.digits 10 n).map (fun d => Char.ofNat (48 + d))).reverse

/-- How an f-string prints an optional name (elements.py:41-45, networks.py:30-33). -/
def showName : Option String → List Char
  | none => "None".toList
  | some s => s.toList

/-- elements.py:40-45: the uid of neuron number `n` (with `parent_mod_id` present or not). -/
def neuronUid (o : NeuronObj K) (n : ℕ) : List Char :=
  match o.mod with
  | some m => "(m".toList ++ decimal m ++ ",n".toList ++ decimal n ++ ")_".toList ++ showName o.name
  | none => "(n".toList ++ decimal n ++ ")_".toList ++ showName o.name

/-- networks.py:30-33: the uid of module number `m` (empty names are falsy). -/
def moduleUid (o : ModObj) (m : ℕ) : List Char :=
  match o.name with
  | none => "(m".toList ++ decimal m ++ ")".toList
  | some s => if s = "" then "(m".toList ++ decimal m ++ ")".toList
      else "(m".toList ++ decimal m ++ ")_".toList ++ s.toList

/-! ## Neuron usage report (axon_sdk/usagereport/usagereport.py) -/

/-- usagereport.py:38-55: the lines printed by `report_neuron_usage`/`_print_neurons`:
module line (indent, module, count), the "own" line (indent, count). -/
inductive UsageLine
  | module (indent m count : ℕ)
  | own (indent count : ℕ)
  deriving DecidableEq, Repr

/-- usagereport.py:45-55 `_print_neurons`; recursive calls do not pass `max_recursion` on, so they use
the default 1.  The recursion depth is at most two levels. -/
def World.printNeurons (w : World K) : ℕ → ℕ → ℕ → ℕ → ℕ → Except PyErr (List UsageLine)
  | 0, _, _, _, _ => .error .recursionError
  | fuel + 1, m, maxRec, indent, level =>
    match w.neurons m with
    | .error e => .error e
    | .ok ns =>
      if level < maxRec then
        match (w.subnetworks m).mapM (fun s => w.printNeurons fuel s 1 (indent + 4) (level + 1)) with
        | .error e => .error e
        | .ok ls => .ok (.module indent m ns.length ::
            ((if (w.subnetworks m).length ≠ 0 then [.own (indent + 4) (w.topNeurons m).length] else [])
              ++ ls.flatten))
      else .ok [.module indent m ns.length]

end Axon
