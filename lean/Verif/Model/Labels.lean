import Verif.Model.GraphData
import Verif.Model.ReportText
import Verif.Model.Compiler

/-!
# Numbers written into pictures

The labels of edges in the topology view (topovis.py:106), of values in a drawn computation graph (scalar.py:94) and of the neurons that load a value
into a compiled network (compiler.py:159-160, topovis.py:78-81). Numbers are rational (every float is; no signed zeros, infinities or NaNs).
-/
set_option linter.unusedSectionVars false
namespace Axon

/-- topovis.py:106, scalar.py:94, compiler.py:159 (`:.df`): the last `d` decimal digits of a number, with leading zeros. -/
def padN : ℕ → ℕ → List Char
  | 0, _ => []
  | d + 1, n => Char.ofNat (48 + n / 10 ^ d % 10) :: padN d n

/-- topovis.py:106, scalar.py:94, compiler.py:159: Python's `f"{x:.df}"`: correctly rounded to `d` decimals, ties to even; a negative number keeps its sign even
if it is rounded to zero. -/
def fixedN (d : ℕ) (x : ℚ) : List Char :=
  let q := (roundEven (|x| * 10 ^ d)).toNat
  (if x < 0 then ['-'] else []) ++ decimal (q / 10 ^ d) ++ '.' :: padN d (q % 10 ^ d)

/-- topovis.py:106: `f"({syn.weight:.3f}; {syn.delay:.3f})"`. -/
def edgeLabel (s : Synapse ℚ) : List Char :=
  "(".toList ++ fixedN 3 s.weight ++ "; ".toList ++ fixedN 3 s.delay ++ ")".toList

/-- topovis.py:100-110, 139-150: `uid` and `label` of the items of `graph_data["edges"]`, in order (the other fields are in `World.graphData`). -/
def World.graphLabels (w : World ℚ) (ordS : List ℕ → List ℕ) (m : ℕ) : Except PyErr (List (List Char × List Char)) :=
  match w.display m with
  | .error e => .error e
  | .ok (_, ss) => .ok ((ordS ss).filterMap fun i => (w.synAt i).map fun s => (synapseUid i, edgeLabel s))

/-- scalar.py:94: `f"data: {n.data:.4f}\n"`. -/
def valueLabel (x : ℚ) : List Char := "data: ".toList ++ fixedN 4 x ++ "\n".toList

/-- scalar.py:77-111 `draw_comp_graph`: name and label of the declared graphviz nodes, in order (`addr i` is `id()` of object `i`). -/
def drawLabels (h : SHeap ℚ) (addr : ℕ → ℕ) (limit root : ℕ) : Except PyErr (List (List Char × List Char)) :=
  match trace h limit root with
  | .error e => .error e
  | .ok (nodes, _) => .ok (nodes.flatMap fun n =>
      [(decimal (addr n), valueLabel (h.data n)), (decimal (addr n) ++ (h.op n).label, (h.op n).label)])

/-- compiler.py:159: `f"<LOAD {load_op.value:.2f}>"`. -/
def loadText (x : ℚ) : List Char := "<LOAD ".toList ++ fixedN 2 x ++ ">".toList

/-- compiler.py:154-160: what `spawn_stick_module` writes into `additional_info` (elements.py: initially `None`, here the empty text) of the neurons of the module it
has created. -/
def spawnInfo (op : Scaffold ℚ) (sp : Spawned) (info : ℕ → List Char) : ℕ → List Char :=
  if op.optype = .load then Function.update (Function.update info sp.out.plus (loadText op.value)) sp.out.minus (loadText op.value) else info

/-- compiler.py:185-213 `fill_op_scafold` and `add_subnetwork` as in `fillOp`, keeping track of `additional_info`. -/
def fillOpInfo (net : ℕ) (norm : ℚ) (st : (World ℚ × Plugs) × (ℕ → List Char)) (op : Scaffold ℚ) : Except PyErr ((World ℚ × Plugs) × (ℕ → List Char)) :=
  match spawn op.optype norm, fillOp net norm st.1 op with
  | .ok b, .ok st' => .ok (st', spawnInfo op (b st.1.1).1 st.2)
  | .error e, _ => .error e
  | _, .error e => .error e

/-- compiler.py:260-277 `compile_computation`: the `additional_info` of all neurons afterwards (nothing else in it writes this field). -/
def compileInfo (h : SHeap ℚ) (limit root : ℕ) (r : ℚ) (w : World ℚ) : Except PyErr (ℕ → List Char) :=
  match flatten h limit root with
  | .error e => .error e
  | .ok (ops, _, _) =>
    let m := newModule .plain (some "enclosing_module") w
    match ops.foldlM (fillOpInfo m.1 r) ((m.2, fun _ => none), fun _ => []) with
    | .error e => .error e
    | .ok s => .ok s.2

end Axon
