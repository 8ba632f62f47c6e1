import Verif.Model.Vis
import Verif.Model.Scalar

/-!
# The data sent to the browser by the topology view (axon_sdk/visualization/topovis.py:74-152, server.py), and drawn computation graphs (scalar.py:77-116)

The weight/delay label of an edge (a formatted number) and the labels of drawn values are in `Verif/Model/Labels.lean`. Not modelled: printing, sockets, threads and the browser.
-/
set_option linter.unusedSectionVars false
namespace Axon
variable {K : Type*}

/-- elements.py:40-45, 50-52: `neuron.uid` of neuron number `n` (neurons not yet created get the empty string). -/
def World.neuronUidOf (w : World K) (n : ℕ) : List Char := ((w.neus.reverse[n]?).map (fun o => neuronUid o n)).getD []

/-- networks.py:30-33: `module.uid` of module number `m`. -/
def World.moduleUidOf (w : World K) (m : ℕ) : List Char := ((w.mods.reverse[m]?).map (fun o => moduleUid o m)).getD []

/-- elements.py:168-173: `synapse.uid`. -/
def synapseUid (i : ℕ) : List Char := "synapse_".toList ++ decimal i

/-- topovis.py:74-84: an item of `format_nodes`. -/
structure GNode where
  id : List Char
  label : List Char
  deriving DecidableEq, Repr

/-- topovis.py:100-110: an item of `format_edges` (without the weight/delay label). -/
structure GEdge where
  source : List Char
  target : List Char
  color : String
  uid : List Char
  deriving DecidableEq, Repr

/-- topovis.py:129-134: an item of `format_groups` (`id` and `label` are equal). -/
structure GGroup where
  id : List Char
  nodes : List (List Char)
  deriving DecidableEq, Repr

/-- topovis.py:147-150 `graph_data`. -/
structure GraphData where
  nodes : List GNode
  edges : List GEdge
  groups : List GGroup

/-- topovis.py:74-84 `format_nodes`; `info n` is `additional_info` of neuron `n` (an empty string or `None` is falsy). -/
def formatNode (w : World K) (info : ℕ → List Char) (n : ℕ) : GNode :=
  ⟨w.neuronUidOf n, w.neuronUidOf n ++ (if info n = [] then [] else "\n ".toList ++ info n)⟩

/-- topovis.py:87-97 `color_for_synapse`. -/
def colorOf : SynKind → String
  | .V => "#000000"
  | .ge => "#FF0830"
  | .gf => "#006400"
  | .gate => "#0E1AFE"
  | _ => "#000000"

/-- topovis.py:100-110 `format_edges`: the item for the synapse with creation number `i`. -/
def formatEdge (w : World K) (i : ℕ) : Option GEdge :=
  (w.synAt i).map (fun s => ⟨w.neuronUidOf s.pre, w.neuronUidOf s.post, colorOf s.kind, synapseUid i⟩)

/-- topovis.py:129-134: the item of one group. -/
def formatGroup (w : World K) (g : ℕ × List ℕ) : GGroup := ⟨w.moduleUidOf g.1, g.2.map w.neuronUidOf⟩

/-- topovis.py:139-150 `vis_topology` up to `start_server(graph_data)`.  `ordN` and `ordS` are the orders in which `list(set)` enumerates the two
sets (topovis.py:55). -/
def World.graphData (w : World K) (info : ℕ → List Char) (ordN ordS : List ℕ → List ℕ) (m : ℕ) : Except PyErr GraphData :=
  match w.display m with
  | .error e => .error e
  | .ok (ns, ss) =>
    match w.groups m (ordN ns) with
    | .error e => .error e
    | .ok gs => .ok ⟨(ordN ns).map (formatNode w info), (ordS ss).filterMap (formatEdge w), (formatGroups gs).map (formatGroup w)⟩

/-- server.py:40-45 `find_available_port`: `free p` tells whether `is_port_available(p)` returns True (the state of the machine is taken not to change
meanwhile); the `while` loop is bounded by `fuel`. -/
def findPort (free : ℕ → Bool) : ℕ → ℕ → Option ℕ
  | 0, _ => none
  | fuel + 1, port => if free port then some port else findPort free fuel (port + 1)

/-- chronogram.py:35-36: the colour values `i / (n - 1)`; with one neuron the division is by zero. -/
def colorValues [Field K] (n : ℕ) : Except PyErr (List K) :=
  if n = 1 then .error .zeroDivision else .ok ((List.range n).map (fun i : ℕ => (i : K) / ((n : K) - 1)))

/-- scalar.py:4-21 `OpType.__str__`. -/
def OpType.label : OpType → List Char
  | .load => "load".toList
  | .add => "+".toList
  | .mul => "*".toList
  | .pow => "**".toList
  | .neg => "-1*".toList
  | .div => "/".toList

/-- scalar.py:77-116 `draw_comp_graph`: the names of the declared graphviz nodes in order, and the arrows.  `addr i` is `id()` of object `i`.  (`if n.op`
always holds: enum members are true.)  Labels are in `drawLabels`; shapes, the assertion on `rankdir` and the rendering are not modelled. -/
def drawCompGraph (h : SHeap K) (addr : ℕ → ℕ) (limit root : ℕ) : Except PyErr (List (List Char) × List (List Char × List Char)) :=
  match trace h limit root with
  | .error e => .error e
  | .ok (nodes, edges) => .ok
      (nodes.flatMap (fun n => [decimal (addr n), decimal (addr n) ++ (h.op n).label]),
       nodes.map (fun n => (decimal (addr n) ++ (h.op n).label, decimal (addr n))) ++
         edges.map (fun e => (decimal (addr e.1), decimal (addr e.2) ++ (h.op e.2).label)))

end Axon
