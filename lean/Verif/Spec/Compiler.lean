import Verif.Model.Compiler
import Verif.Spec.Scalar
import Verif.Spec.Modules

/-! # Specification vocabulary for the compiler -/
namespace Axon

/-- Renumber the neurons of a synapse. -/
def Synapse.shift {K : Type*} (b : ℕ) (s : Synapse K) : Synapse K := { s with pre := b + s.pre, post := b + s.post }

/-- Renumber the neurons of a header. -/
def Header.shift (b : ℕ) (h : Header) : Header := ⟨b + h.plus, b + h.minus⟩

/-- A module (and its ports) as its constructor builds it in a fresh process. -/
def spawnEmpty {K : Type*} [Field K] [LinearOrder K] (op : OpType) (norm : K) : Spawned × World K :=
  match spawn op norm with
  | .ok b => b World.empty
  | .error _ => (⟨0, [], ⟨0, 0⟩⟩, World.empty)

end Axon

namespace Axon.Spec
variable {K : Type*}

/-- Operations that have a network. -/
def Compilable (op : OpType) : Prop := op = .load ∨ op = .add ∨ op = .mul ∨ op = .neg

/-- The class of network implementing an operation. -/
def kindFor : OpType → ModKind
  | .load => .injector
  | .add => .adder
  | .mul => .signedMulNorm
  | .neg => .signFlipper
  | _ => .plain

/-- Names of the (plus, minus) input neurons of the network for an operation, per operand. -/
def inNames : OpType → List (String × String)
  | .add => [("input_plus_0", "input_minus_0"), ("input_plus_1", "input_minus_1")]
  | .mul => [("input1_plus", "input1_minus"), ("input2_plus", "input2_minus")]
  | .neg => [("inp_plus", "inp_minus")]
  | _ => []

/-- Names of the (plus, minus) output neurons of the network for an operation. -/
def outNames : OpType → String × String
  | .load => ("inject_input_plus", "inject_input_minus")
  | .neg => ("outp_plus", "outp_minus")
  | _ => ("output_plus", "output_minus")

/-- In world `w`, `hd` are the neurons of module `m` itself (not of a submodule) with the given names. -/
def PortOf (w : World K) (m : ℕ) (names : String × String) (hd : Header) : Prop :=
  Owns w m hd.plus ∧ Owns w m hd.minus ∧
  w.neus.reverse[hd.plus]?.map (·.name) = some (some names.1) ∧
  w.neus.reverse[hd.minus]?.map (·.name) = some (some names.2)

/-- Neuron `n` belongs to module `m` or one of its transitive submodules. -/
def Inside (w : World K) (m n : ℕ) : Prop := ∃ m', InTree w m m' ∧ Owns w m' n

/-- The pair of excitatory synapses carrying a signed value from `a` to `b`. -/
def wire [Field K] (a b : Header) : List (Synapse K) :=
  [⟨a.plus, b.plus, 10, 1, .V⟩, ⟨a.minus, b.minus, 10, 1, .V⟩]

/-- Where a compiled program puts things: the operations in order, and for each one its module, the number
of its first neuron, its output rails and the input rails of its `k`-th operand. -/
structure Layout where
  nodes : List ℕ
  place : ℕ → ℕ
  off : ℕ → ℕ
  out : ℕ → Header
  inp : ℕ → ℕ → Header

/-- For every operation and every operand (in order), the wire from the operand's module. -/
def operandWires [Field K] (h : SHeap K) (L : Layout) : List (Synapse K) :=
  L.nodes.flatMap fun v => (h.prev v).zipIdx.flatMap fun x => wire (L.out x.1) (L.inp v x.2)

/-- The world `w'` contains, on top of `w`, the network of the computation of `root`. -/
structure Faithful [Field K] [LinearOrder K] (h : SHeap K) (root : ℕ) (r : K) (w w' : World K) (plan : Plan K)
    (L : Layout) : Prop where
  /-- one entry per reachable Scalar -/
  nodup : L.nodes.Nodup
  nodes : ∀ v, v ∈ L.nodes ↔ Reach h root v
  /-- exactly one module per Scalar, all different, attached to the enclosing module -/
  modules : w'.subnetworks plan.net = L.nodes.map L.place
  distinct : (L.nodes.map L.place).Nodup
  top : w'.topNeurons plan.net = []
  /-- of the matching kind -/
  kind : ∀ v ∈ L.nodes, w'.mods.reverse[L.place v]?.map (·.kind) = some (kindFor (h.op v))
  /-- the rails are the module's own, properly named, ports -/
  out : ∀ v ∈ L.nodes, PortOf w' (L.place v) (outNames (h.op v)) (L.out v)
  inp : ∀ v ∈ L.nodes, ∀ k nm, (inNames (h.op v))[k]? = some nm → PortOf w' (L.place v) nm (L.inp v k)
  /-- all synapses: the old ones, those inside modules, and the operand wires -/
  synapses : ∃ inner, w'.syns.reverse = w.syns.reverse ++ inner ++ operandWires h L ∧
    (∀ s ∈ inner, ∃ v ∈ L.nodes, Inside w' (L.place v) s.pre ∧ Inside w' (L.place v) s.post) ∧
    inner.Perm (L.nodes.flatMap fun v => (spawnEmpty (h.op v) r).2.syns.map (Synapse.shift (L.off v)))
  /-- modules share no neurons -/
  disjoint : ∀ u ∈ L.nodes, ∀ v ∈ L.nodes, ∀ n, Inside w' (L.place u) n → Inside w' (L.place v) n → u = v
  /-- the module's neurons are a contiguous renumbering of those its constructor makes -/
  copy : ∀ v ∈ L.nodes, ∀ n, Inside w' (L.place v) n ↔ ∃ k < (spawnEmpty (h.op v) r).2.neus.length, n = L.off v + k
  outCopy : ∀ v ∈ L.nodes, L.out v = (spawnEmpty (h.op v) r).1.out.shift (L.off v)
  inpCopy : ∀ v ∈ L.nodes, ∀ k < arity (h.op v), some (L.inp v k) = ((spawnEmpty (h.op v) r).1.ins[k]?).map (Header.shift (L.off v))
  /-- the output is read at the root -/
  reader : plan.reader = ⟨(L.out root).plus, (L.out root).minus, r⟩
  /-- every loaded value is injected, scaled, on the rail of its sign -/
  triggers : plan.triggers = (L.nodes.filter (fun v => h.op v = .load)).map (fun v =>
    ⟨|h.data v| / r, if 0 ≤ h.data v then (L.out v).plus else (L.out v).minus⟩)

end Axon.Spec
