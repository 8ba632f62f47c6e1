import Verif.Model.Scalar
import Verif.Model.Networks

/-!
# The compiler (axon_sdk/compilation/compiler.py)

`Plug` objects are identified by what they were created for: the output plug of a node
(compiler.py:106) or the plug of its `k`-th operand (compiler.py:119).  Their mutable field
`neuron_header` is a partial function on these identities.
-/
set_option linter.unusedSectionVars false
namespace Axon
variable {K : Type*}

/-- compiler.py:12-15 `NeuronHeader`. -/
structure Header where (plus minus : ℕ)
  deriving DecidableEq, Repr

/-- compiler.py:69-72 `Plug` objects (the label is not modelled). -/
inductive PlugId
  | out (node : ℕ)
  | inp (node k : ℕ)
  deriving DecidableEq, Repr

/-- compiler.py:69-72: the field `neuron_header` of all plugs. -/
abbrev Plugs := PlugId → Option Header

/-- compiler.py:87-100 `OpModuleScaffold`/`LoadOpModuleScaffold` (`outp_plug` is a one-element list;
`value` is used for loads only; `module` is passed on directly). -/
structure Scaffold (K : Type*) where
  optype : OpType
  inps : List PlugId
  outp : PlugId
  value : K

/-- compiler.py:114-138: the loop of `flatten` for one node: its scaffold and its connections. -/
def flattenNode [Zero K] (h : SHeap K) (v : ℕ) : Scaffold K × List (PlugId × PlugId) :=
  let ps := (h.prev v).zipIdx
  (⟨h.op v, ps.map (fun x => .inp v x.2), .out v, h.data v⟩,
   ps.map (fun x => (.out x.1, .inp v x.2)))

/-- compiler.py:111-138 `flatten`. -/
def flatten [Zero K] (h : SHeap K) (limit root : ℕ) :
    Except PyErr (List (Scaffold K) × List (PlugId × PlugId) × PlugId) :=
  match trace h limit root with
  | .error e => .error e
  | .ok (nodes, _) =>
    .ok (nodes.map (fun v => (flattenNode h v).1), nodes.flatMap (fun v => (flattenNode h v).2), .out root)

section
variable [Field K] [LinearOrder K]

/-- compiler.py:142: the default argument `encoder=DataEncoder()` (encoders.py:2: Tmin=10.0, Tcod=100.0). -/
def defaultEncoder : Encoder K := ⟨10, 100⟩

/-- compiler.py:61,64: the attributes of `InjectorNetwork`. -/
structure InjPorts where (mod injectPlus injectMinus : ℕ)

/-- compiler.py:53-66 `InjectorNetwork.__init__`. -/
def injectorNetwork (name : Option String) : Build K InjPorts := do
  let m ← newModule .injector name
  let p ← addStd m "inject_input_plus"
  let n ← addStd m "inject_input_minus"
  return ⟨m, p, n⟩

/-- compiler.py:182: what `spawn_stick_module` returns: module, input headers, output header. -/
structure Spawned where
  mod : ℕ
  ins : List Header
  out : Header

/-- compiler.py:141-182 `spawn_stick_module` (called with the default encoder, line 192; the debug field
`additional_info` is not modelled).  Operations without a network raise a plain Exception. -/
def spawn (op : OpType) (norm : K) : Except PyErr (Build K Spawned) :=
  match op with
  | .add => .ok do
      let m ← adderNetwork defaultEncoder (some "adder_mod")
      return ⟨m.mod, [⟨m.inputPlus.getD 0 0, m.inputMinus.getD 0 0⟩, ⟨m.inputPlus.getD 1 0, m.inputMinus.getD 1 0⟩],
        ⟨m.outputPlus, m.outputMinus⟩⟩
  | .load => .ok do
      let m ← injectorNetwork (some "injector_mod")
      return ⟨m.mod, [], ⟨m.injectPlus, m.injectMinus⟩⟩
  | .mul => .ok do
      let m ← signedMultiplierNormNetwork defaultEncoder norm (some "mul_norm_mod")
      return ⟨m.mod, [⟨m.input1Plus, m.input1Minus⟩, ⟨m.input2Plus, m.input2Minus⟩], ⟨m.outputPlus, m.outputMinus⟩⟩
  | .neg => .ok do
      let m ← signFlipperNetwork (some "inv_mod")
      return ⟨m.mod, [⟨m.inpPlus, m.inpMinus⟩], ⟨m.outpPlus, m.outpMinus⟩⟩
  | _ => .error .exception

/-- compiler.py:198-202: assigning the headers to the plugs. -/
def assignPlugs (pl : Plugs) (op : Scaffold K) (sp : Spawned) : Plugs :=
  Function.update ((op.inps.zip sp.ins).foldl (fun d x => Function.update d x.1 (some x.2)) pl) op.outp (some sp.out)

/-- compiler.py:185-202 `fill_op_scafold` followed by `net.add_subnetwork(mod)` (lines 208-211). -/
def fillOp (net : ℕ) (norm : K) (st : World K × Plugs) (op : Scaffold K) : Except PyErr (World K × Plugs) :=
  match spawn op.optype norm with
  | .error e => .error e
  | .ok b =>
    let r := b st.1
    if op.inps.length = r.1.ins.length then
      .ok ((addSubnetwork net r.1.mod r.2).2, assignPlugs st.2 op r.1)
    else .error .assertionError

/-- compiler.py:205-213 `instantiate_stick_modules`. -/
def instantiateModules (ops : List (Scaffold K)) (net : ℕ) (norm : K) (st : World K × Plugs) :
    Except PyErr (World K × Plugs) := ops.foldlM (fillOp net norm) st

/-- compiler.py:223-228: one connection. -/
def wireOne (pl : Plugs) (w : World K) (c : PlugId × PlugId) : World K :=
  match pl c.1, pl c.2 with
  | some a, some b => (connect a.minus b.minus .V cwe cTsyn (connect a.plus b.plus .V cwe cTsyn w).2).2
  | _, _ => w

/-- compiler.py:216-230 `wire_modules`. -/
def wireModules (conns : List (PlugId × PlugId)) (pl : Plugs) (w : World K) : World K :=
  conns.foldl (wireOne pl) w

/-- compiler.py:233-239 `build_stick_net`: the enclosing module, the world and the plugs. -/
def buildStickNet (ops : List (Scaffold K)) (conns : List (PlugId × PlugId)) (norm : K) (w : World K) :
    Except PyErr (ℕ × World K × Plugs) :=
  let m := newModule .plain (some "enclosing_module") w
  match instantiateModules ops m.1 norm (m.2, fun _ => none) with
  | .error e => .error e
  | .ok (w1, pl) => .ok (m.1, wireModules conns pl w1, pl)

/-- compiler.py:18-30: the fields of `InputTrigger`. -/
structure Trigger (K : Type*) where
  value : K
  neuron : ℕ

/-- compiler.py:18-30 `InputTrigger.__init__`. -/
def mkTrigger (value norm : K) (hd : Header) : Except PyErr (Trigger K) :=
  if norm = 0 then .error .zeroDivision
  else if ¬ (value / norm ≤ 1) then .error .assertionError
  else if ¬ (norm ≤ 100) then .error .assertionError
  else .ok ⟨|value| / norm, if 0 ≤ value then hd.plus else hd.minus⟩

/-- compiler.py:242-250 `get_input_triggers`. -/
def getInputTriggers (ops : List (Scaffold K)) (norm : K) (pl : Plugs) : Except PyErr (List (Trigger K)) :=
  ops.foldlM (fun ts op =>
    if op.optype = .load then
      match pl op.outp with
      | some hd =>
        match mkTrigger op.value norm hd with
        | .error e => .error e
        | .ok t => .ok (ts ++ [t])
      | none => .ok ts
    else .ok ts) []

/-- compiler.py:33-38 `OutputReader`. -/
structure Reader (K : Type*) where
  plus : ℕ
  minus : ℕ
  norm : K

/-- compiler.py:253-257 `get_output_reader`. -/
def getOutputReader (pl : Plugs) (p : PlugId) (norm : K) : Option (Reader K) :=
  (pl p).map (fun hd => ⟨hd.plus, hd.minus, norm⟩)

/-- compiler.py:41-50 `ExecutionPlan`. -/
structure Plan (K : Type*) where
  net : ℕ
  triggers : List (Trigger K)
  reader : Reader K

/-- compiler.py:260-277 `compile_computation(root, max_range)` in the world `w`; `limit` is Python's
recursion limit (for `trace`). -/
def compileComputation (h : SHeap K) (limit root : ℕ) (r : K) (w : World K) : Except PyErr (Plan K × World K) :=
  if ¬ (r ≤ 100) then .error .assertionError
  else
    match flatten h limit root with
    | .error e => .error e
    | .ok (ops, conns, outPlug) =>
      match buildStickNet ops conns r w with
      | .error e => .error e
      | .ok (net, w', pl) =>
        match getInputTriggers ops r pl with
        | .error e => .error e
        | .ok ts =>
          match getOutputReader pl outPlug r with
          | none => .error .exception
          | some rd => if ts.length = 0 then .error .exception else .ok (⟨net, ts, rd⟩, w')

/-- simulator.py:34-50 `Simulator.init_with_plan`: a new simulator on `plan.net`, then one
`apply_input_value` (with `t0 = 0`) per trigger. -/
def initWithPlan (H : EventHeap K) (enc : Encoder K) (w : World K) (nst : ℕ → NState K) (plan : Plan K) :
    Except PyErr (Net K × Sim K) :=
  match w.neurons plan.net with
  | .error e => .error e
  | .ok ns =>
    match Sim.calls H (w.net ns) enc (Sim.init (w.net ns) nst)
      (plan.triggers.map (fun t => Call.value t.value t.neuron 0)) with
    | .error e => .error e
    | .ok s => .ok (w.net ns, s)

end
end Axon
