import Verif.Model.Events

/-!
# Neurons, synapses, networks as seen by the simulators
(axon_sdk/primitives/elements.py)
-/
namespace Axon
variable {K : Type*}

/-- elements.py:29-32: the constant parameters of a neuron. -/
structure Params (K : Type*) where
  Vt : K
  tm : K
  tf : K
  Vreset : K
  deriving DecidableEq, Repr

/-- elements.py:35-38: the mutable state of a neuron (`gate` is a number in Python, too). -/
@[ext] structure NState (K : Type*) where
  V : K
  ge : K
  gf : K
  gate : K
  deriving DecidableEq, Repr

/-- elements.py:34-38: state after construction. -/
def NState.fresh [Zero K] (p : Params K) : NState K := ⟨p.Vreset, 0, 0, 0⟩

/-- elements.py:117-121 `ExplicitNeuron.reset` (overwrites all four variables). -/
def NState.reset [Zero K] (p : Params K) : NState K := ⟨p.Vreset, 0, 0, 0⟩

section
variable [LinearOrder K] [Add K] [Sub K] [Mul K] [Div K] [Zero K]

/-- elements.py:54-75 `update_and_spike`: new state and spike flag (the returned voltage is the
`V` of the new state). -/
def updateAndSpike (p : Params K) (dt : K) (s : NState K) : NState K × Bool :=
  let V' := s.V + dt * (s.ge + s.gate * s.gf) / p.tm
  let gf' := if s.gate ≠ 0 then s.gf - dt * (s.gf / p.tf) else s.gf
  (⟨V', s.ge, gf', s.gate⟩, decide (p.Vt ≤ V'))

end

/-- elements.py:77-94 `receive_synaptic_event`. -/
def receive [Add K] (s : NState K) (k : SynKind) (w : K) : Except PyErr (NState K) :=
  match k with
  | .V => .ok { s with V := s.V + w }
  | .ge => .ok { s with ge := s.ge + w }
  | .gf => .ok { s with gf := s.gf + w }
  | .gate => .ok { s with gate := s.gate + w }
  | .other _ => .error .valueError

section
variable [LinearOrder K] [Add K] [Sub K] [Neg K] [Mul K] [Div K] [Zero K] [One K]

/-- elements.py:123-130 `_fast_forward`: new `V` and new `gf` after `interval`.  `exp` stands for
`math.exp`.  (Zero time constants raise; see `receivePred`.) -/
def fastForward (exp : K → K) (p : Params K) (s : NState K) (interval : K) : K × K :=
  let decay := exp (-interval / p.tf)
  let newV := s.V + (s.ge / p.tm) * interval
  let newgf := s.gf * decay
  (if s.gate ≠ 0 then newV + (s.gf * p.tf / p.tm) * (1 - decay) else newV, newgf)

/-- elements.py:132-148 `receive_synaptic_event_pred`: fast-forward to `t0` if time has moved since
the last event (`last` is `_last_synapse_time`), then apply the event.  Returns the new state and
the new `_last_synapse_time`; the debug logs `log_V`, `log_ge` are not modelled. -/
def receivePred (exp : K → K) (p : Params K) (s : NState K) (last : K) (k : SynKind) (w t0 : K) :
    Except PyErr (NState K × K) :=
  if t0 ≠ last ∧ (p.tf = 0 ∨ p.tm = 0) then .error .zeroDivision else
  let r := fastForward exp p s (t0 - last)
  let s1 : NState K := if t0 ≠ last then { s with V := r.1, gf := r.2 } else s
  let last1 := if t0 ≠ last then t0 else last
  match receive s1 k w with
  | .error e => .error e
  | .ok s2 => .ok (s2, last1)

end

/-- elements.py:151-169 `Synapse` (its own uid is not used by the simulators). -/
structure Synapse (K : Type*) where
  pre : ℕ
  post : ℕ
  weight : K
  delay : K
  kind : SynKind
  deriving DecidableEq, Repr

/-- What a simulator sees of a network: the list `net.neurons` (networks.py:41-49), the neuron
parameters, and all synapses in creation order.  Neurons are identified by their creation number
(elements.py:48), which is what Python's object identity and `uid` amount to (see `C08`). -/
structure Net (K : Type*) where
  neurons : List ℕ
  par : ℕ → Params K
  syns : List (Synapse K)

/-- elements.py:110 / networks.py:119: `neuron.out_synapses`, in creation order. -/
def Net.out (net : Net K) (n : ℕ) : List (Synapse K) := net.syns.filter (fun s => s.pre = n)

end Axon
