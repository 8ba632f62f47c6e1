import Verif.Model.Simulator
import Mathlib.Algebra.Order.Floor.Semiring
import Mathlib.Algebra.BigOperators.Group.List.Basic

/-!
# Specification of the time-stepped semantics

A naive description that does not mention queues, heaps, active sets or iteration orders: in every
step every neuron adds the weights arriving in that step, integrates one Euler step, and fires and
resets if it has reached its threshold.  `S i n` is the state of neuron `n` after step `i`,
`F i n` says whether it fired in step `i`; `inj` are the injected spikes (neuron, time).
-/
namespace Axon.Spec
section Basic
variable {K : Type*}

/-- Times of the spikes neuron `n` fires in steps `1..N`. -/
def emitted [Mul K] [NatCast K] (dt : K) (F : ℕ → ℕ → Bool) (N n : ℕ) : List K :=
  ((List.range' 1 N).filter (fun i => F i n)).map (fun i : ℕ => (i : K) * dt)

/-- A network the simulator is meant for: all synapses lead to neurons of the module tree and have
one of the four types, the time constants are non-zero, and neurons rest below threshold. -/
structure WellFormed [Zero K] [LT K] (net : Net K) : Prop where
  target : ∀ s ∈ net.syns, s.post ∈ net.neurons
  kind : ∀ s ∈ net.syns, s.kind = .V ∨ s.kind = .ge ∨ s.kind = .gf ∨ s.kind = .gate
  tm : ∀ n ∈ net.neurons, (net.par n).tm ≠ 0
  tf : ∀ n ∈ net.neurons, (net.par n).tf ≠ 0
  reset : ∀ n ∈ net.neurons, (net.par n).Vreset < (net.par n).Vt

/-- A resting initial state, e.g. the state of newly created neurons. -/
def Resting [Zero K] [LT K] (net : Net K) (s0 : ℕ → NState K) : Prop :=
  ∀ n ∈ net.neurons, (s0 n).V < (net.par n).Vt ∧ (s0 n).ge = 0 ∧ (s0 n).gf = 0 ∧ (s0 n).gate = 0

/-- The spikes an injection call stands for. -/
def callSpikes [Add K] [Mul K] (enc : Encoder K) : Call K → List (ℕ × K)
  | .spike n t => [(n, t)]
  | .value v n t0 => [(n, t0), (n, t0 + enc.Tmin + v * enc.Tcod)]

/-- A call that does not raise: values must be in `[0,1]`. -/
def CallOK [Zero K] [One K] [LE K] : Call K → Prop
  | .spike _ _ => True
  | .value v _ _ => 0 ≤ v ∧ v ≤ 1

end Basic

variable {K : Type*} [Field K] [LinearOrder K] [FloorRing K]

/-- The first step `i ≥ lo` with `x ≤ i * dt` (see `firstStep_spec`). -/
def firstStep (dt : K) (lo : ℕ) (x : K) : ℕ := max lo ⌈x / dt⌉₊

/-- Step in which an injected spike at time `τ` arrives over a synapse with the given delay. -/
def arrInj (dt : K) (τ delay : K) : ℕ := firstStep dt 1 (τ + delay)

/-- Step in which a spike fired in step `j` arrives over a synapse with the given delay: the first
later step at or after `j*dt + delay`. -/
def arrInt (dt : K) (j : ℕ) (delay : K) : ℕ := firstStep dt (j + 1) ((j : K) * dt + delay)

/-- How many spikes arrive over synapse `s` in step `i`. -/
def arrivals (dt : K) (inj : List (ℕ × K)) (F : ℕ → ℕ → Bool) (s : Synapse K) (i : ℕ) : ℕ :=
  inj.countP (fun q => q.1 = s.pre ∧ arrInj dt q.2 s.delay = i) +
  (List.range i).countP (fun j => F j s.pre ∧ arrInt dt j s.delay = i)

/-- Sum of the weights arriving at neuron `n` in step `i` over synapses of type `k`. -/
def input (net : Net K) (dt : K) (inj : List (ℕ × K)) (F : ℕ → ℕ → Bool) (k : SynKind) (n i : ℕ) : K :=
  ((net.syns.filter (fun s => s.post = n ∧ s.kind = k)).map
    (fun s => (arrivals dt inj F s i : K) * s.weight)).sum

/-- One step of one neuron: add the arriving weights, integrate, fire and reset at threshold. -/
def nstep (p : Params K) (dt : K) (s : NState K) (a : SynKind → K) : NState K × Bool :=
  let V := s.V + a .V
  let ge := s.ge + a .ge
  let gf := s.gf + a .gf
  let gate := s.gate + a .gate
  let V' := V + dt * (ge + gate * gf) / p.tm
  if p.Vt ≤ V' then (⟨p.Vreset, 0, 0, 0⟩, true)
  else (⟨V', ge, if gate ≠ 0 then gf - dt * (gf / p.tf) else gf, gate⟩, false)

/-- `S`, `F` is the naive run of `net` on the injected spikes `inj` from the states `s0`. -/
structure IsRun (net : Net K) (dt : K) (inj : List (ℕ × K)) (s0 : ℕ → NState K)
    (S : ℕ → ℕ → NState K) (F : ℕ → ℕ → Bool) : Prop where
  start : ∀ n, S 0 n = s0 n ∧ F 0 n = false
  step : ∀ i, ∀ n ∈ net.neurons,
    (S (i + 1) n, F (i + 1) n) =
      nstep (net.par n) dt (S i n) (fun k => input net dt inj F k n (i + 1))
  outside : ∀ i, ∀ n, n ∉ net.neurons → S i n = s0 n ∧ F i n = false

/-- The events that arrive in step `i`: injected spikes, then spikes fired in steps before `i`. -/
def due (net : Net K) (dt : K) (inj : List (ℕ × K)) (F : ℕ → ℕ → Bool) (i : ℕ) : List (Event K) :=
  inj.flatMap (fun q => ((net.out q.1).filter (fun s => arrInj dt q.2 s.delay = i)).map
    (fun s => ⟨q.2 + s.delay, s.post, s.kind, s.weight⟩)) ++
  (List.range i).flatMap (fun j => (net.neurons.dedup.filter (fun n => F j n)).flatMap (fun n =>
    ((net.out n).filter (fun s => arrInt dt j s.delay = i)).map
      (fun s => ⟨(j : K) * dt + s.delay, s.post, s.kind, s.weight⟩)))

/-- Neurons reachable along synapses (at least one) from a neuron that receives injected spikes. -/
inductive Reached (net : Net K) (inj : List (ℕ × K)) : ℕ → Prop
  | direct {q : ℕ × K} {s : Synapse K} : q ∈ inj → s ∈ net.syns → s.pre = q.1 → Reached net inj s.post
  | step {s : Synapse K} : Reached net inj s.pre → s ∈ net.syns → Reached net inj s.post

/-- Number of events arriving at neuron `n` in step `i`. -/
def hits (net : Net K) (dt : K) (inj : List (ℕ × K)) (F : ℕ → ℕ → Bool) (i n : ℕ) : ℕ :=
  ((due net dt inj F i).filter (fun e => e.neuron = n)).length

end Axon.Spec
