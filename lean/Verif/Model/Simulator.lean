import Verif.Model.Elements
import Verif.Model.Encoder
import Mathlib.Algebra.Order.Floor.Defs
import Mathlib.Logic.Function.Basic
import Mathlib.Data.List.Dedup

/-!
# The time-stepped simulator (axon_sdk/simulator.py)

Parameters of the model that stand for things outside /repo:
* `H : EventHeap K` – the `heapq` implementation;
* `ord : ℕ → List ℕ → List ℕ` – the order in which Python iterates the set `neurons_to_simulate`
  in step `i`; theorems assume only that it is a permutation (`SetOrder`).
-/
namespace Axon
variable {K : Type*}

/-- simulator.py:23-32: the mutable fields of `Simulator`, together with the states of all neuron
objects (which Python stores in the neurons themselves).  Dictionaries are partial functions keyed
by the neuron's identity instead of its uid string (uids are injective, `C08`).
`cnt` is `processed_syn_per_type`. -/
structure Sim (K : Type*) where
  queue : List (Event K)
  nst : ℕ → NState K
  spikeLog : ℕ → Option (List K)
  voltLog : ℕ → Option (List (K × ℕ))
  cnt : SynKind → ℕ

/-- simulator.py:19-32 `Simulator.__init__` on neurons whose present states are `nst`
(the constructor does not touch neuron states). -/
def Sim.init (net : Net K) (nst : ℕ → NState K) : Sim K where
  queue := []
  nst := nst
  spikeLog := fun n => if n ∈ net.neurons then some [] else none
  voltLog := fun n => if n ∈ net.neurons then some [] else none
  cnt := fun _ => 0

/-- simulator.py:137-140: append to the neuron's list, or start one if there is none. -/
def appendLog (o : Option (List K)) (t : K) : Option (List K) :=
  match o with
  | some l => some (l ++ [t])
  | none => some [t]

/-- simulator.py:136-140 `_log_spike_occurrence`. -/
def Sim.logSpike (st : Sim K) (n : ℕ) (t : K) : Sim K :=
  { st with spikeLog := Function.update st.spikeLog n (appendLog (st.spikeLog n) t) }

/-- simulator.py:142-145 `_log_voltage_value` (KeyError for a neuron outside the network). -/
def Sim.logVolt (st : Sim K) (n : ℕ) (V : K) (i : ℕ) : Except PyErr (Sim K) :=
  match st.voltLog n with
  | some l => .ok { st with voltLog := Function.update st.voltLog n (some (l ++ [(V, i)])) }
  | none => .error .keyError

section
variable [LinearOrder K] [Add K]

/-- The event sent along a synapse by a spike at time `t`
(simulator.py:63-69, 76-82, 117-123). -/
def synEvent (t : K) (s : Synapse K) : Event K := ⟨t + s.delay, s.post, s.kind, s.weight⟩

/-- simulator.py:63-69 / 76-82 / 117-123: one `add_event` per out-synapse of `n`. -/
def Sim.emit (H : EventHeap K) (net : Net K) (st : Sim K) (n : ℕ) (t : K) : Sim K :=
  { st with queue := (net.out n).foldl (fun q s => addEvent H q (synEvent t s)) st.queue }

/-- simulator.py:71-82 `apply_input_spike`. -/
def Sim.applyInputSpike (H : EventHeap K) (net : Net K) (st : Sim K) (n : ℕ) (t : K) : Sim K :=
  (st.logSpike n t).emit H net n t

/-- simulator.py:52-69 `apply_input_value`. -/
def Sim.applyInputValue [Mul K] [Zero K] [One K] (H : EventHeap K) (net : Net K) (enc : Encoder K)
    (st : Sim K) (v : K) (n : ℕ) (t0 : K) : Except PyErr (Sim K) :=
  if ¬ (0 ≤ v ∧ v ≤ 1) then .error .valueError
  else
    match enc.encodeValue v with
    | .error e => .error e
    | .ok pr =>
      .ok ((((st.logSpike n (t0 + pr.1)).emit H net n (t0 + pr.1)).logSpike n (t0 + pr.2)).emit H net
        n (t0 + pr.2))

/-- simulator.py:97-103: the body of the event loop, carrying `currently_affected_neurons`
(a set; kept here as the list of targets in delivery order). -/
def deliver (acc : Sim K × List ℕ) (e : Event K) : Except PyErr (Sim K × List ℕ) :=
  match receive (acc.1.nst e.neuron) e.kind e.weight with
  | .error err => .error err
  | .ok s => .ok
      ({ acc.1 with nst := Function.update acc.1.nst e.neuron s
                    cnt := Function.update acc.1.cnt e.kind (acc.1.cnt e.kind + 1) },
       acc.2 ++ [e.neuron])

end

section
variable [LinearOrder K] [Add K] [Sub K] [Mul K] [Div K] [Zero K]

/-- simulator.py:128: "internally active" test after update and reset. -/
def NState.active (s : NState K) : Bool := decide (s.ge ≠ 0 ∨ s.gf ≠ 0 ∨ s.gate ≠ 0)

/-- simulator.py:110-129: the body of the neuron loop in step `i` at time `t`, carrying
`newly_active_state_neurons`.  A zero time constant raises ZeroDivisionError (elements.py:66,70). -/
def neuronStep (H : EventHeap K) (net : Net K) (dt t : K) (i : ℕ)
    (acc : Sim K × List ℕ) (n : ℕ) : Except PyErr (Sim K × List ℕ) :=
  let st := acc.1
  let p := net.par n
  if p.tm = 0 ∨ ((st.nst n).gate ≠ 0 ∧ p.tf = 0) then .error .zeroDivision else
  let r := updateAndSpike p dt (st.nst n)
  let st1 : Sim K := { st with nst := Function.update st.nst n r.1 }
  let st2 : Sim K :=
    if r.2 then
      let st' := st1.logSpike n t
      let st'' : Sim K := { st' with nst := Function.update st'.nst n (NState.reset p) }
      st''.emit H net n t
    else st1
  let Vlog := if r.2 then p.Vreset else r.1.V
  match st2.logVolt n Vlog i with
  | .error e => .error e
  | .ok st3 => .ok (st3, if (st3.nst n).active then acc.2 ++ [n] else acc.2)

/-- simulator.py:93-131: one iteration of the outer loop (`i` is the enumerate index, so the time is
`(i+1)*dt`, line 89). -/
def simStep [NatCast K] (H : EventHeap K) (ord : ℕ → List ℕ → List ℕ) (net : Net K) (dt : K) (i : ℕ)
    (acc : Sim K × List ℕ) : Except PyErr (Sim K × List ℕ) :=
  let t := ((i + 1 : ℕ) : K) * dt
  let pop := popEvents H t acc.1.queue
  match pop.1.foldlM deliver ({ acc.1 with queue := pop.2 }, []) with
  | .error e => .error e
  | .ok (st1, affected) =>
    (ord i (affected ++ acc.2).dedup).foldlM (neuronStep H net dt t i) (st1, [])

/-- simulator.py:93-131: the outer loop, `k` iterations starting at index 0. -/
def simLoop [NatCast K] (H : EventHeap K) (ord : ℕ → List ℕ → List ℕ) (net : Net K) (dt : K) :
    ℕ → Sim K × List ℕ → Except PyErr (Sim K × List ℕ)
  | 0, acc => .ok acc
  | k + 1, acc =>
    match simLoop H ord net dt k acc with
    | .error e => .error e
    | .ok acc' => simStep H ord net dt k acc'

end

section
variable [Field K] [LinearOrder K] [FloorRing K]

/-- simulator.py:88 `int(simulation_time / self.dt)` used as the argument of `range`
(negative counts give the empty range). -/
def numSteps (T dt : K) : ℕ := ⌊T / dt⌋.toNat

/-- simulator.py:84-131 `simulate` (the optional visualisation, lines 133-134, is not modelled).
`dt = 0` raises ZeroDivisionError at line 88. -/
def Sim.simulate (H : EventHeap K) (ord : ℕ → List ℕ → List ℕ) (net : Net K) (dt T : K)
    (st : Sim K) : Except PyErr (Sim K) :=
  if dt = 0 then .error .zeroDivision
  else
    match simLoop H ord net dt (numSteps T dt) (st, []) with
    | .error e => .error e
    | .ok r => .ok r.1

end

section
variable [LinearOrder K] [Add K] [Mul K] [Zero K] [One K]

/-- simulator.py:52-82: an injection call of the user: `apply_input_spike(n, t)` or `apply_input_value(v, n, t0)`. -/
inductive Call (K : Type*)
  | spike (n : ℕ) (t : K)
  | value (v : K) (n : ℕ) (t0 : K)

/-- simulator.py:52-82: perform one injection call. -/
def Sim.call (H : EventHeap K) (net : Net K) (enc : Encoder K) (st : Sim K) :
    Call K → Except PyErr (Sim K)
  | .spike n t => .ok (st.applyInputSpike H net n t)
  | .value v n t0 => st.applyInputValue H net enc v n t0

/-- simulator.py:52-82: a sequence of injection calls (stopping at the first exception). -/
def Sim.calls (H : EventHeap K) (net : Net K) (enc : Encoder K) (st : Sim K) (cs : List (Call K)) :
    Except PyErr (Sim K) := cs.foldlM (fun st c => st.call H net enc c) st

end

/-- simulator.py:161-185 `decode_output`; `sim.spike_log.get(uid, [])` is `(log n).getD []`.
`compiler.py` `OutputReader` supplies the two neurons and the normalization. -/
def decodeOutput [Field K] [DecidableEq K] (log : ℕ → Option (List K)) (enc : Encoder K)
    (plus minus : ℕ) (norm : K) : Except PyErr (Option K) :=
  let sp := (log plus).getD []
  let sm := (log minus).getD []
  if 0 < sp.length ∧ 0 < sm.length then .error .valueError
  else match sp, sm with
    | [a, b], _ => if enc.Tcod = 0 then .error .zeroDivision
        else .ok (some (norm * enc.decodeInterval (b - a)))
    | _ :: _, _ => .error .valueError
    | [], [a, b] => if enc.Tcod = 0 then .error .zeroDivision
        else .ok (some (-1 * norm * enc.decodeInterval (b - a)))
    | [], _ :: _ => .error .valueError
    | [], [] => .ok none

/-- simulator.py:188-195 `count_spikes`: the dictionary's keys are enumerated by `keys`. -/
def countSpikes (log : ℕ → Option (List K)) (keys : List ℕ) : ℕ :=
  keys.foldl (fun c n => c + ((log n).getD []).length) 0

/-- simulator.py:110 (`for neuron in neurons_to_simulate`): Python's set iteration order in each step: an arbitrary permutation of the set's elements. -/
def SetOrder (ord : ℕ → List ℕ → List ℕ) : Prop := ∀ i l, (ord i l).Perm l

end Axon
