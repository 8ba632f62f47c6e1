import Verif.Model.Simulator
import Mathlib.Algebra.Order.Floor.Defs
import Mathlib.Logic.Function.Basic
import Mathlib.Data.List.Basic

/-!
# The predictive simulator (axon_sdk/predictive_simulator.py)

`exp` stands for `math.exp` (any function; theorems that need more say what they need).
The visualisation (lines 147-157) and the demo under `__main__` (160-172) are not modelled.
`voltage_log` is created (line 34, 40) and never written, so it is left out.
-/
namespace Axon
variable {K : Type*}

/-- predictive_simulator.py:24-44: the mutable fields of `PredSimulator` and of the neuron objects
it drives.  `last` is the neurons' `_last_synapse_time` (elements.py:112), `poss` is
`_possible_spike_events_for`, `cnt` is `_processed_synapses_log` (a dictionary with five keys),
`nextId` is `UniqueEvent._counter` (events.py:52). -/
structure PSim (K : Type*) where
  queue : CQueue K
  nextId : ℕ
  nst : ℕ → NState K
  last : ℕ → K
  poss : ℕ → Option (Option (UEvent K))
  spikeLog : ℕ → Option (List K)
  cnt : SynKind → Option ℕ
  finished : Bool

/-- Everything a run depends on that it does not modify: the `heapq`, `math.exp`, the network, the
encoder and `dt` (predictive_simulator.py:24-26). -/
structure PEnv (K : Type*) [LinearOrder K] where
  H : TimeHeap K
  exp : K → K
  net : Net K
  enc : Encoder K
  dt : K

section
variable [Field K] [LinearOrder K] [FloorRing K]

/-- predictive_simulator.py:36 `self._max_steps = int(500 / dt)`; `int` truncates towards zero. -/
def maxSteps (dt : K) : ℤ := if 0 ≤ (500 : K) / dt then ⌊(500 : K) / dt⌋ else ⌈(500 : K) / dt⌉

end

/-- predictive_simulator.py:44: the five keys of the counter dictionary. -/
def initCnt : SynKind → Option ℕ
  | .V | .ge | .gf | .gate => some 0
  | .other s => if s = "gm" then some 0 else none

/-- predictive_simulator.py:21-44 `PredSimulator.__init__` on neurons with the present states `nst`,
`last` and event counter `nextId`; `dt = 0` raises at line 36. -/
def PSim.init [LinearOrder K] [Zero K] (E : PEnv K) (nst : ℕ → NState K) (last : ℕ → K)
    (nextId : ℕ) : Except PyErr (PSim K) :=
  if E.dt = 0 then .error .zeroDivision
  else .ok
    { queue := CQueue.empty
      nextId := nextId
      nst := nst
      last := last
      poss := fun n => if n ∈ E.net.neurons then some none else none
      spikeLog := fun n => if n ∈ E.net.neurons then some [] else none
      cnt := initCnt
      finished := false }

section
variable [LinearOrder K]

/-- events.py:103-108 through predictive_simulator.py:60,72,89: a new event object (fresh `id`,
events.py:59) put into the queue. -/
def PSim.push (H : TimeHeap K) (st : PSim K) (t : K) (pl : UPayload K) : PSim K :=
  { st with queue := st.queue.add H ⟨st.nextId, t, pl⟩, nextId := st.nextId + 1 }

/-- predictive_simulator.py:56-60 `apply_input_spike`: a `V` hit of weight `Vt` at time `t`. -/
def PSim.applyInputSpike (E : PEnv K) (st : PSim K) (n : ℕ) (t : K) : PSim K :=
  st.push E.H t (.hit n .V (E.net.par n).Vt)

/-- predictive_simulator.py:46-54 `apply_input_value`; note that `t0` is not used (line 54). -/
def PSim.applyInputValue [Add K] [Mul K] [Zero K] [One K] (E : PEnv K) (st : PSim K) (v : K) (n : ℕ)
    (_t0 : K) : Except PyErr (PSim K) :=
  if ¬ (0 ≤ v ∧ v ≤ 1) then .error .valueError
  else
    match E.enc.encodeValue v with
    | .error e => .error e
    | .ok pr => .ok ((st.applyInputSpike E n pr.1).applyInputSpike E n pr.2)

/-- predictive_simulator.py:46-60: one injection call of the user (`Call` is shared with the stepped
simulator: `spike n t` is `apply_input_spike`, `value v n t0` is `apply_input_value`). -/
def PSim.call [Add K] [Mul K] [Zero K] [One K] (E : PEnv K) (st : PSim K) :
    Call K → Except PyErr (PSim K)
  | .spike n t => .ok (st.applyInputSpike E n t)
  | .value v n t0 => st.applyInputValue E v n t0

/-- predictive_simulator.py:46-60: a sequence of injection calls, stopping at the first exception. -/
def PSim.calls [Add K] [Mul K] [Zero K] [One K] (E : PEnv K) (st : PSim K) (cs : List (Call K)) :
    Except PyErr (PSim K) := cs.foldlM (fun st c => st.call E c) st

end

/-- predictive_simulator.py:98-107: the bisection loop, `i` iterations, on the test `P mid`
(`V >= Vt` at step `mid`); `//` is floor division. -/
def bisect (P : ℤ → Bool) : ℕ → ℤ × ℤ → ℤ × ℤ
  | 0, r => r
  | i + 1, (lo, hi) =>
    let mid := (lo + hi) / 2
    bisect P i (if P mid then (lo, mid) else (mid + 1, hi))

section
variable [Field K] [LinearOrder K]

/-- predictive_simulator.py:94,101-103: the voltage the engine expects `m` steps from now. -/
def predVoltage (exp : K → K) (p : Params K) (s : NState K) (dt : K) (m : ℤ) : K :=
  let t := (m : K) * dt
  let gf := if s.gate ≠ 0 then s.gf else 0
  s.V + (s.ge / p.tm) * t + (s.gate * gf * p.tf / p.tm) * (1 - exp (-t / p.tf))

variable [FloorRing K]

/-- predictive_simulator.py:91-108 `_predict_spike_steps_fixed`, returning the step count `lo`
(Python returns `lo * dt`, see `handleHit`).  Zero time constants raise at lines 102-103. -/
def predictSteps (exp : K → K) (p : Params K) (s : NState K) (dt : K) : Except PyErr (Option ℤ) :=
  if p.tf = 0 ∨ p.tm = 0 then .error .zeroDivision
  else
    let lo := (bisect (fun m => decide (p.Vt ≤ predVoltage exp p s dt m)) 64 (0, maxSteps dt)).1
    .ok (if lo < maxSteps dt then some lo else none)

/-- predictive_simulator.py:81-89 `_propagate_spikes_from`. -/
def PSim.propagate (E : PEnv K) (st : PSim K) (t : K) (n : ℕ) : PSim K :=
  (E.net.out n).foldl (fun st s => st.push E.H (t + s.delay) (.hit s.post s.kind s.weight)) st

/-- predictive_simulator.py:119-123: one predicted spike of the batch. -/
def PSim.handleSpike (E : PEnv K) (st : PSim K) (t : K) (n : ℕ) : Except PyErr (PSim K) :=
  let st1 : PSim K := { st with nst := Function.update st.nst n (NState.reset (E.net.par n)) }
  let st2 := st1.propagate E t n
  let st3 : PSim K := { st2 with poss := Function.update st2.poss n (some none) }
  match st3.spikeLog n with
  | none => .error .keyError
  | some l => .ok { st3 with spikeLog := Function.update st3.spikeLog n (some (l ++ [t])) }

/-- predictive_simulator.py:75-79, 126-127: cancel the pending prediction of `n`. -/
def PSim.dequeue (st : PSim K) (n : ℕ) : Except PyErr (PSim K) :=
  match st.poss n with
  | none => .error .keyError
  | some none => .ok { st with poss := Function.update st.poss n (some none) }
  | some (some e) => .ok { st with queue := st.queue.remove e
                                   poss := Function.update st.poss n (some none) }

/-- predictive_simulator.py:125-143: one hit of the batch. -/
def PSim.handleHit (E : PEnv K) (st : PSim K) (t : K) (n : ℕ) (k : SynKind) (w : K) :
    Except PyErr (PSim K) :=
  match st.dequeue n with
  | .error e => .error e
  | .ok st1 =>
    match receivePred E.exp (E.net.par n) (st1.nst n) (st1.last n) k w t with
    | .error e => .error e
    | .ok (s, l) =>
      let st2 : PSim K := { st1 with nst := Function.update st1.nst n s
                                     last := Function.update st1.last n l }
      match predictSteps E.exp (E.net.par n) s E.dt with
      | .error e => .error e
      | .ok r =>
        match st2.cnt k with
        | none => .error .keyError
        | some c =>
          let st3 : PSim K := { st2 with cnt := Function.update st2.cnt k (some (c + 1)) }
          match r with
          | none => .ok st3
          | some m =>
            let ev : UEvent K := ⟨st3.nextId, t + (m : K) * E.dt, .predicted n⟩
            let st4 := st3.push E.H ev.time ev.payload
            .ok { st4 with poss := Function.update st4.poss n (some (some ev)) }

/-- predictive_simulator.py:116,119-123: the predicted spikes of a batch; other events are skipped
(they are filtered out by line 116). -/
def PSim.spikePhase (E : PEnv K) (st : PSim K) (e : UEvent K) : Except PyErr (PSim K) :=
  match e.payload with
  | .predicted n => st.handleSpike E e.time n
  | .hit _ _ _ => .ok st

/-- predictive_simulator.py:117,125-143: the hits of a batch. -/
def PSim.hitPhase (E : PEnv K) (st : PSim K) (e : UEvent K) : Except PyErr (PSim K) :=
  match e.payload with
  | .predicted _ => .ok st
  | .hit n k w => st.handleHit E e.time n k w

/-- predictive_simulator.py:115-143: one iteration of the `while` loop; the batch is returned only
for the statements about it. -/
def PSim.iter (E : PEnv K) (st : PSim K) : Except PyErr (List (UEvent K) × PSim K) :=
  match st.queue.pop E.H with
  | .error e => .error e
  | .ok (evs, q) =>
    match evs.foldlM (PSim.spikePhase E) { st with queue := q } with
    | .error e => .error e
    | .ok st1 =>
      match evs.foldlM (PSim.hitPhase E) st1 with
      | .error e => .error e
      | .ok st2 => .ok (evs, st2)

/-- predictive_simulator.py:114-143: the `while len(queue) > 0` loop, observed for at most `fuel`
iterations; `none` means that it has not ended by then. -/
def PSim.loop (E : PEnv K) : ℕ → PSim K → Option (Except PyErr (PSim K))
  | fuel, st =>
    match st.queue.len with
    | .error e => some (.error e)
    | .ok 0 => some (.ok st)
    | .ok (_ + 1) =>
      match fuel with
      | 0 => none
      | fuel + 1 =>
        match st.iter E with
        | .error e => some (.error e)
        | .ok (_, st') => PSim.loop E fuel st'

/-- predictive_simulator.py:110-145 `simulate`, observed for at most `fuel` loop iterations. -/
def PSim.simulate (E : PEnv K) (fuel : ℕ) (st : PSim K) : Option (Except PyErr (PSim K)) :=
  if st.finished then some (.error .valueError)
  else
    match st.loop E fuel with
    | none => none
    | some (.error e) => some (.error e)
    | some (.ok st') => some (.ok { st' with finished := true })

end

/-- usagereport.py:152-160 `report_energy_and_latency_for_simulation`: the four numbers handed to
the estimator (`sim._processed_synapses_log["V" | "ge" | "gf" | "gm"]`). -/
def reportedUpdates (st : PSim K) : Except PyErr (ℕ × ℕ × ℕ × ℕ) :=
  match st.cnt .V, st.cnt .ge, st.cnt .gf, st.cnt (.other "gm") with
  | some a, some b, some c, some d => .ok (a, b, c, d)
  | _, _, _, _ => .error .keyError

/-- usagereport.py:114-125 `report_spike_usage_for_simulation`: the printed total; `keys` enumerates
the dictionary. -/
def reportedSpikes (st : PSim K) (keys : List ℕ) : Except PyErr ℕ :=
  if st.finished = false then .error .valueError
  else .ok ((keys.map (fun n => ((st.spikeLog n).getD []).length)).sum)

end Axon
