import Verif.Model.Predictive

/-!
# Vocabulary for the statements about the predictive simulator
-/
namespace Axon.Spec
variable {K : Type*} [Field K] [LinearOrder K] [FloorRing K]

/-- The states in which `simulate` can be called: a new `PredSimulator` (on neurons in any state)
after any sequence of successful injection calls. -/
def Started (E : PEnv K) (st : PSim K) : Prop :=
  ∃ nst last i st0 cs, PSim.init E nst last i = .ok st0 ∧ st0.calls E cs = .ok st

/-- `Steps E st bs st'`: the `while` loop of `simulate`, started in `st`, has gone through the
batches `bs` and is now in `st'`. -/
inductive Steps (E : PEnv K) (st : PSim K) : List (List (UEvent K)) → PSim K → Prop
  | start : Steps E st [] st
  | step {bs st1 m b st2} : Steps E st bs st1 → st1.queue.len = .ok (m + 1) →
      st1.iter E = .ok (b, st2) → Steps E st (bs ++ [b]) st2

/-- The number of synaptic hits on neuron `n` among processed events. -/
def hitsOn (n : ℕ) (es : List (UEvent K)) : ℕ :=
  es.countP (fun e => match e.payload with | .hit m _ _ => decide (m = n) | _ => false)

/-- The number of spikes of neuron `n` among processed events. -/
def spikesOf (n : ℕ) (es : List (UEvent K)) : ℕ :=
  es.countP (fun e => match e.payload with | .predicted m => decide (m = n) | _ => false)

/-- The number of synaptic hits of type `k` among processed events. -/
def hitsOfKind (k : SynKind) (es : List (UEvent K)) : ℕ :=
  es.countP (fun e => match e.payload with | .hit _ k' _ => decide (k' = k) | _ => false)

/-- The network has no directed cycle of synapses. -/
def Acyclic (net : Net K) : Prop :=
  ∀ n, ¬ Relation.TransGen (fun a b => ∃ s ∈ net.syns, s.pre = a ∧ s.post = b) n n

/-- The synapse types the neurons understand (elements.py:139-148). -/
def Known (k : SynKind) : Prop := k = .V ∨ k = .ge ∨ k = .gf ∨ k = .gate

/-- Every synapse has a known type and ends in a neuron of the network, and the time constants of
the neurons are not zero. -/
structure Runnable (net : Net K) : Prop where
  kind : ∀ s ∈ net.syns, Known s.kind
  post : ∀ s ∈ net.syns, s.post ∈ net.neurons
  consts : ∀ n ∈ net.neurons, (net.par n).tm ≠ 0 ∧ (net.par n).tf ≠ 0

end Axon.Spec
