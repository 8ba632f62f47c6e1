import Verif.Spec.Replay
import Verif.Spec.PredSession

/-! # Using a network again -/
namespace Axon.Spec
variable {K : Type*} [Field K] [LinearOrder K] [FloorRing K]

/-- Before time `t` everything is over: all spikes have been injected, all neurons have spiked, and all their spikes have arrived. -/
def Over (net : Net K) (inj : List (ℕ × K)) (L : ℕ → List K) (t : K) : Prop :=
  (∀ q ∈ inj, q.2 < t) ∧ ∀ n, ∀ y ∈ L n, y < t ∧ ∀ s ∈ net.syns, s.pre = n → y + s.delay < t

/-- A simulation of its own: on a network whose neurons are in the states `nst` (as of `last`), the injection calls `cs` are made and
`simulate` ends in the state `st`. -/
def RunsTo (E : PEnv K) (nst : ℕ → NState K) (last : ℕ → K) (cs : List (Call K)) (st : PSim K) : Prop :=
  ∃ i fuel st0 st1, PSim.init E nst last i = .ok st0 ∧ st0.calls E cs = .ok st1 ∧ st1.simulate E fuel = some (.ok st)

/-- The logged spikes of a neuron. -/
def PSim.spikesOf (st : PSim K) (n : ℕ) : List K := (st.spikeLog n).getD []

/-- Two values given at two times. -/
structure TwoVals (K : Type*) where
  t1 : K
  v1 : K
  t2 : K
  v2 : K

/-- The pair of values is given to the neurons `n1` and `n2`: each as two spikes, the interval of its encoding apart. -/
def TwoVals.given (o : TwoVals K) (enc : Encoder K) (n1 n2 : ℕ) : List (Call K) :=
  [.spike n1 o.t1, .spike n1 (o.t1 + (enc.Tmin + o.v1 * enc.Tcod)), .spike n2 o.t2, .spike n2 (o.t2 + (enc.Tmin + o.v2 * enc.Tcod))]

/-- When the earlier of the two values begins. -/
def TwoVals.first (o : TwoVals K) : K := min o.t1 o.t2

/-- When the later of the two values begins. -/
def TwoVals.last (o : TwoVals K) : K := max o.t1 o.t2

/-- A train of spikes that shows one value after the other, the spikes of each value being the given pair of times. -/
def stream (answers : List (K × K)) : List K := answers.flatMap (fun r => [r.1, r.2])

/-- A value stored at a time and asked for at a later time. -/
structure Stored (K : Type*) where
  t : K
  v : K
  r : K

/-- The value is given to the neuron `n` as two spikes, the interval of its encoding apart, and asked for by a spike of the neuron `m`. -/
def Stored.given (o : Stored K) (enc : Encoder K) (n m : ℕ) : List (Call K) :=
  [.spike n o.t, .spike n (o.t + (enc.Tmin + o.v * enc.Tcod)), .spike m o.r]

/-- A signed value is given to one of the neurons `plus` and `minus`, as two spikes, the interval of the encoding of its magnitude apart, and asked for by a spike of
the neuron `m`. -/
def Stored.givenSigned (o : Stored K) (enc : Encoder K) (plus minus m : ℕ) : List (Call K) :=
  let n := if 0 ≤ o.v then plus else minus
  [.spike n o.t, .spike n (o.t + (enc.Tmin + |o.v| * enc.Tcod)), .spike m o.r]

/-- Which values come out on the two rails of a signed memory.  `p` and `q` are the numbers of values the plus and the minus rail are going to swallow:
every value swallows one on the other rail later on. -/
def comeOut : ℕ → ℕ → List (Stored K) → List (Stored K) × List (Stored K)
  | _, _, [] => ([], [])
  | p, q, o :: os =>
    if 0 ≤ o.v then
      let r := comeOut (p - 1) (q + 1) os
      (if p = 0 then o :: r.1 else r.1, r.2)
    else
      let r := comeOut (p + 1) (q - 1) os
      (r.1, if q = 0 then o :: r.2 else r.2)

/-- The answers show the magnitudes of the stored values, in order, each within `dt`, starting 4 ms after the recall. -/
def SAnswers (enc : Encoder K) (dt : K) (os : List (Stored K)) (answers : List (K × K)) : Prop :=
  List.Forall₂ (fun o r => r.1 = o.r + 4 ∧ |r.2 - r.1 - (enc.Tmin + |o.v| * enc.Tcod)| < dt) os answers

end Axon.Spec
