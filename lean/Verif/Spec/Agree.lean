import Verif.Spec.Replay
import Verif.Spec.PredSession

/-! # Networks on which the two simulators can be compared spike by spike -/
namespace Axon.Spec
variable {K : Type*} [Field K] [LinearOrder K] [FloorRing K]

/-- All synapses act on the potential only, and their delays are a positive whole number of time steps. -/
def PotentialOnly (net : Net K) (dt : K) : Prop :=
  ∀ s ∈ net.syns, s.kind = .V ∧ ∃ k : ℕ, 0 < k ∧ s.delay = k * dt

/-- Neurons at which spikes are injected: nothing else excites them, and their rest and reset potentials are not negative (so that an injected spike,
which adds `Vt` to the potential in the predictive simulator, makes them spike). -/
def PureInput (net : Net K) (s0 : ℕ → NState K) (n : ℕ) : Prop :=
  n ∈ net.neurons ∧ (∀ s ∈ net.syns, s.post ≠ n) ∧ 0 ≤ (s0 n).V ∧ 0 ≤ (net.par n).Vreset

/-- The injected spikes: no spike twice, each at a pure input, each at a whole number of time steps. -/
def GridInputs (net : Net K) (dt : K) (s0 : ℕ → NState K) (inj : List (ℕ × K)) : Prop :=
  inj.Nodup ∧ ∀ q ∈ inj, PureInput net s0 q.1 ∧ ∃ j : ℕ, q.2 = j * dt

/-- A call that both simulators understand alike: values start at time 0 (`PredSimulator` ignores `t0`, see C29). -/
def AtZero : Call K → Prop
  | .spike _ _ => True
  | .value _ _ t0 => t0 = 0

end Axon.Spec
