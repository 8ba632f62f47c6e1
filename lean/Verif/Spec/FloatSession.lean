import Verif.Model.DoubleOps
import Verif.Spec.Session

/-! # A user's session in Python floats -/
namespace Axon.Spec

/-- Start a `Simulator` with encoder `enc` and step `dt` on module `m` of the world `w` (whose neurons have not been used yet), perform the
injection calls `cs`, call `simulate(T)`; every number is a Python float. -/
def sessionFl (H : EventHeap Double) (ord : ℕ → List ℕ → List ℕ) (enc : Encoder Double) (dt T : Double) (w : World Double) (m : ℕ)
    (cs : List (Call Double)) : Except PyErr (Sim Double) :=
  match w.neurons m with
  | .error e => .error e
  | .ok ns =>
    match (Sim.init (w.net ns) (fun _ => ⟨0, 0, 0, 0⟩)).calls H (w.net ns) enc cs with
    | .error e => .error e
    | .ok st => st.simulateFl H ord (w.net ns) dt T

/-- The log of a neuron shows exactly two spikes, and the interval between them decodes to the value `v` up to `ε`. -/
def CarriesFl (enc : Encoder Double) (ε : ℚ) (log : Option (List Double)) (v : ℚ) : Prop :=
  ∃ x y : Double, log = some [x, y] ∧ |(enc.decodeInterval (y - x)).val - v| ≤ ε

end Axon.Spec
