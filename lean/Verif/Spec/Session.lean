import Verif.Spec.Dense
import Verif.Model.Networks

/-! # What a user does with a library network, and what a neuron that carries a value looks like -/
namespace Axon.Spec
variable {K : Type*} [Field K] [LinearOrder K] [FloorRing K]

/-- States of newly created neurons. -/
def fresh : ℕ → NState K := fun _ => ⟨0, 0, 0, 0⟩

/-- The user's session: start a `Simulator` with encoder `enc` and step `dt` on module `m` of the world `w`
(whose neurons have not been used yet), perform the injection calls `cs`, call `simulate(T)`. -/
def session (H : EventHeap K) (ord : ℕ → List ℕ → List ℕ) (enc : Encoder K) (dt T : K) (w : World K) (m : ℕ)
    (cs : List (Call K)) : Except PyErr (Sim K) :=
  match w.neurons m with
  | .error e => .error e
  | .ok ns =>
    match (Sim.init (w.net ns) fresh).calls H (w.net ns) enc cs with
    | .error e => .error e
    | .ok st => st.simulate H ord (w.net ns) dt T

/-- The log of a neuron shows exactly two spikes, in steps `p < q`. -/
def Pair (dt : K) (log : Option (List K)) (p q : ℕ) : Prop :=
  p < q ∧ log = some [(p : K) * dt, (q : K) * dt]

/-- The log of a neuron shows exactly one value: two spikes whose distance is that of the encoding of `v`, up
to `ε`. -/
def Carries (enc : Encoder K) (dt ε : K) (log : Option (List K)) (v : K) : Prop :=
  ∃ p q : ℕ, Pair dt log p q ∧ |((q : K) * dt - (p : K) * dt) - (enc.Tmin + v * enc.Tcod)| ≤ ε

/-- What is left of a unit exponential current (time constant 20) after `n` Euler steps of length `dt`. -/
def left (dt : K) (n : ℕ) : K := (1 - dt / 20) ^ n

/-- The neuron exists and has not spiked. -/
def Quiet (log : Option (List K)) : Prop := log = some []

/-- Give the signed value `x` at time `t` to a pair of rails: its magnitude on the rail of its sign. -/
def putSigned (x : K) (plus minus : ℕ) (t : K) : Call K := .value |x| (if x < 0 then minus else plus) t

/-- A pair of rails shows exactly one signed value: the magnitude on the rail of its sign, nothing on the other rail. -/
def CarriesSigned (enc : Encoder K) (dt ε : K) (plus minus : Option (List K)) (x : K) : Prop :=
  Carries enc dt ε (if x < 0 then minus else plus) |x| ∧ Quiet (if x < 0 then plus else minus)

end Axon.Spec
