import Verif.Model.Predictive
import Verif.Spec.Session

/-! # What a user does with a library network in the predictive simulator -/
namespace Axon.Spec
variable {K : Type*} [Field K] [LinearOrder K] [FloorRing K]

/-- The user's session: start a `PredSimulator` with encoder `enc` and step `dt` on module `m` of the world `w`
(whose neurons have not been used yet), perform the injection calls `cs`, call `simulate()`; observed for at most `fuel`
iterations of its loop. -/
def predSession (H : TimeHeap K) (exp : K → K) (enc : Encoder K) (dt : K) (w : World K) (m : ℕ) (cs : List (Call K)) (fuel : ℕ) :
    Option (Except PyErr (PSim K)) :=
  match w.neurons m with
  | .error e => some (.error e)
  | .ok ns =>
    match PSim.init ⟨H, exp, w.net ns, enc, dt⟩ fresh (fun _ => 0) 0 with
    | .error e => some (.error e)
    | .ok st0 =>
      match st0.calls ⟨H, exp, w.net ns, enc, dt⟩ cs with
      | .error e => some (.error e)
      | .ok st1 => st1.simulate ⟨H, exp, w.net ns, enc, dt⟩ fuel

/-- The session ends, without an exception, with spike logs as described by `P`. -/
def PredEnds (H : TimeHeap K) (exp : K → K) (enc : Encoder K) (dt : K) (w : World K) (m : ℕ) (cs : List (Call K))
    (P : (ℕ → Option (List K)) → Prop) : Prop :=
  ∃ N st, (∀ fuel ≥ N, predSession H exp enc dt w m cs fuel = some (.ok st)) ∧ P st.spikeLog

/-- The log shows exactly one value: two spikes whose distance is that of the encoding of `v`, up to `ε`. -/
def Shows (enc : Encoder K) (ε : K) (log : Option (List K)) (v : K) : Prop :=
  ∃ a b, a < b ∧ log = some [a, b] ∧ |b - a - (enc.Tmin + v * enc.Tcod)| ≤ ε

/-- Give the signed value `x` to a pair of rails. -/
def giveSigned (x : K) (plus minus : ℕ) : Call K := putSigned x plus minus 0

/-- A pair of rails shows exactly one signed value: the magnitude on the rail of its sign, nothing on the other rail. -/
def ShowsSigned (enc : Encoder K) (ε : K) (plus minus : Option (List K)) (x : K) : Prop :=
  Shows enc ε (if x < 0 then minus else plus) |x| ∧ Quiet (if x < 0 then plus else minus)

/-- Reasonable conditions for a predictive simulation: `math.exp` does not decrease, the time step is positive and at most 250 ms, and
the search horizon of 500 ms has fewer than `2^64` steps (the bisection of the engine stops after 64 rounds). -/
structure Sane (exp : K → K) (dt : K) : Prop where
  exp : Monotone exp
  pos : 0 < dt
  small : dt ≤ 250
  steps : maxSteps dt < 2 ^ 64

end Axon.Spec
