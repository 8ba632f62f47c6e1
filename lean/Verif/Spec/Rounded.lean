import Verif.Spec.Dense

/-!
# Specification of the time-stepped semantics in rounded arithmetic

The Python program computes in IEEE doubles: sums depend on the order of the summands, `(i+1)*dt` and
`t + delay` are rounded.  This specification uses no algebraic law beyond `RoundedArith` (which doubles satisfy as long as nothing
overflows; a zero and its negative count as the same number): the weights arriving in one step are added one after the other, and
arrival steps are defined by comparing the *computed* times.
-/
namespace Axon.Spec
variable {K : Type*} [LinearOrder K] [Add K] [Sub K] [Mul K] [Div K] [Zero K] [NatCast K]

/-- The only laws of arithmetic used: zero is neutral and absorbing, and the computed times `i*dt` do not decrease. -/
class RoundedArith (K : Type*) [LinearOrder K] [Add K] [Mul K] [Div K] [Zero K] [NatCast K] : Prop where
  add_zero : ∀ x : K, x + 0 = x
  mul_zero : ∀ x : K, x * 0 = 0
  zero_div : ∀ x : K, 0 / x = 0
  ticks : ∀ dt : K, 0 < dt → ∀ i j : ℕ, i ≤ j → (i : K) * dt ≤ (j : K) * dt

/-- Step `i` is the first step from `lo` on whose computed time `i*dt` has reached the (computed) time `x`. -/
def FirstAt (dt : K) (lo : ℕ) (x : K) (i : ℕ) : Prop :=
  lo ≤ i ∧ x ≤ (i : K) * dt ∧ ∀ k < i, lo ≤ k → ¬ x ≤ (k : K) * dt

instance (dt : K) (lo : ℕ) (x : K) (i : ℕ) : Decidable (FirstAt dt lo x i) := by unfold FirstAt; infer_instance

/-- The events that arrive in step `i`: one per injected spike and synapse, and one per synapse for every spike fired in an earlier step. -/
def dueR (net : Net K) (dt : K) (inj : List (ℕ × K)) (F : ℕ → ℕ → Bool) (i : ℕ) : List (Event K) :=
  inj.flatMap (fun q => ((net.out q.1).filter (fun s => FirstAt dt 1 (q.2 + s.delay) i)).map
    (fun s => ⟨q.2 + s.delay, s.post, s.kind, s.weight⟩)) ++
  (List.range i).flatMap (fun j => (net.neurons.dedup.filter (fun n => F j n)).flatMap (fun n =>
    ((net.out n).filter (fun s => FirstAt dt (j + 1) ((j : K) * dt + s.delay) i)).map
      (fun s => ⟨(j : K) * dt + s.delay, s.post, s.kind, s.weight⟩)))

/-- One arriving event: its weight is added to the variable its type names. -/
def addEv (s : NState K) (e : Event K) : NState K :=
  match e.kind with
  | .V => { s with V := s.V + e.weight }
  | .ge => { s with ge := s.ge + e.weight }
  | .gf => { s with gf := s.gf + e.weight }
  | .gate => { s with gate := s.gate + e.weight }
  | .other _ => s

/-- One Euler step of a neuron, in the order of operations of the program; fire and reset at threshold. -/
def euler (p : Params K) (dt : K) (s : NState K) : NState K × Bool :=
  let V' := s.V + dt * (s.ge + s.gate * s.gf) / p.tm
  if p.Vt ≤ V' then (⟨p.Vreset, 0, 0, 0⟩, true)
  else (⟨V', s.ge, if s.gate ≠ 0 then s.gf - dt * (s.gf / p.tf) else s.gf, s.gate⟩, false)

/-- `S`, `F` is a naive run (every neuron is updated in every step) in which the events of step `i` are applied one by one in the order `B i`,
an arrangement by time of the events that are due. -/
structure IsRunR (net : Net K) (dt : K) (inj : List (ℕ × K)) (s0 : ℕ → NState K)
    (S : ℕ → ℕ → NState K) (F : ℕ → ℕ → Bool) (B : ℕ → List (Event K)) : Prop where
  start : ∀ n, S 0 n = s0 n ∧ F 0 n = false
  batch : ∀ i, (B (i + 1)).Perm (dueR net dt inj F (i + 1))
  sorted : ∀ i, (B (i + 1)).Pairwise (fun a b => a.time ≤ b.time)
  step : ∀ i, ∀ n ∈ net.neurons,
    (S (i + 1) n, F (i + 1) n) = euler (net.par n) dt (((B (i + 1)).filter (fun e => e.neuron = n)).foldl addEv (S i n))
  outside : ∀ i, ∀ n, n ∉ net.neurons → S i n = s0 n ∧ F i n = false

/-- Whether neuron `n` has anything to do in step `i + 1`: an event arrives, or one of its currents or its gate is not zero. -/
def busy (S : ℕ → ℕ → NState K) (B : ℕ → List (Event K)) (i n : ℕ) : Prop :=
  (∃ e ∈ B (i + 1), e.neuron = n) ∨ (S i n).ge ≠ 0 ∨ (S i n).gf ≠ 0 ∨ (S i n).gate ≠ 0

instance (S : ℕ → ℕ → NState K) (B : ℕ → List (Event K)) (i n : ℕ) : Decidable (busy S B i n) := by unfold busy; infer_instance

end Axon.Spec
