import Verif.Proofs.Silent
import Verif.Proofs.Session

/-! # Neurons driven by V events whose weights are integer multiples of Vt/4 -/
set_option linter.unusedSectionVars false
namespace Axon
open Spec
variable {K : Type*} [Field K] [LinearOrder K] [IsStrictOrderedRing K] [FloorRing K]

/-- Sum of the (integer) weights of the events after `lo` until `i`. -/
def vZ (E : List (ℕ × ℤ)) (lo i : ℕ) : ℤ := (E.map (fun e => if lo < e.1 ∧ e.1 ≤ i then e.2 else 0)).sum

theorem Phi_vZ (dt : K) (E : List (ℕ × ℤ)) (lo i : ℕ) :
    Phi dt 100 (E.map (fun e => (e.1, (e.2 : K) * (5 / 2)))) [] lo i = (vZ E lo i : K) * (5 / 2) := by
  rw [Phi_V]
  unfold vZ
  induction E with
  | nil => simp
  | cons e E ih =>
    simp only [List.map_cons, List.sum_cons, ih]
    push_cast
    rw [add_mul]
    congr 1
    split_ifs <;> simp

theorem vZ_lt (dt : K) (E : List (ℕ × ℤ)) {lo i : ℕ} (h : vZ E lo i < 4) :
    Phi dt 100 (E.map (fun e => (e.1, (e.2 : K) * (5 / 2)))) [] lo i < 10 := by
  rw [Phi_vZ]
  have : (vZ E lo i : K) ≤ 3 := by exact_mod_cast (by omega : vZ E lo i ≤ 3)
  linarith

theorem vZ_ge (dt : K) (E : List (ℕ × ℤ)) {lo i : ℕ} (h : 4 ≤ vZ E lo i) :
    10 ≤ Phi dt 100 (E.map (fun e => (e.1, (e.2 : K) * (5 / 2)))) [] lo i := by
  rw [Phi_vZ]
  have : (4 : K) ≤ (vZ E lo i : K) := by exact_mod_cast h
  linarith

section run
variable {net : Net K} {dt : K} {inj : List (ℕ × K)} {s0 : ℕ → NState K} {S : ℕ → ℕ → NState K}
  {F : ℕ → ℕ → Bool}

/-- Up to step `n` neuron `x` is driven by the V events `E` (weights in units of Vt/4) only. -/
structure VIn (net : Net K) (dt : K) (inj : List (ℕ × K)) (F : ℕ → ℕ → Bool) (n x : ℕ) (E : List (ℕ × ℤ)) : Prop where
  V : InE net dt inj F n x .V (E.map (fun e => (e.1, (e.2 : K) * (5 / 2))))
  ge : InE net dt inj F n x .ge []
  gf : InE net dt inj F n x .gf []
  gate : InE net dt inj F n x .gate []

/-- Builds the event list from the arrivals over each synapse. -/
theorem VIn.of {x n : ℕ} {L : List (Synapse K)} (hL : InS net x L) (LA : List (Synapse K × List ℕ)) (zs : List ℤ)
    (h1 : L = LA.map (·.1)) (hk : ∀ s ∈ L, s.kind = .V) (h2 : LA.map (·.1.weight) = zs.map (fun z : ℤ => (z : K) * (5 / 2)))
    (hA : ∀ p ∈ LA, ArrTo dt inj F n p.1.pre p.1.delay p.2) :
    VIn net dt inj F n x ((List.zip zs LA).flatMap (fun p => p.2.2.map (fun a => (a, p.1)))) := by
  have hne : ∀ (k : SynKind), k ≠ .V → ∀ s ∈ L, s.kind ≠ k := fun k hk' s hs h => hk' (h ▸ hk s hs)
  refine ⟨?_, inE_nil hL .ge (hne _ (by decide)), inE_nil hL .gf (hne _ (by decide)), inE_nil hL .gate (hne _ (by decide))⟩
  have := inE_of (dt := dt) (inj := inj) (F := F) (n := n) hL .V LA (by
    rw [← h1]; exact List.filter_eq_self.mpr (by intro s hs; simp [hk s hs])) hA
  convert this using 1
  unfold evs
  clear h1 hA this
  induction LA generalizing zs with
  | nil => simp
  | cons p LA ih =>
    match zs, h2 with
    | [], h2 => simp at h2
    | z :: zs, h2 =>
      simp only [List.map_cons, List.cons.injEq] at h2
      rw [List.zip_cons_cons, List.flatMap_cons, List.flatMap_cons, List.map_append, ih zs h2.2]
      congr 1
      rw [List.map_map]
      apply List.map_congr_left
      intro a _
      simp [h2.1]

theorem VIn.none (hr : IsRun net dt inj s0 S F) {x n : ℕ} (hx : IsStd net s0 x) {E} (h : VIn net dt inj F n x E)
    (h1 : ∀ i, 1 ≤ i → vZ E 0 i < 4) : TrainTo F n x [] :=
  train_none hr hx h.V h.ge h.gf h.gate (fun i a _ => vZ_lt dt E (h1 i a))

theorem VIn.one (hr : IsRun net dt inj s0 S F) {x n : ℕ} (hx : IsStd net s0 x) {E} (h : VIn net dt inj F n x E) {p : ℕ}
    (hp : 1 ≤ p) (h1 : ∀ i, 1 ≤ i → i < p → vZ E 0 i < 4) (h2 : 4 ≤ vZ E 0 p) (h3 : ∀ i, p < i → vZ E p i < 4) :
    TrainTo F n x [p] :=
  train_one hr hx h.V h.ge h.gf h.gate hp (fun i a b => vZ_lt dt E (h1 i a b)) (vZ_ge dt E h2) (fun i a => vZ_lt dt E (h3 i a))

theorem VIn.two (hr : IsRun net dt inj s0 S F) {x n : ℕ} (hx : IsStd net s0 x) {E} (h : VIn net dt inj F n x E) {p q : ℕ}
    (hp : 1 ≤ p) (hpq : p < q) (h1 : ∀ i, 1 ≤ i → i < p → vZ E 0 i < 4) (h2 : 4 ≤ vZ E 0 p)
    (h3 : ∀ i, p < i → i < q → vZ E p i < 4) (h4 : 4 ≤ vZ E p q) (h5 : ∀ i, q < i → vZ E q i < 4) : TrainTo F n x [p, q] :=
  train_two hr hx h.V h.ge h.gf h.gate hp hpq (fun i a b => vZ_lt dt E (h1 i a b)) (vZ_ge dt E h2)
    (fun i a b => vZ_lt dt E (h3 i a b)) (vZ_ge dt E h4) (fun i a => vZ_lt dt E (h5 i a))

end run

/-- Decides `vZ` inequalities on explicit event lists. -/
macro "vz_omega" : tactic => `(tactic|
  (simp only [vZ, List.zip_cons_cons, List.zip_nil_left, List.zip_nil_right, List.flatMap_cons, List.flatMap_nil, List.map_cons, List.map_nil,
      List.append_nil, List.cons_append, List.nil_append, List.sum_cons, List.sum_nil]
   repeat' (first | omega | split)))

end Axon
