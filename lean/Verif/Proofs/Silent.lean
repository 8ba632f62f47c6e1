import Verif.Proofs.Gadgets

/-! # Neurons that nothing reaches stay silent -/
set_option linter.unusedSectionVars false
namespace Axon
open Spec
variable {K : Type*} [Field K] [LinearOrder K] [IsStrictOrderedRing K] [FloorRing K]
variable {net : Net K} {dt : K} {inj : List (ℕ × K)} {s0 : ℕ → NState K} {S : ℕ → ℕ → NState K}
  {F : ℕ → ℕ → Bool}

/-- Neuron `x` neither fires nor receives injected spikes. -/
def Mute (inj : List (ℕ × K)) (F : ℕ → ℕ → Bool) (x : ℕ) : Prop := Train F x [] ∧ injTimes inj x = []

theorem Mute.arr (hdt : 0 < dt) {x : ℕ} (h : Mute inj F x) (D : K) : Arr dt inj F x D [] := h.1.arr0 hdt h.2 D

/-- A set of neurons all of whose inputs come from the set itself or from mute neurons is silent. -/
theorem silent_set (hr : IsRun net dt inj s0 S F) (hdt : 0 < dt) (Q : ℕ → Prop)
    (h : ∀ x, Q x → IsStd net s0 x ∧ injTimes inj x = [] ∧ ∃ L, InS net x L ∧ ∀ s ∈ L, Q s.pre ∨ Mute inj F s.pre) :
    ∀ x, Q x → Mute inj F x := by
  have key : ∀ n x, Q x → TrainTo F n x [] := by
    intro n
    induction n with
    | zero => intro x _ i hi; rw [show i = 0 by omega, (hr.start x).2]; simp
    | succ n ih =>
      intro x hx
      obtain ⟨h1, h2, L, hL, hp⟩ := h x hx
      have hin : ∀ k, InE net dt inj F (n + 1) x k [] := by
        intro k i hi
        rw [input_inS hL, evAt_nil]
        apply List.sum_eq_zero
        intro y hy
        obtain ⟨s, hs, rfl⟩ := List.mem_map.mp hy
        have hs' := (List.mem_filter.mp hs).1
        have : ArrTo dt inj F (n + 1) s.pre s.delay [] := by
          rcases hp s hs' with q | q
          · exact (ih s.pre q).arr hdt (by simp) (h s.pre q).2.1 _
          · exact (q.arr hdt _).to _
        rw [this i hi]; simp
      exact train_none hr h1 (hin _) (hin _) (hin _) (hin _) (by intro i _ _; simp [Phi])
  intro x hx
  exact ⟨Train.of fun n => key n x hx, (h x hx).2.1⟩

/-- A neuron all of whose inputs come from mute neurons is silent. -/
theorem silent_one (hr : IsRun net dt inj s0 S F) (hdt : 0 < dt) {x : ℕ} (h1 : IsStd net s0 x) (h2 : injTimes inj x = [])
    {L} (hL : InS net x L) (hp : ∀ s ∈ L, s.pre = x ∨ Mute inj F s.pre) : Mute inj F x :=
  silent_set hr hdt (· = x) (by rintro y rfl; exact ⟨h1, h2, L, hL, hp⟩) x rfl

end Axon
