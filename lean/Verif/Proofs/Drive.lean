import Verif.Proofs.Refine

set_option linter.unusedSectionVars false
namespace Axon
open Spec
variable {K : Type*}

section Sums
variable [Field K]

theorem sum_filter_map {α : Type*} (l : List α) (p : α → Bool) (f : α → K) :
    ((l.filter p).map f).sum = (l.map (fun x => if p x then f x else 0)).sum := by
  induction l with
  | nil => rfl
  | cons a l ih => by_cases h : p a <;> simp [h, ih]

theorem countP_mul {α : Type*} (l : List α) (p : α → Bool) (w : K) :
    ((l.countP p : ℕ) : K) * w = (l.map (fun x => if p x then w else 0)).sum := by
  induction l with
  | nil => simp
  | cons a l ih => by_cases h : p a <;> simp [h, add_mul, ← ih, add_comm]

theorem sum_swap {α β : Type*} (l₁ : List α) (l₂ : List β) (f : α → β → K) :
    (l₁.map (fun a => (l₂.map (fun b => f a b)).sum)).sum
      = (l₂.map (fun b => (l₁.map (fun a => f a b)).sum)).sum := by
  induction l₁ with
  | nil => simp
  | cons a l ih => simp [ih, List.sum_map_add]

theorem sum_single {l : List ℕ} (hnd : l.Nodup) (a : ℕ) (w : K) (Q : ℕ → Prop) [DecidablePred Q]
    (hQ : Q a → a ∈ l) :
    (l.map (fun m => if m = a ∧ Q m then w else 0)).sum = if Q a then w else 0 := by
  induction l with
  | nil =>
    by_cases h : Q a
    · simp at hQ; exact absurd h hQ
    · simp [h]
  | cons b l ih =>
    obtain ⟨hb, hnd⟩ := List.nodup_cons.mp hnd
    by_cases hba : b = a
    · subst hba
      have h0 : (l.map (fun m => if m = b ∧ Q m then w else 0)).sum = 0 := by
        apply List.sum_eq_zero
        intro x hx
        obtain ⟨m, hm, rfl⟩ := List.mem_map.mp hx
        have : m ≠ b := fun h => hb (h ▸ hm)
        simp [this]
      simp only [List.map_cons, List.sum_cons, h0, true_and, add_zero]
    · simp only [List.map_cons, List.sum_cons, hba, false_and, if_false, zero_add]
      apply ih hnd
      intro h
      rcases List.mem_cons.mp (hQ h) with h' | h'
      · exact absurd h'.symm hba
      · exact h'

end Sums

variable [Field K] [LinearOrder K]

theorem evSum_eq (evs : List (Event K)) (n : ℕ) (k : SynKind) :
    evSum evs n k = (evs.map (fun e => if e.neuron = n ∧ e.kind = k then e.weight else 0)).sum := by
  unfold evSum; rw [sum_filter_map]; simp

theorem evSum_append (a b : List (Event K)) (n : ℕ) (k : SynKind) :
    evSum (a ++ b) n k = evSum a n k + evSum b n k := by simp [evSum]

theorem evSum_flatMap {α : Type*} (l : List α) (g : α → List (Event K)) (n : ℕ) (k : SynKind) :
    evSum (l.flatMap g) n k = (l.map (fun a => evSum (g a) n k)).sum := by
  induction l with
  | nil => simp [evSum]
  | cons a l ih => simp [evSum_append, ih]

theorem evSum_out (net : Net K) (m : ℕ) (P : Synapse K → Bool) (t : K) (n : ℕ) (k : SynKind) :
    evSum (((net.out m).filter P).map (fun s => (⟨t + s.delay, s.post, s.kind, s.weight⟩ : Event K))) n k
      = (net.syns.map (fun s => if s.pre = m ∧ P s ∧ s.post = n ∧ s.kind = k then s.weight else 0)).sum := by
  rw [evSum_eq, List.map_map, Net.out, sum_filter_map, sum_filter_map]
  congr 1
  apply List.map_congr_left
  intro s _
  simp only [Function.comp, decide_eq_true_eq]
  by_cases h1 : s.pre = m <;> by_cases h2 : P s <;> simp [h1, h2]

variable [IsStrictOrderedRing K] [FloorRing K]

theorem evSum_due (net : Net K) (dt : K) (inj : List (ℕ × K)) (F : ℕ → ℕ → Bool) (i n : ℕ)
    (k : SynKind) (hF : ∀ j m, F j m → m ∈ net.neurons) :
    evSum (due net dt inj F i) n k = input net dt inj F k n i := by
  unfold due input
  rw [evSum_append, evSum_flatMap, evSum_flatMap, sum_filter_map]
  simp only [evSum_flatMap, evSum_out, arrivals, Nat.cast_add, add_mul, countP_mul]
  have hsplit : (net.syns.map (fun s => if (decide (s.post = n ∧ s.kind = k)) = true then
        (inj.map (fun x => if (decide (x.1 = s.pre ∧ arrInj dt x.2 s.delay = i)) = true then s.weight else 0)).sum +
        ((List.range i).map (fun x => if (decide (F x s.pre = true ∧ arrInt dt x s.delay = i)) = true then s.weight else 0)).sum
        else 0)).sum
      = (net.syns.map (fun s => (inj.map (fun x => if s.pre = x.1 ∧ decide (arrInj dt x.2 s.delay = i) = true ∧ s.post = n ∧ s.kind = k then s.weight else 0)).sum)).sum +
        (net.syns.map (fun s => ((List.range i).map (fun x => (net.neurons.dedup.map (fun m => if F x m = true then (if s.pre = m ∧ decide (arrInt dt x s.delay = i) = true ∧ s.post = n ∧ s.kind = k then s.weight else 0) else 0)).sum)).sum)).sum := by
    rw [← List.sum_map_add]
    congr 1
    apply List.map_congr_left
    intro s _
    have hin : ∀ x, (net.neurons.dedup.map (fun m => if F x m = true then (if s.pre = m ∧ decide (arrInt dt x s.delay = i) = true ∧ s.post = n ∧ s.kind = k then s.weight else 0) else 0)).sum
        = if F x s.pre = true ∧ arrInt dt x s.delay = i ∧ s.post = n ∧ s.kind = k then s.weight else 0 := by
      intro x
      rw [← sum_single (List.nodup_dedup net.neurons) s.pre s.weight
        (fun m => F x m = true ∧ arrInt dt x s.delay = i ∧ s.post = n ∧ s.kind = k)
        (fun h => List.mem_dedup.mpr (hF _ _ h.1))]
      congr 1
      apply List.map_congr_left
      intro m _
      by_cases h1 : F x m = true <;> by_cases h2 : s.pre = m <;> simp [h1, h2]
      · intro h3; exact absurd h3.symm h2
    simp only [hin]
    by_cases hp : s.post = n ∧ s.kind = k
    · simp only [hp, decide_true, if_true, decide_eq_true_eq, and_true, and_self]
      congr 3
      funext x
      congr 1
      simp only [eq_iff_iff, and_congr_left_iff]
      intro _; exact ⟨Eq.symm, Eq.symm⟩
    · have hp' : ∀ P : Prop, ¬ (P ∧ s.post = n ∧ s.kind = k) := fun P h => hp h.2
      simp only [hp, decide_false, Bool.false_eq_true, if_false, and_false]
      simp
  rw [hsplit]
  congr 1
  · rw [sum_swap]
  · rw [sum_swap]
    congr 1
    apply List.map_congr_left
    intro j _
    rw [sum_filter_map, sum_swap]
    congr 1
    apply List.map_congr_left
    intro m _
    by_cases h : F j m = true <;> simp [h]

end Axon
