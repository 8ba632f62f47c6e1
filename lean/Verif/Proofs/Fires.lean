import Verif.Proofs.Train

/-! # How often a neuron fires -/
namespace Axon
open Spec
variable {K : Type*} [Field K] [LinearOrder K] [IsStrictOrderedRing K] [FloorRing K]

/-- Neuron `x` fires `n` times. -/
def Fires (F : ℕ → ℕ → Bool) (x n : ℕ) : Prop := ∃ l : List ℕ, Train F x l ∧ l.Nodup ∧ l.length = n

theorem Train.fires0 {F : ℕ → ℕ → Bool} {x : ℕ} (h : Train F x []) : Fires F x 0 := ⟨_, h, by simp, rfl⟩

theorem Train.fires1 {F : ℕ → ℕ → Bool} {x a : ℕ} (h : Train F x [a]) : Fires F x 1 := ⟨_, h, by simp, rfl⟩

theorem Train.fires2 {F : ℕ → ℕ → Bool} {x a b : ℕ} (h : Train F x [a, b]) (hab : a < b) : Fires F x 2 :=
  ⟨_, h, by simp; omega, rfl⟩

theorem arrC_iff {dt : K} (hdt : 0 < dt) {inj : List (ℕ × K)} {F : ℕ → ℕ → Bool} {x : ℕ} (hi : injTimes inj x = []) (D : K) (i : ℕ) :
    F i x = true ↔ 0 < arrC dt inj F x D (i + dly dt D) := by
  unfold arrC arrivals
  have h0 : (List.countP (fun q : ℕ × K => decide (q.1 = x ∧ arrInj dt q.2 D = i + dly dt D)) inj) = 0 := by
    rw [List.countP_eq_zero]
    intro q hq hc
    have : q.2 ∈ injTimes inj x := by
      simp only [injTimes, List.mem_map, List.mem_filter]
      exact ⟨q, ⟨hq, by simpa using (of_decide_eq_true hc).1⟩, rfl⟩
    rw [hi] at this; simp at this
  show _ ↔ 0 < List.countP (fun q : ℕ × K => decide (q.1 = x ∧ arrInj dt q.2 D = i + dly dt D)) inj + _
  rw [h0, Nat.zero_add, List.countP_pos_iff]
  have hd := one_le_dly dt D
  have he : ∀ j, arrInt dt j D = j + dly dt D := fun j => C14_internal_delay dt hdt j D
  constructor
  · intro h
    exact ⟨i, List.mem_range.mpr (by omega), by simp [h, he]⟩
  · rintro ⟨j, -, hj⟩
    obtain ⟨h1, h2⟩ := of_decide_eq_true hj
    have : j + dly dt D = i + dly dt D := (he j).symm.trans h2
    rw [← show j = i by omega]; exact h1

/-- The spikes of a neuron nobody injects into can be read off from their arrivals. -/
theorem Train.of_arr {dt : K} (hdt : 0 < dt) {inj : List (ℕ × K)} {F : ℕ → ℕ → Bool} {x : ℕ} {D : K} {T A : List ℕ} (hi : injTimes inj x = [])
    (h : Arr dt inj F x D A) (hA : A = T.map (· + dly dt D)) : Train F x T := by
  subst hA
  intro i
  have hd := one_le_dly dt D
  have h1 := h (i + dly dt D)
  have h2 := arrC_iff hdt hi (F := F) D i
  rw [h1] at h2
  rw [h2, List.count_pos_iff, List.mem_map]
  constructor
  · rintro ⟨j, hj, e⟩
    have : j = i := by simpa using e
    exact this ▸ hj
  · intro hm; exact ⟨i, hm, rfl⟩

theorem Fires.of_arr2 {dt : K} (hdt : 0 < dt) {inj : List (ℕ × K)} {F : ℕ → ℕ → Bool} {x : ℕ} {D : K} {c : Bool} {a b : ℕ} (hi : injTimes inj x = [])
    (hab : a < b) (h : Arr dt inj F x D (if c then [a + dly dt D, b + dly dt D] else [])) : Fires F x (bif c then 2 else 0) := by
  cases c
  · exact (Train.of_arr (T := []) hdt hi h rfl).fires0
  · exact (Train.of_arr (T := [a, b]) hdt hi h rfl).fires2 hab

end Axon
