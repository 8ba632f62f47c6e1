import Verif.Proofs.FloatNet

/-! # Pieces of a neuron's run in rounded arithmetic: constant drive between arrivals -/
set_option linter.unusedSectionVars false
namespace Axon
open Spec

section Generic
variable {K : Type*} [LinearOrder K] [Add K] [Sub K] [Mul K] [Div K] [Zero K] [One K] [NatCast K] [RoundedArith K]

/-- What one step adds to the voltage when `ge` is the drive. -/
def slopeR (p : Params K) (dt ge : K) : K := dt * (ge + 0 * 0) / p.tm

/-- The voltage after `k` additions of `d`. -/
def climb (d : K) (V : K) : ℕ → K
  | 0 => V
  | k + 1 => climb d V k + d

theorem climb_zero (V : K) (k : ℕ) : climb 0 V k = V := by
  induction k with
  | zero => rfl
  | succ k ih => rw [climb, ih, RoundedArith.add_zero]

theorem slopeR_zero (p : Params K) (dt : K) : slopeR p dt 0 = 0 := by
  rw [slopeR, RoundedArith.mul_zero, RoundedArith.add_zero, RoundedArith.mul_zero, RoundedArith.zero_div]

theorem climb_rest (p : Params K) (dt V : K) (k : ℕ) : climb (slopeR p dt 0) V k = V := by rw [slopeR_zero, climb_zero]

theorem euler_low {p : Params K} {dt V ge : K} (h : V + slopeR p dt ge < p.Vt) :
    euler p dt ⟨V, ge, 0, 0⟩ = (⟨V + slopeR p dt ge, ge, 0, 0⟩, false) := by
  have h' : ¬ p.Vt ≤ V + dt * (ge + 0 * 0) / p.tm := not_le.mpr h
  unfold euler
  simp only [if_neg h', ne_eq, not_true, if_false]
  rfl

theorem euler_fire {p : Params K} {dt V ge : K} (h : p.Vt ≤ V + slopeR p dt ge) : euler p dt ⟨V, ge, 0, 0⟩ = (⟨p.Vreset, 0, 0, 0⟩, true) := by
  have h' : p.Vt ≤ V + dt * (ge + 0 * 0) / p.tm := h
  unfold euler
  simp only [if_pos h']

variable {p : Params K} {dt : K} {hits : ℕ → List (SynKind × K)} {s : ℕ → NState K} {f : ℕ → Bool}

/-- What arrives in step `a + 1` turns the state into the given one, whatever the order. -/
def Turns (hits : ℕ → List (SynKind × K)) (a : ℕ) (V ge V' ge' : K) : Prop :=
  ∀ l : List (SynKind × K), l.Perm (hits (a + 1)) → l.foldl addHit ⟨V, ge, 0, 0⟩ = ⟨V', ge', 0, 0⟩

theorem Turns.none {a : ℕ} {V ge : K} (h : hits (a + 1) = []) : Turns hits a V ge V ge := by
  intro l hl; rw [h] at hl; rw [hl.eq_nil]; rfl

theorem Turns.one {a : ℕ} {V ge V' ge' : K} {e : SynKind × K} (h : hits (a + 1) = [e]) (he : addHit ⟨V, ge, 0, 0⟩ e = ⟨V', ge', 0, 0⟩) :
    Turns hits a V ge V' ge' := by
  intro l hl; rw [h] at hl; rw [List.perm_singleton.mp hl]; exact he

theorem Turns.two {a : ℕ} {V ge V' ge' : K} {e e' : SynKind × K} (h : hits (a + 1) = [e, e']) (he : addHit (addHit ⟨V, ge, 0, 0⟩ e) e' = ⟨V', ge', 0, 0⟩)
    (he' : addHit (addHit ⟨V, ge, 0, 0⟩ e') e = ⟨V', ge', 0, 0⟩) : Turns hits a V ge V' ge' := by
  intro l hl; rw [h] at hl
  have hlen := hl.length_eq
  obtain ⟨x, y, rfl⟩ : ∃ x y, l = [x, y] := by
    match l, hlen with
    | [x, y], _ => exact ⟨x, y, rfl⟩
  have : (x = e ∧ y = e') ∨ (x = e' ∧ y = e) := by
    have h1 := List.cons_perm_iff_perm_erase.mp hl
    rcases List.mem_cons.mp h1.1 with rfl | hx
    · left; refine ⟨rfl, ?_⟩
      have := h1.2; simp at this; exact this
    · right
      have hx' := List.mem_singleton.mp hx
      refine ⟨hx', ?_⟩
      by_cases hxe : x = e
      · have := h1.2; rw [hxe] at this; simp at this; rw [this, ← hx', hxe]
      · have := h1.2
        rw [List.erase_cons_tail (by simpa using fun h => hxe h.symm)] at this
        rw [hx'] at this; simp at this; exact this
  rcases this with ⟨rfl, rfl⟩ | ⟨rfl, rfl⟩
  · exact he
  · exact he'

/-- From step `a` on: an arrival in step `a + 1`, then nothing; as long as the voltage stays low, the neuron is silent. -/
theorem NRun.seg (h : NRun p dt hits s f) {a : ℕ} {V ge V' ge' : K} (hs : s a = ⟨V, ge, 0, 0⟩) (ht : Turns hits a V ge V' ge') (k : ℕ)
    (hq : ∀ i, a + 1 < i → i ≤ a + k → hits i = []) (hlow : ∀ j, 1 ≤ j → j ≤ k → climb (slopeR p dt ge') V' j < p.Vt) :
    (∀ i, a < i → i ≤ a + k → f i = false) ∧ (1 ≤ k → s (a + k) = ⟨climb (slopeR p dt ge') V' k, ge', 0, 0⟩) := by
  induction k with
  | zero => exact ⟨by intro i h1 h2; omega, by omega⟩
  | succ k ih =>
    obtain ⟨h1, h2⟩ := ih (fun i hi hi' => hq i hi (by omega)) (fun j hj hj' => hlow j hj (by omega))
    obtain ⟨l, hl, he⟩ := h.step (a + k)
    have hst : l.foldl addHit (s (a + k)) = ⟨climb (slopeR p dt ge') V' k, ge', 0, 0⟩ := by
      rcases Nat.eq_zero_or_pos k with rfl | hk
      · rw [Nat.add_zero, hs]; exact ht l hl
      · rw [hq (a + k + 1) (by omega) (by omega)] at hl
        rw [hl.eq_nil, h2 hk]; rfl
    rw [hst, euler_low (by have := hlow (k + 1) (by omega) le_rfl; exact this)] at he
    obtain ⟨e1, e2⟩ := Prod.mk.inj he
    refine ⟨fun i hi hi' => ?_, fun _ => e1⟩
    rcases Nat.lt_or_ge i (a + k + 1) with hlt | hge
    · exact h1 i hi (by omega)
    · rw [show i = a + k + 1 by omega]; exact e2

/-- The same up to the step in which the voltage reaches the threshold. -/
theorem NRun.seg_fire (h : NRun p dt hits s f) {a : ℕ} {V ge V' ge' : K} (hs : s a = ⟨V, ge, 0, 0⟩) (ht : Turns hits a V ge V' ge') (k : ℕ)
    (hq : ∀ i, a + 1 < i → i ≤ a + (k + 1) → hits i = []) (hlow : ∀ j, 1 ≤ j → j ≤ k → climb (slopeR p dt ge') V' j < p.Vt)
    (hfire : p.Vt ≤ climb (slopeR p dt ge') V' (k + 1)) :
    (∀ i, a < i → i ≤ a + k → f i = false) ∧ f (a + k + 1) = true ∧ s (a + k + 1) = ⟨p.Vreset, 0, 0, 0⟩ := by
  obtain ⟨h1, h2⟩ := h.seg hs ht k (fun i hi hi' => hq i hi (by omega)) hlow
  obtain ⟨l, hl, he⟩ := h.step (a + k)
  have hst : l.foldl addHit (s (a + k)) = ⟨climb (slopeR p dt ge') V' k, ge', 0, 0⟩ := by
    rcases Nat.eq_zero_or_pos k with rfl | hk
    · rw [Nat.add_zero, hs]; exact ht l hl
    · rw [hq (a + k + 1) (by omega) (by omega)] at hl
      rw [hl.eq_nil, h2 hk]; rfl
  rw [hst, euler_fire hfire] at he
  obtain ⟨e1, e2⟩ := Prod.mk.inj he
  exact ⟨h1, e2, e1⟩

/-- Nothing happens at a neuron at rest while nothing arrives. -/
theorem NRun.idle (h : NRun p dt hits s f) {a : ℕ} {V : K} (hs : s a = ⟨V, 0, 0, 0⟩) (hV : V < p.Vt) (b : ℕ) (hab : a ≤ b)
    (hq : ∀ i, a < i → i ≤ b → hits i = []) : (∀ i, a < i → i ≤ b → f i = false) ∧ s b = ⟨V, 0, 0, 0⟩ := by
  rcases Nat.eq_or_lt_of_le hab with rfl | hlt
  · exact ⟨by intro i h1 h2; omega, hs⟩
  obtain ⟨k, rfl⟩ : ∃ k, b = a + (k + 1) := ⟨b - a - 1, by omega⟩
  obtain ⟨h1, h2⟩ := h.seg hs (Turns.none (hq (a + 1) (by omega) (by omega))) (k + 1) (fun i hi hi' => hq i (by omega) hi')
    (fun j _ _ => by rw [climb_rest]; exact hV)
  refine ⟨h1, ?_⟩
  rw [h2 (by omega), climb_rest]

end Generic
end Axon
