import Verif.Proofs.FloatSeg
import Verif.Model.FloatNets

/-! # The neurons of the library in doubles -/
set_option linter.unusedSectionVars false
namespace Axon
open Spec

abbrev d10 : Double := Fl.of 10
abbrev d5 : Double := Fl.of 5
abbrev dm10 : Double := -Fl.of 10

theorem hitV (V ge w : Double) : addHit ⟨V, ge, 0, 0⟩ (.V, w) = ⟨V + w, ge, 0, 0⟩ := rfl
theorem hitGe (V ge w : Double) : addHit ⟨V, ge, 0, 0⟩ (.ge, w) = ⟨V, ge + w, 0, 0⟩ := rfl

theorem v1 : (0 : Double) + d10 = d10 := by decide +kernel
theorem v2 : (0 : Double) + d5 = d5 := by decide +kernel
theorem v3 : d5 + d5 = d10 := by decide +kernel
theorem v4 : (0 : Double) + dm10 = dm10 := by decide +kernel
theorem v5 : dm10 + d10 = (0 : Double) := by decide +kernel
theorem lt0 : (0 : Double) < stdFl.Vt := by decide +kernel
theorem lt5 : d5 < stdFl.Vt := by decide +kernel
theorem ltm : dm10 < stdFl.Vt := by decide +kernel
theorem le10 : stdFl.Vt ≤ d10 := le_refl _
theorem reset0 : stdFl.Vreset = 0 := rfl

variable {dt : Double} {hits : ℕ → List (SynKind × Double)}

theorem FitsR.of_eq {hits' : ℕ → List (SynKind × Double)} {L : List ℕ} (h : FitsR stdFl dt hits' L) (e : ∀ i, hits i = hits' i) : FitsR stdFl dt hits L := by
  rwa [show hits = hits' from funext e]

theorem FitsR.silent (h : ∀ i, hits i = []) : FitsR stdFl dt hits [] := by
  intro s f hr i
  have := (hr.idle (a := 0) hr.start.1 lt0 i (Nat.zero_le _) (fun j _ _ => h j)).1
  rcases Nat.eq_zero_or_pos i with rfl | hi
  · rw [hr.start.2]; rfl
  · rw [this i hi le_rfl]; rfl

/-- A relay repeats what it receives. -/
theorem FitsR.relay {L : List ℕ} (h0 : 0 ∉ L) (h : ∀ i, hits i = if i ∈ L then [(.V, d10)] else []) : FitsR stdFl dt hits L := by
  intro s f hr
  have key : ∀ i, s i = ⟨0, 0, 0, 0⟩ ∧ f i = decide (i ∈ L) := by
    intro i
    induction i with
    | zero => exact ⟨hr.start.1, by rw [hr.start.2]; simp [h0]⟩
    | succ i ih =>
      by_cases hm : i + 1 ∈ L
      · obtain ⟨-, h2, h3⟩ := hr.seg_fire ih.1 (Turns.one (e := (.V, d10)) (by rw [h, if_pos hm]) (hitV 0 0 _)) 0 (fun j _ _ => by omega)
          (fun j _ _ => by omega) (by rw [climb_rest, v1]; exact le10)
        exact ⟨h3, by rw [show i + 1 = i + 0 + 1 from rfl, h2]; simp [hm]⟩
      · obtain ⟨h1, h2⟩ := hr.idle ih.1 lt0 (i + 1) (by omega) (fun j _ _ => by rw [show j = i + 1 by omega, h, if_neg hm])
        exact ⟨h2, by rw [h1 (i + 1) (by omega) le_rfl]; simp [hm]⟩
  exact fun i => (key i).2

/-- A neuron with half the weight fires at the second of two spikes. -/
theorem FitsR.second {a b : ℕ} (ha : 0 < a) (hab : a < b) (h : ∀ i, hits i = if i = a ∨ i = b then [(.V, d5)] else []) : FitsR stdFl dt hits [b] := by
  intro s f hr
  obtain ⟨q1, s1⟩ := hr.idle (a := 0) hr.start.1 lt0 (a - 1) (Nat.zero_le _) (fun i h1 h2 => by rw [h, if_neg (by omega)])
  obtain ⟨q2, s2⟩ := hr.seg s1 (Turns.one (e := (.V, d5)) (by rw [h, if_pos (by omega)]) (hitV 0 0 _)) (b - a)
    (fun i h1 h2 => by rw [h, if_neg (by omega)]) (fun j _ _ => by rw [climb_rest, v2]; exact lt5)
  have s2' := s2 (by omega)
  rw [climb_rest, v2, show a - 1 + (b - a) = b - 1 by omega] at s2'
  obtain ⟨-, f3, s3⟩ := hr.seg_fire s2' (Turns.one (e := (.V, d5)) (by rw [h, if_pos (by omega)]) (hitV _ 0 _)) 0 (fun j _ _ => by omega)
    (fun j _ _ => by omega) (by rw [climb_rest, v3]; exact le10)
  rw [show b - 1 + 0 + 1 = b by omega] at f3 s3
  intro i
  rcases Nat.lt_or_ge b i with hi | hi
  · rw [(hr.idle s3 lt0 i hi.le (fun j h1 h2 => by rw [h, if_neg (by omega)])).1 i hi le_rfl]; simp; omega
  · rcases Nat.eq_or_lt_of_le hi with rfl | hi
    · rw [f3]; simp
    · have : f i = false := by
        rcases Nat.eq_zero_or_pos i with rfl | h0
        · exact hr.start.2
        · rcases Nat.lt_or_ge i a with h1 | h1
          · exact q1 i h0 (by omega)
          · exact q2 i (by omega) (by omega)
      rw [this]; simp; omega

/-- A neuron that inhibits itself fires at the first of two spikes only. -/
theorem FitsR.first {a b c : ℕ} (ha : 0 < a) (hac : a < c) (hcb : c < b) (h : ∀ i, hits i = if i = a ∨ i = b then [(.V, d10)] else if i = c then [(.V, dm10)] else []) :
    FitsR stdFl dt hits [a] := by
  intro s f hr
  obtain ⟨q1, s1⟩ := hr.idle (a := 0) hr.start.1 lt0 (a - 1) (Nat.zero_le _) (fun i h1 h2 => by rw [h, if_neg (by omega), if_neg (by omega)])
  obtain ⟨-, f2, s2⟩ := hr.seg_fire s1 (Turns.one (e := (.V, d10)) (by rw [h, if_pos (by omega)]) (hitV _ 0 _)) 0 (fun j _ _ => by omega)
    (fun j _ _ => by omega) (by rw [climb_rest, v1]; exact le10)
  rw [show a - 1 + 0 + 1 = a by omega] at f2 s2
  rw [reset0] at s2
  obtain ⟨q3, s3⟩ := hr.idle s2 lt0 (c - 1) (by omega) (fun i h1 h2 => by rw [h, if_neg (by omega), if_neg (by omega)])
  obtain ⟨q4, s4⟩ := hr.seg s3 (Turns.one (e := (.V, dm10)) (by rw [h, if_neg (by omega), if_pos (by omega)]) (hitV _ 0 _)) (b - c)
    (fun i h1 h2 => by rw [h, if_neg (by omega), if_neg (by omega)]) (fun j _ _ => by rw [climb_rest, v4]; exact ltm)
  have s4' := s4 (by omega)
  rw [climb_rest, v4, show c - 1 + (b - c) = b - 1 by omega] at s4'
  have q5 : ∀ i, b - 1 < i → f i = false := by
    intro i hi
    exact (hr.seg s4' (Turns.one (e := (.V, d10)) (by rw [h, if_pos (by omega)]) (hitV _ 0 _)) (i - (b - 1))
      (fun j h1 h2 => by rw [h, if_neg (by omega), if_neg (by omega)]) (fun j _ _ => by rw [climb_rest, v5]; exact lt0)).1 i hi (by omega)
  intro i
  rcases Nat.lt_trichotomy i a with hi | rfl | hi
  · have : f i = false := by
      rcases Nat.eq_zero_or_pos i with rfl | h0
      · exact hr.start.2
      · exact q1 i h0 (by omega)
    rw [this]; simp; omega
  · rw [f2]; simp
  · have : f i = false := by
      rcases Nat.lt_or_ge (b - 1) i with h1 | h1
      · exact q5 i h1
      · rcases Nat.lt_or_ge (c - 1) i with h2 | h2
        · exact q4 i h2 (by omega)
        · exact q3 i hi h2
    rw [this]; simp; omega

/-- A ramp: driven from step `a` on, the neuron fires in the step in which the sum of the increments reaches the threshold. -/
theorem FitsR.ramp {a k : ℕ} {w : Double} (ha : 0 < a) (h : ∀ i, hits i = if i = a then [(.ge, w)] else [])
    (hlow : ∀ j ≤ k, climb (slopeR stdFl dt (0 + w)) 0 j < d10) (hfire : d10 ≤ climb (slopeR stdFl dt (0 + w)) 0 (k + 1)) : FitsR stdFl dt hits [a + k] := by
  intro s f hr
  obtain ⟨q1, s1⟩ := hr.idle (a := 0) hr.start.1 lt0 (a - 1) (Nat.zero_le _) (fun i h1 h2 => by rw [h, if_neg (by omega)])
  obtain ⟨q2, f2, s2⟩ := hr.seg_fire s1 (Turns.one (e := (.ge, w)) (by rw [h, if_pos (by omega)]) (hitGe _ 0 _)) k (fun j _ _ => by rw [h, if_neg (by omega)])
    (fun j _ hj => hlow j hj) hfire
  rw [show a - 1 + k + 1 = a + k by omega] at f2 s2
  intro i
  rcases Nat.lt_trichotomy i (a + k) with hi | rfl | hi
  · have : f i = false := by
      rcases Nat.eq_zero_or_pos i with rfl | h0
      · exact hr.start.2
      · rcases Nat.lt_or_ge (a - 1) i with h1 | h1
        · exact q2 i h1 (by omega)
        · exact q1 i h0 h1
    rw [this]; simp; omega
  · rw [f2]; simp
  · rw [(hr.idle s2 lt0 i hi.le (fun j h1 h2 => by rw [h, if_neg (by omega)])).1 i hi le_rfl]; simp; omega

/-- A store: the drive is on between two arrivals (`a` then `b`), and on again from `c` on; the neuron fires when the sum of all increments reaches
the threshold. -/
theorem FitsR.store {a b c k : ℕ} {u u' w : Double} (ha : 0 < a) (hab : a < b) (hbc : b < c) (hw : 0 + u + u' = 0)
    (h : ∀ i, hits i = if i = a then [(.ge, u)] else if i = b then [(.ge, u')] else if i = c then [(.ge, w)] else [])
    (hlow0 : ∀ j ≤ b - a, climb (slopeR stdFl dt (0 + u)) 0 j < d10)
    (hlow : ∀ j ≤ k, climb (slopeR stdFl dt (0 + w)) (climb (slopeR stdFl dt (0 + u)) 0 (b - a)) j < d10)
    (hfire : d10 ≤ climb (slopeR stdFl dt (0 + w)) (climb (slopeR stdFl dt (0 + u)) 0 (b - a)) (k + 1)) : FitsR stdFl dt hits [c + k] := by
  intro s f hr
  obtain ⟨q1, s1⟩ := hr.idle (a := 0) hr.start.1 lt0 (a - 1) (Nat.zero_le _) (fun i h1 h2 => by rw [h, if_neg (by omega), if_neg (by omega), if_neg (by omega)])
  obtain ⟨q2, s2⟩ := hr.seg s1 (Turns.one (e := (.ge, u)) (by rw [h, if_pos (by omega)]) (hitGe 0 0 _)) (b - a)
    (fun i h1 h2 => by rw [h, if_neg (by omega), if_neg (by omega), if_neg (by omega)]) (fun j _ hj => hlow0 j hj)
  have s2' := s2 (by omega)
  rw [show a - 1 + (b - a) = b - 1 by omega] at s2'
  set V := climb (slopeR stdFl dt (0 + u)) 0 (b - a) with hV
  have hVl : V < d10 := hlow0 _ le_rfl
  obtain ⟨q3, s3⟩ := hr.seg s2' (Turns.one (e := (.ge, u')) (by rw [h, if_neg (by omega), if_pos (by omega)]) (hitGe V _ _)) (c - b)
    (fun i h1 h2 => by rw [h, if_neg (by omega), if_neg (by omega), if_neg (by omega)]) (fun j _ _ => by rw [hw, climb_rest]; exact hVl)
  have s3' := s3 (by omega)
  rw [hw, climb_rest, show b - 1 + (c - b) = c - 1 by omega] at s3'
  obtain ⟨q4, f4, s4⟩ := hr.seg_fire s3' (Turns.one (e := (.ge, w)) (by rw [h, if_neg (by omega), if_neg (by omega), if_pos (by omega)]) (hitGe _ 0 _)) k
    (fun j _ _ => by rw [h, if_neg (by omega), if_neg (by omega), if_neg (by omega)]) (fun j _ hj => hlow j hj) hfire
  rw [show c - 1 + k + 1 = c + k by omega] at f4 s4
  intro i
  rcases Nat.lt_trichotomy i (c + k) with hi | rfl | hi
  · have : f i = false := by
      rcases Nat.eq_zero_or_pos i with rfl | h0
      · exact hr.start.2
      · rcases Nat.lt_or_ge (c - 1) i with h1 | h1
        · exact q4 i h1 (by omega)
        · rcases Nat.lt_or_ge (b - 1) i with h2 | h2
          · exact q3 i h2 (by omega)
          · rcases Nat.lt_or_ge (a - 1) i with h3 | h3
            · exact q2 i h3 (by omega)
            · exact q1 i h0 h3
    rw [this]; simp; omega
  · rw [f4]; simp
  · rw [(hr.idle s4 lt0 i hi.le (fun j h1 h2 => by rw [h, if_neg (by omega), if_neg (by omega), if_neg (by omega)])).1 i hi le_rfl]; simp; omega

/-- A store that is switched on and off in the same step. -/
theorem FitsR.store_none {a c k : ℕ} {w w' : Double} (ha : 0 < a) (hac : a < c) (hw : 0 + w + w' = 0) (hw' : 0 + w' + w = 0)
    (h : ∀ i, hits i = if i = a then [(.ge, w), (.ge, w')] else if i = c then [(.ge, w)] else [])
    (hlow : ∀ j ≤ k, climb (slopeR stdFl dt (0 + w)) 0 j < d10) (hfire : d10 ≤ climb (slopeR stdFl dt (0 + w)) 0 (k + 1)) : FitsR stdFl dt hits [c + k] := by
  intro s f hr
  obtain ⟨q1, s1⟩ := hr.idle (a := 0) hr.start.1 lt0 (a - 1) (Nat.zero_le _) (fun i h1 h2 => by rw [h, if_neg (by omega), if_neg (by omega)])
  obtain ⟨q3, s3⟩ := hr.seg s1 (Turns.two (V' := 0) (ge' := 0) (e := (.ge, w)) (e' := (.ge, w')) (by rw [h, if_pos (by omega)])
      (by rw [hitGe, hitGe, hw]) (by rw [hitGe, hitGe, hw'])) (c - a)
    (fun i h1 h2 => by rw [h, if_neg (by omega), if_neg (by omega)]) (fun j _ _ => by rw [climb_rest]; exact lt0)
  have s3' := s3 (by omega)
  rw [climb_rest, show a - 1 + (c - a) = c - 1 by omega] at s3'
  obtain ⟨q4, f4, s4⟩ := hr.seg_fire s3' (Turns.one (e := (.ge, w)) (by rw [h, if_neg (by omega), if_pos (by omega)]) (hitGe _ 0 _)) k
    (fun j _ _ => by rw [h, if_neg (by omega), if_neg (by omega)]) (fun j _ hj => hlow j hj) hfire
  rw [show c - 1 + k + 1 = c + k by omega] at f4 s4
  intro i
  rcases Nat.lt_trichotomy i (c + k) with hi | rfl | hi
  · have : f i = false := by
      rcases Nat.eq_zero_or_pos i with rfl | h0
      · exact hr.start.2
      · rcases Nat.lt_or_ge (c - 1) i with h1 | h1
        · exact q4 i h1 (by omega)
        · rcases Nat.lt_or_ge (a - 1) i with h3 | h3
          · exact q3 i h3 (by omega)
          · exact q1 i h0 h3
    rw [this]; simp; omega
  · rw [f4]; simp
  · rw [(hr.idle s4 lt0 i hi.le (fun j h1 h2 => by rw [h, if_neg (by omega), if_neg (by omega)])).1 i hi le_rfl]; simp; omega

end Axon
