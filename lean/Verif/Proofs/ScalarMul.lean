import Verif.Proofs.Fires
import Verif.Proofs.Memory
import Verif.Proofs.VTrain

/-! # The scalar multiplier -/
set_option linter.unusedSectionVars false
namespace Axon
open Spec
variable {K : Type*} [Field K] [LinearOrder K] [IsStrictOrderedRing K] [FloorRing K]

theorem reach_factor {enc : Encoder K} {dt f : K} (hf : 0 < f) (h : 0 < enc.Tmax) (hdt : 0 < dt) :
    Reach (f * enc.wacc) dt ⌈enc.Tmax / f / dt⌉₊ := by
  have := reach_of (X := enc.Tmax / f) (dt := dt) (div_pos h hf) hdt
  have e : (10 * 100 / (enc.Tmax / f) : K) = f * enc.wacc := by
    rw [show enc.wacc = (10 * 100 / enc.Tmax : K) from rfl]
    field_simp
  rwa [e] at this

/-- The synapses of a `ScalarMultiplierNetwork`. -/
def smulSyns (f : K) (enc : Encoder K) : List (Synapse K) := (scalarMultiplierNetwork f enc none World.empty).2.syns

section run
variable {net : Net K} {dt : K} {inj : List (ℕ × K)} {s0 : ℕ → NState K} {S : ℕ → ℕ → NState K}
  {F : ℕ → ℕ → Bool}

theorem scal_core_full (hr : IsRun net dt inj s0 S F) (hdt : 0 < dt) {f : K} (hf : 0 < f) {enc : Encoder K} (hT : 0 < enc.Tmax) {x : ℕ}
    (hE : Embeds net s0 inj x (smulSyns f enc) [1, 2, 3, 4, 5]) {a b : ℕ} (hI : Arr dt inj F x 1 [a, b])
    (ha : 1 ≤ a) (hab : a + dly dt 1 ≤ b) {C B m q : ℕ} (hm : ⌈enc.Tmax / f / dt⌉₊ = m)
    (hC : C = a + dly dt (1 + enc.Tmin) + m - 1 + dly dt 1) (hB : B = b + dly dt 2) (hBC : B ≤ C) (hCB : C < B + m)
    (hq : q = ⌈enc.Tmax / dt - f * ((C - B : ℕ) : K)⌉₊) :
    (Train F (x + 5) [a + dly dt (1 + enc.Tmin) + m - 1 + dly dt 2, C + q - 1 + dly dt (1 + enc.Tmin)] ∧ 1 ≤ q) ∧ ∀ k < 4, Fires F (x + 1 + k) 1 := by
  have hRf := reach_factor hf hT hdt
  rw [hm] at hRf
  have hm1 : 1 ≤ m := by
    rw [← hm]; exact Nat.one_le_iff_ne_zero.mpr (Nat.ceil_pos.mpr (div_pos (div_pos hT hf) hdt)).ne'
  have hd := one_le_dly dt (1 : K)
  have hdT := one_le_dly dt (1 + enc.Tmin)
  have hwp : 0 < enc.wacc * dt / 100 := by
    have : 0 < enc.wacc := by rw [show enc.wacc = (10 * 100 / enc.Tmax : K) from rfl]; positivity
    positivity
  have hwT : enc.wacc * dt / 100 * (enc.Tmax / dt) = 10 := by
    rw [show enc.wacc = (10 * 100 / enc.Tmax : K) from rfl]; field_simp
  have t1 : Train F (x + 1) [a] := first_train hr hdt (hE.std 1 (by simp)) (hE.noinj 1 (by simp)) (hE.ins 1 (by simp)) hI ha hab
  have t2 : Train F (x + 2) [b] := last_train hr (by norm_num) (hE.std 2 (by simp)) (hE.ins 2 (by simp)) hI ha (by omega)
  have a1 := t1.arr1 hdt (hE.noinj 1 (by simp)) (1 + enc.Tmin)
  have a2 := t2.arr1 hdt (hE.noinj 2 (by simp)) (2 : K)
  have i3 : InS net (x + 3) [⟨x + 1, x + 3, f * enc.wacc, 1 + enc.Tmin, .ge⟩] := hE.ins 3 (by simp)
  have t3 : Train F (x + 3) [a + dly dt (1 + enc.Tmin) + m - 1] := by
    refine Train.of fun n => ?_
    refine acc_one hr (hE.std 3 (by simp)) i3 (by simp) hRf [(a + dly dt (1 + enc.Tmin), 1)]
      (inE_of i3 .ge [(_, [a + dly dt (1 + enc.Tmin)])] (by rfl) ?_) ?_ ?_ ?_ ?_ ?_
    · intro q hq; simp at hq; subst hq; exact a1.to _
    · simp [evs]
    · omega
    · intro i h1 h2; ramp_omega
    · ramp_omega
    · intro i h1; ramp_omega
  have a3 := fun D => t3.arr1 hdt (hE.noinj 3 (by simp)) D
  have i4 : InS net (x + 4) [⟨x + 3, x + 4, enc.wacc, 1, .ge⟩, ⟨x + 3, x + 4, -(f * enc.wacc), 1, .ge⟩,
      ⟨x + 2, x + 4, f * enc.wacc, 2, .ge⟩] := by
    have := hE.ins 4 (by simp)
    have e : ((insOf (smulSyns f enc) 4).map (Synapse.shift x)) = [⟨x + 3, x + 4, enc.wacc, 1, .ge⟩, ⟨x + 3, x + 4, -(f * enc.wacc), 1, .ge⟩,
      ⟨x + 2, x + 4, f * enc.wacc, 2 * 1, .ge⟩] := rfl
    rwa [e, mul_one] at this
  -- the ramp of acc2
  have hlow : f * enc.wacc * dt / 100 * ((C - B : ℕ) : K) < 10 := by
    have := (hRf ((C - B : ℕ) : ℤ)).not.mpr (by omega)
    push_cast at this
    exact not_le.mp this
  have hqpos : 0 < enc.Tmax / dt - f * ((C - B : ℕ) : K) := by
    have h3 : enc.wacc * dt / 100 * (f * ((C - B : ℕ) : K)) < enc.wacc * dt / 100 * (enc.Tmax / dt) := by
      rw [hwT]; linarith
    have := lt_of_mul_lt_mul_left h3 hwp.le
    linarith
  have hq1 : 1 ≤ q := by
    rw [hq]; exact Nat.one_le_iff_ne_zero.mpr (Nat.ceil_pos.mpr hqpos).ne'
  have hreach : ∀ k : ℕ, 10 ≤ f * enc.wacc * dt / 100 * ((C - B : ℕ) : K) + enc.wacc * dt / 100 * (k : K) ↔ q ≤ k := by
    intro k
    rw [hq, Nat.ceil_le]
    constructor
    · intro h
      have h3 : enc.wacc * dt / 100 * (enc.Tmax / dt - f * ((C - B : ℕ) : K)) ≤ enc.wacc * dt / 100 * (k : K) := by
        rw [mul_sub, hwT]; linarith
      exact le_of_mul_le_mul_left h3 hwp
    · intro h
      have h3 := mul_le_mul_of_nonneg_left h hwp.le
      rw [mul_sub, hwT] at h3
      linarith
  have hPhi : ∀ lo i, lo < B → Phi dt 100 [] [(C, enc.wacc), (C, -(f * enc.wacc)), (B, f * enc.wacc)] lo i =
      if i < B then 0 else if i < C then f * enc.wacc * dt / 100 * ((i - B + 1 : ℕ) : K) else
        f * enc.wacc * dt / 100 * ((C - B : ℕ) : K) + enc.wacc * dt / 100 * ((i - C + 1 : ℕ) : K) := by
    intro lo i hlo
    simp only [Phi, List.map_nil, List.sum_nil, List.map_cons, List.sum_cons, zero_add, add_zero]
    by_cases h1 : i < B
    · rw [if_neg (by omega), if_neg (by omega), if_neg (by omega), if_pos h1]; simp
    · by_cases h2 : i < C
      · rw [if_neg (by omega), if_neg (by omega), if_pos (by omega), if_neg h1, if_pos h2]; ring
      · rw [if_pos (by omega), if_pos (by omega), if_pos (by omega), if_neg h1, if_neg h2]
        rw [show i - B + 1 = (i - C + 1) + (C - B) by omega]
        push_cast
        ring
  have t4 : Train F (x + 4) [C + q - 1] := by
    refine Train.of fun n => ?_
    have hG := inE_of (dt := dt) (inj := inj) (F := F) (n := n) i4 .ge [(_, [C]), (_, [C]), (_, [B])] (by rfl) (by
      intro p hp; simp only [List.mem_cons, List.not_mem_nil, or_false] at hp
      rcases hp with rfl | rfl | rfl
      · rw [hC]; exact (a3 1).to _
      · rw [hC]; exact (a3 1).to _
      · rw [hB]; exact a2.to _)
    refine train_one hr (hE.std 4 (by simp)) (inE_nil i4 .V (by simp)) hG (inE_nil i4 .gf (by simp)) (inE_nil i4 .gate (by simp))
      (p := C + q - 1) (by omega) ?_ ?_ ?_
    · intro i h1 h2
      show Phi dt 100 [] [(C, enc.wacc), (C, -(f * enc.wacc)), (B, f * enc.wacc)] 0 i < 10
      rw [hPhi 0 i (by omega)]
      split_ifs with c1 c2
      · norm_num
      · have := (hRf ((i - B + 1 : ℕ) : ℤ)).not.mpr (by omega)
        push_cast at this ⊢
        exact not_le.mp this
      · rw [← not_le, hreach]; omega
    · show 10 ≤ Phi dt 100 [] [(C, enc.wacc), (C, -(f * enc.wacc)), (B, f * enc.wacc)] 0 (C + q - 1)
      rw [hPhi 0 _ (by omega), if_neg (by omega), if_neg (by omega), hreach]; omega
    · intro i hi
      show Phi dt 100 [] [(C, enc.wacc), (C, -(f * enc.wacc)), (B, f * enc.wacc)] (C + q - 1) i < 10
      simp only [Phi, List.map_nil, List.sum_nil, List.map_cons, List.sum_cons, zero_add, add_zero]
      rw [if_neg (by omega), if_neg (by omega), if_neg (by omega)]
      norm_num
  have a4 := t4.arr1 hdt (hE.noinj 4 (by simp)) (1 + enc.Tmin)
  have i5 : InS net (x + 5) [⟨x + 3, x + 5, 10, 2, .V⟩, ⟨x + 4, x + 5, 10, 1 + enc.Tmin, .V⟩] := by
    have := hE.ins 5 (by simp)
    have e : ((insOf (smulSyns f enc) 5).map (Synapse.shift x)) = [⟨x + 3, x + 5, 10, 2 * 1, .V⟩,
      ⟨x + 4, x + 5, 10, 1 + enc.Tmin, .V⟩] := rfl
    rwa [e, mul_one] at this
  refine ⟨⟨?_, hq1⟩, fun k hk => ?_⟩
  rotate_left
  · have : k = 0 ∨ k = 1 ∨ k = 2 ∨ k = 3 := by omega
    rcases this with rfl | rfl | rfl | rfl
    exacts [t1.fires1, t2.fires1, t3.fires1, t4.fires1]
  refine relay2 hr (hE.std 5 (by simp)) (le_refl 10) (le_refl 10) i5 (a3 2) a4 (by simp; omega) (by simp; omega) ?_
  intro i
  simp

theorem scal_core (hr : IsRun net dt inj s0 S F) (hdt : 0 < dt) {f : K} (hf : 0 < f) {enc : Encoder K} (hT : 0 < enc.Tmax) {x : ℕ}
    (hE : Embeds net s0 inj x (smulSyns f enc) [1, 2, 3, 4, 5]) {a b : ℕ} (hI : Arr dt inj F x 1 [a, b])
    (ha : 1 ≤ a) (hab : a + dly dt 1 ≤ b) {C B m q : ℕ} (hm : ⌈enc.Tmax / f / dt⌉₊ = m)
    (hC : C = a + dly dt (1 + enc.Tmin) + m - 1 + dly dt 1) (hB : B = b + dly dt 2) (hBC : B ≤ C) (hCB : C < B + m)
    (hq : q = ⌈enc.Tmax / dt - f * ((C - B : ℕ) : K)⌉₊) :
    Train F (x + 5) [a + dly dt (1 + enc.Tmin) + m - 1 + dly dt 2, C + q - 1 + dly dt (1 + enc.Tmin)] ∧ 1 ≤ q :=
  (scal_core_full hr hdt hf hT hE hI ha hab hm hC hB hBC hCB hq).1

end run
end Axon
