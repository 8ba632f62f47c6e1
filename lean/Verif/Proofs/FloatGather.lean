import Verif.Proofs.FloatV
import Verif.Proofs.FloatRamp
import Verif.Model.FloatNets

/-! # A neuron that waits for `N` equal contributions, in floats -/
set_option linter.unusedSectionVars false
namespace Axon
open Spec

variable {dt : Double}

theorem fold_rep (W : Double) : ∀ (m k : ℕ), (List.replicate m (SynKind.V, W)).foldl addHit ⟨climb W 0 k, 0, 0, 0⟩ = ⟨climb W 0 (k + m), 0, 0, 0⟩
  | 0, k => rfl
  | m + 1, k => by
    rw [List.replicate_succ, List.foldl_cons]
    have : addHit (⟨climb W 0 k, 0, 0, 0⟩ : NState Double) (SynKind.V, W) = ⟨climb W 0 (k + 1), 0, 0, 0⟩ := rfl
    rw [this, fold_rep W m (k + 1)]
    congr 2; omega

/-- How many of the arrivals `A` have come by step `i`. -/
def come (A : List ℕ) (i : ℕ) : ℕ := (A.filter fun a => decide (a ≤ i)).length

theorem come_succ (A : List ℕ) (i : ℕ) : come A (i + 1) = come A i + A.count (i + 1) := by
  induction A with
  | nil => rfl
  | cons a A ih =>
    unfold come at *
    rw [List.filter_cons, List.filter_cons, List.count_cons]
    by_cases h1 : a ≤ i
    · rw [if_pos (by simp; omega), if_pos (by simpa using h1), List.length_cons, List.length_cons, ih, if_neg (by simp; omega)]; omega
    · by_cases h2 : a = i + 1
      · rw [if_pos (by simp; omega), if_neg (by simpa using h1), List.length_cons, ih, if_pos (by simpa using h2)]; omega
      · rw [if_neg (by simp; omega), if_neg (by simpa using h1), ih, if_neg (by simpa using h2)]; omega

theorem come_zero {A : List ℕ} (h : ∀ a ∈ A, 0 < a) : come A 0 = 0 := by
  unfold come
  rw [List.length_eq_zero_iff, List.filter_eq_nil_iff]
  intro a ha
  have := h a ha
  simp; omega

theorem come_lt {A : List ℕ} {M i : ℕ} (hM : M ∈ A) (hi : i < M) : come A i < A.length := by
  unfold come
  refine lt_of_le_of_ne (List.length_filter_le _ _) fun h => ?_
  have := List.length_filter_eq_length_iff.mp h M hM
  simp at this; omega

theorem come_all {A : List ℕ} {M i : ℕ} (hM : ∀ a ∈ A, a ≤ M) (hi : M ≤ i) : come A i = A.length := by
  unfold come
  rw [List.length_filter_eq_length_iff]
  intro a ha
  have := hM a ha
  simp; omega

/-- **A gathering neuron**: it fires once, in the step of the last arrival. -/
theorem FitsR.gather {hits : ℕ → List (SynKind × Double)} {W : Double} {A : List ℕ} {M : ℕ} (hM : M ∈ A) (hmax : ∀ a ∈ A, a ≤ M) (hpos : ∀ a ∈ A, 0 < a)
    (hlow : ∀ m < A.length, (climb W 0 m).val < 10) (hfull : 10 ≤ (climb W 0 A.length).val)
    (hh : ∀ i, hits i = List.replicate (A.count i) (.V, W)) : FitsR stdFl dt hits [M] := by
  have h10 : stdFl.Vt.val = 10 := by decide +kernel
  have hz : ∀ V : Double, V + slopeR stdFl dt 0 = V := fun V => by rw [slopeR_zero, RoundedArith.add_zero]
  intro s f hr
  have step : ∀ i, s i = ⟨climb W 0 (come A i), 0, 0, 0⟩ → (s (i + 1), f (i + 1)) = euler stdFl dt ⟨climb W 0 (come A (i + 1)), 0, 0, 0⟩ := by
    intro i hs
    obtain ⟨l, hl, he⟩ := hr.step i
    rw [hh] at hl
    rw [he, hs, List.perm_replicate.mp hl, fold_rep, come_succ]
  have pre : ∀ i < M, s i = ⟨climb W 0 (come A i), 0, 0, 0⟩ ∧ f i = false := by
    intro i
    induction i with
    | zero => intro _; rw [come_zero hpos]; exact hr.start
    | succ i ih =>
      intro hi
      have h1 := step i (ih (by omega)).1
      rw [euler_low (by rw [hz, Fl.lt_iff, h10]; exact hlow _ (come_lt hM hi)), hz] at h1
      exact Prod.mk.inj h1
  have hM0 : 0 < M := hpos M hM
  obtain ⟨m, rfl⟩ : ∃ m, M = m + 1 := ⟨M - 1, by omega⟩
  have at1 := step m (pre m (by omega)).1
  rw [euler_fire (by rw [hz, Fl.le_iff, h10, come_all hmax le_rfl]; exact hfull)] at at1
  obtain ⟨s1, f1⟩ := Prod.mk.inj at1
  have s1' : s (m + 1) = ⟨0, 0, 0, 0⟩ := s1
  have lt0' : (0 : Double) < stdFl.Vt := by rw [Fl.lt_iff, h10, Fl.val_zero]; norm_num
  intro i
  rcases lt_trichotomy i (m + 1) with hi | rfl | hi
  · rw [(pre i hi).2]; symm; rw [decide_eq_false_iff_not, List.mem_singleton]; omega
  · rw [f1]; simp
  · rw [(hr.idle s1' lt0' i (by omega) fun k h1 h2 => by
      rw [hh, List.count_eq_zero.mpr (fun hk => by have := hmax k hk; omega)]; rfl).1 i hi le_rfl]
    symm; rw [decide_eq_false_iff_not, List.mem_singleton]; omega

/-- A gathering neuron that does not get enough stays silent. -/
theorem FitsR.gather_few {hits : ℕ → List (SynKind × Double)} {W : Double} {A : List ℕ} (hpos : ∀ a ∈ A, 0 < a)
    (hlow : ∀ m ≤ A.length, (climb W 0 m).val < 10) (hh : ∀ i, hits i = List.replicate (A.count i) (.V, W)) : FitsR stdFl dt hits [] := by
  have h10 : stdFl.Vt.val = 10 := by decide +kernel
  have hz : ∀ V : Double, V + slopeR stdFl dt 0 = V := fun V => by rw [slopeR_zero, RoundedArith.add_zero]
  intro s f hr i
  have pre : s i = ⟨climb W 0 (come A i), 0, 0, 0⟩ ∧ f i = false := by
    induction i with
    | zero => rw [come_zero hpos]; exact hr.start
    | succ i ih =>
      obtain ⟨l, hl, he⟩ := hr.step i
      rw [hh] at hl
      rw [ih.1, List.perm_replicate.mp hl, fold_rep, ← come_succ] at he
      rw [euler_low (by rw [hz, Fl.lt_iff, h10]; exact hlow _ (List.length_filter_le _ _)), hz] at he
      exact Prod.mk.inj he
  rw [pre.2]; rfl

/-- The weight of a channel, up to rounding. -/
theorem syncW_near {N : ℕ} (h1 : 1 ≤ N) (h2 : N ≤ 2 ^ 20) : |(syncWFl N).val - (10 / N + 1 / 10000)| ≤ 40 * uu := by
  have hN : (1 : ℚ) ≤ N := by exact_mod_cast h1
  have e1 : ((N : ℕ) : Double).val = N := by rw [Fl.val_nat]; exact fl_nat N (h2.trans (by norm_num))
  have e2 : (weFl : Double).val = 10 := by decide +kernel
  have a0 : (0 : ℚ) < 10 / N := by positivity
  have a1 : (10 : ℚ) / N ≤ 10 := div_le_self (by norm_num) hN
  have n1 := fl_near (10 / (N : ℚ))
  have n2 := fl_near (1 / 10000)
  have v : (syncWFl N).val = fl 53 (fl 53 (10 / N) + fl 53 (1 / 10000)) := by
    unfold syncWFl
    rw [Fl.val_add, Fl.val_div, e1, e2]; rfl
  rw [v]
  generalize hX : fl 53 (10 / (N : ℚ)) = X at *
  generalize hY : fl 53 (1 / 10000) = Y at *
  have n3 := fl_near (X + Y)
  have hu0 : (0 : ℚ) < uu := by norm_num
  have hu1 : uu ≤ 1 / 100 := by norm_num
  generalize uu = u at *
  rw [abs_of_pos a0] at n1
  rw [abs_of_pos (show (0 : ℚ) < 1 / 10000 by norm_num)] at n2
  have m1 : (10 : ℚ) / N * u ≤ 10 * u := mul_le_mul_of_nonneg_right a1 hu0.le
  obtain ⟨b1, b1'⟩ := abs_le.mp (n1.trans m1)
  obtain ⟨b2, b2'⟩ := abs_le.mp n2
  have m2 : |X + Y| * u ≤ 12 * u := mul_le_mul_of_nonneg_right (by rw [abs_le]; constructor <;> linarith) hu0.le
  obtain ⟨b3, b3'⟩ := abs_le.mp (n3.trans m2)
  rw [abs_le]; constructor <;> linarith

/-- The sum of `m` weights, as long as it is small. -/
theorem gather_err {W : Double} (hW0 : 0 ≤ W.val) (hW : W.val ≤ 11) : ∀ k : ℕ, k ≤ 2 ^ 20 → k * W.val ≤ 11 - W.val / 2 →
    |(climb W 0 k).val - k * W.val| ≤ k * (12 * uu)
  | 0, _, _ => by simp [climb, Fl.val_zero]
  | k + 1, hk, h => by
    push_cast at h
    have ih := gather_err hW0 hW k (by omega) (by linarith)
    obtain ⟨i1, i2⟩ := abs_le.mp ih
    have hk' : (k : ℚ) ≤ 2 ^ 20 := by exact_mod_cast (by omega : k ≤ 2 ^ 20)
    have n := fl_near ((climb W 0 k).val + W.val)
    have h0 := climb_ge hW0 0 k
    rw [Fl.val_zero] at h0
    have u0 : (0 : ℚ) ≤ uu := by norm_num
    have t2 : (2 : ℚ) ^ 20 * (12 * uu) ≤ 1 / 100 := by norm_num
    rw [climb_val]
    generalize uu = u at *
    have t : (k : ℚ) * (12 * u) ≤ 2 ^ 20 * (12 * u) := mul_le_mul_of_nonneg_right hk' (by linarith)
    have e : ((k : ℚ) + 1) * W.val = k * W.val + W.val := by ring
    have e2 : ((k : ℚ) + 1) * (12 * u) = k * (12 * u) + 12 * u := by ring
    have b : |(climb W 0 k).val + W.val| ≤ 12 := by
      rw [abs_of_nonneg (by linarith)]; linarith
    obtain ⟨n1, n2⟩ := abs_le.mp (n.trans (mul_le_mul_of_nonneg_right b u0))
    push_cast
    rw [e, e2, abs_le]
    generalize (k : ℚ) * (12 * u) = z at *
    generalize (k : ℚ) * W.val = y at *
    constructor <;> linarith

/-- **Waiting for everybody**: up to 316 channels, the sum of the rounded weights reaches the threshold with the last one and not before. -/
theorem sync_low {N : ℕ} (h2 : N ≤ 316) {m : ℕ} (hm : m < N) : (climb (syncWFl N) 0 m).val < 10 := by
  have h1 : 1 ≤ N := by omega
  have hN : (1 : ℚ) ≤ N := by exact_mod_cast h1
  have hN' : (N : ℚ) ≤ 316 := by exact_mod_cast h2
  obtain ⟨w, w'⟩ := abs_le.mp (syncW_near h1 (h2.trans (by norm_num)))
  have a1 : (10 : ℚ) / N ≤ 10 := div_le_self (by norm_num) hN
  have aN : (10 : ℚ) / N * N = 10 := div_mul_cancel₀ _ (by linarith)
  have a0 : (10 : ℚ) / 316 ≤ 10 / N := div_le_div_of_nonneg_left (by norm_num) (by linarith) hN'
  have hm1 : (m : ℚ) + 1 ≤ N := by exact_mod_cast hm
  have hm0 : (0 : ℚ) ≤ m := Nat.cast_nonneg _
  have u1 : 40 * uu ≤ 1 / 10 ^ 9 := by norm_num
  have u0 : (0 : ℚ) ≤ 40 * uu := by norm_num
  have u2 : (12 : ℚ) * uu ≤ 1 / 10 ^ 9 := by norm_num
  generalize (10 : ℚ) / N = a at *
  obtain ⟨W, hW⟩ : ∃ W, W = syncWFl N := ⟨_, rfl⟩
  rw [← hW] at w w' ⊢
  -- the sum of all but one
  have key : (m : ℚ) * (a + 1 / 10000) ≤ 10 - 1 / 10000 := by
    have s1 : (m : ℚ) * (a + 1 / 10000) ≤ (N - 1) * (a + 1 / 10000) := mul_le_mul_of_nonneg_right (by linarith) (by linarith)
    have s2 : ((N : ℚ) - 1) * (a + 1 / 10000) = 10 - (a - (N - 1) / 10000) := by linarith [aN, mul_comm a N]
    have s3 : (N : ℚ) * (a - (N - 1) / 10000) ≥ 46 / 1000 := by
      have : (N : ℚ) * (N - 1) ≤ 316 * 315 := mul_le_mul hN' (by linarith) (by linarith) (by norm_num)
      have e : (N : ℚ) * (a - (N - 1) / 10000) = a * N - N * (N - 1) / 10000 := by ring
      rw [e, aN]; linarith
    have s4 : 1 / 10000 ≤ a - (N - 1) / 10000 := by
      by_contra hc
      push Not at hc
      have := mul_le_mul_of_nonneg_left hc.le (by linarith : (0 : ℚ) ≤ N)
      linarith
    linarith
  have mW : (m : ℚ) * W.val ≤ m * (a + 1 / 10000) + 316 * (1 / 10 ^ 9) := by
    have : (m : ℚ) * W.val ≤ m * (a + 1 / 10000 + 1 / 10 ^ 9) := mul_le_mul_of_nonneg_left (by linarith) hm0
    have t : (m : ℚ) * (1 / 10 ^ 9) ≤ 316 * (1 / 10 ^ 9) := mul_le_mul_of_nonneg_right (by linarith) (by norm_num)
    linarith
  have mW' : ((m : ℚ) + 1) * W.val ≤ 10 + 1 / 10 := by
    have s : ((m : ℚ) + 1) * W.val ≤ N * (a + 1 / 10000 + 1 / 10 ^ 9) := mul_le_mul hm1 (by linarith) (by linarith) (by linarith)
    have e : (N : ℚ) * (a + 1 / 10000 + 1 / 10 ^ 9) = a * N + N * (1 / 10000 + 1 / 10 ^ 9) := by ring
    rw [e, aN] at s
    linarith
  have g := gather_err (W := W) (by linarith) (by linarith) m (by omega) (by linarith)
  have t : (m : ℚ) * (12 * uu) ≤ 316 * (1 / 10 ^ 9) := mul_le_mul (by linarith) u2 (by norm_num) (by norm_num)
  have := (abs_le.mp g).2
  generalize (m : ℚ) * (12 * uu) = z at *
  generalize (m : ℚ) * W.val = y at *
  generalize (m : ℚ) * (a + 1 / 10000) = x at *
  linarith

theorem sync_full_fl {N : ℕ} (h1 : 1 ≤ N) (h2 : N ≤ 316) : 10 ≤ (climb (syncWFl N) 0 N).val := by
  have hN : (1 : ℚ) ≤ N := by exact_mod_cast h1
  have hN' : (N : ℚ) ≤ 316 := by exact_mod_cast h2
  obtain ⟨w, w'⟩ := abs_le.mp (syncW_near h1 (h2.trans (by norm_num)))
  have a1 : (10 : ℚ) / N ≤ 10 := div_le_self (by norm_num) hN
  have aN : (10 : ℚ) / N * N = 10 := div_mul_cancel₀ _ (by linarith)
  have a0 : (0 : ℚ) < 10 / N := by positivity
  have u1 : 40 * uu ≤ 1 / 10 ^ 9 := by norm_num
  have u2 : (12 : ℚ) * uu ≤ 1 / 10 ^ 9 := by norm_num
  have u0 : (0 : ℚ) ≤ 40 * uu := by norm_num
  generalize (10 : ℚ) / N = a at *
  obtain ⟨k, rfl⟩ : ∃ k, N = k + 1 := ⟨N - 1, by omega⟩
  obtain ⟨W, hW⟩ : ∃ W, W = syncWFl (k + 1) := ⟨_, rfl⟩
  rw [← hW] at w w' ⊢
  push_cast at hN hN' aN
  have lo : 10 + 1 / 20000 ≤ ((k : ℚ) + 1) * W.val := by
    have s : ((k : ℚ) + 1) * (a + 1 / 10000 - 1 / 10 ^ 9) ≤ (k + 1) * W.val := mul_le_mul_of_nonneg_left (by linarith) (by linarith)
    have e : ((k : ℚ) + 1) * (a + 1 / 10000 - 1 / 10 ^ 9) = a * (k + 1) + (k + 1) * (1 / 10000 - 1 / 10 ^ 9) := by ring
    rw [e, aN] at s
    linarith
  have hi : ((k : ℚ) + 1) * W.val ≤ 10 + 1 / 10 := by
    have s : ((k : ℚ) + 1) * W.val ≤ (k + 1) * (a + 1 / 10000 + 1 / 10 ^ 9) := mul_le_mul_of_nonneg_left (by linarith) (by linarith)
    have e : ((k : ℚ) + 1) * (a + 1 / 10000 + 1 / 10 ^ 9) = a * (k + 1) + (k + 1) * (1 / 10000 + 1 / 10 ^ 9) := by ring
    rw [e, aN] at s
    linarith
  have g := gather_err (W := W) (by linarith) (by linarith) k (by omega) (by linarith)
  obtain ⟨g1, g2⟩ := abs_le.mp g
  have t : (k : ℚ) * (12 * uu) ≤ 316 * (1 / 10 ^ 9) := mul_le_mul (by linarith) u2 (by norm_num) (by norm_num)
  have n := fl_near ((climb W 0 k).val + W.val)
  have h0 := climb_ge (d := W) (by linarith) 0 k
  rw [Fl.val_zero] at h0
  have v0 : (0 : ℚ) ≤ uu := by norm_num
  have e : ((k : ℚ) + 1) * W.val = k * W.val + W.val := by ring
  rw [e] at lo hi
  rw [climb_val]
  generalize uu = u at *
  generalize (k : ℚ) * (12 * u) = z at *
  generalize (k : ℚ) * W.val = y at *
  have b : |(climb W 0 k).val + W.val| ≤ 12 := by
    rw [abs_of_nonneg (by linarith)]; linarith
  obtain ⟨n1, n2⟩ := abs_le.mp (n.trans (mul_le_mul_of_nonneg_right b v0))
  linarith

/-- **A store that is never recalled** stays silent. -/
theorem hold_fits {hits : ℕ → List (SynKind × Double)} {w : Double} {n : ℚ} (h : GoodSlope (slopeR stdFl dt (0 + w)) n) {a b : ℕ} (ha : 0 < a) (hb : 0 < b)
    (hm : (b : ℚ) - a ≤ n - 3 / 2) (hm' : (a : ℚ) ≤ b + 12)
    (hh : ∀ i, hits i = (if i = a then [(.ge, w)] else []) ++ (if i = b then [(.ge, -w)] else [])) : FitsR stdFl dt hits [] := by
  intro s f hr i
  obtain ⟨k, h1, -, -⟩ := store_fits (dt := dt) (c := a + b + i + 1) (hits := fun j => (if j = a then [(.ge, w)] else []) ++ (if j = b then [(.ge, -w)] else []) ++
    (if j = a + b + i + 1 then [(.ge, w)] else [])) h ha hb (by omega) (by omega) hm hm' (fun _ => rfl)
  obtain ⟨s', f', hr', e⟩ := extend_run (hits := fun j => (if j = a then [(.ge, w)] else []) ++ (if j = b then [(.ge, -w)] else []) ++
    (if j = a + b + i + 1 then [(.ge, w)] else [])) hr.start (N := i) (fun j hj => by
      obtain ⟨l, hl, he⟩ := hr.step j
      refine ⟨l, ?_, he⟩
      rw [if_neg (show ¬ j + 1 = a + b + i + 1 by omega), List.append_nil, ← hh]
      exact hl)
  have := h1 s' f' hr' i
  rw [(e i le_rfl).2] at this
  rw [this]
  simp; omega

end Axon
