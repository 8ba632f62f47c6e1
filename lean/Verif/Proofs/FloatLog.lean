import Verif.Proofs.FloatGf

/-! # The logarithm and the exponential accumulator in Python floats -/
set_option linter.unusedSectionVars false
namespace Axon
open Spec
variable {dt : Double} {hits : ℕ → List (SynKind × Double)}

/-- The order of the arrivals in the list does not matter. -/
theorem FitsR.perm {hits' : ℕ → List (SynKind × Double)} {L : List ℕ} (h : FitsR stdFl dt hits' L) (e : ∀ i, (hits i).Perm (hits' i)) : FitsR stdFl dt hits L := by
  intro s f hr
  refine h s f ⟨hr.start, fun i => ?_⟩
  obtain ⟨l, hl, he⟩ := hr.step i
  exact ⟨l, hl.trans (e _), he⟩

abbrev d50 : Double := Fl.of 50
theorem d50_val : d50.val = 50 := by decide +kernel

theorem shut_false {V ge G : Double} {k : ℕ} (h : ∀ j ≤ k, climb (slopeR stdFl dt ge) V j < d10) {j : ℕ} (hj : j < k) :
    (euler stdFl dt (freeRunFl stdFl dt ⟨V, ge, G, 0⟩ j)).2 = false := by
  rw [free_shut j fun i hi => h i (by omega), euler_shut_low (h (j + 1) (by omega))]

theorem shut_true {V ge G : Double} {k : ℕ} (h : ∀ j ≤ k, climb (slopeR stdFl dt ge) V j < d10) (hf : d10 ≤ climb (slopeR stdFl dt ge) V (k + 1)) :
    (euler stdFl dt (freeRunFl stdFl dt ⟨V, ge, G, 0⟩ k)).2 = true := by
  rw [free_shut k h, euler_shut_fire hf]

theorem open_false {V G : Double} {k : ℕ} (h : ∀ j ≤ k, vAt dt G V j < d10) {j : ℕ} (hj : j < k) :
    (euler stdFl dt (freeRunFl stdFl dt ⟨V, 0, G, 1⟩ j)).2 = false := by
  rw [free_open j fun i hi => h i (by omega), euler_open_low (h (j + 1) (by omega))]

theorem open_true {V G : Double} {k : ℕ} (h : ∀ j ≤ k, vAt dt G V j < d10) (hf : d10 ≤ vAt dt G V (k + 1)) :
    (euler stdFl dt (freeRunFl stdFl dt ⟨V, 0, G, 1⟩ k)).2 = true := by
  rw [free_open k h, euler_open_fire hf]

/-- The run of the logarithm accumulator: charged from `A` to `B`, the exponential current from `C` on. -/
theorem log_run {A B C k : ℕ} {w : Double} (hA : 0 < A) (hAB : A < B) (hBC : B ≤ C)
    (hh : ∀ i, hits i = (if i = A then [(.ge, w)] else []) ++ (if i = B then [(.ge, -w)] else []) ++ (if i = C then [(.gf, d50), (.gate, 1)] else []))
    (hlow0 : ∀ j ≤ B - A, climb (slopeR stdFl dt (0 + w)) 0 j < d10)
    (hlow : ∀ j ≤ k, vAt dt d50 (climb (slopeR stdFl dt (0 + w)) 0 (B - A)) j < d10)
    (hfire : d10 ≤ vAt dt d50 (climb (slopeR stdFl dt (0 + w)) 0 (B - A)) (k + 1)) : FitsR stdFl dt hits [C + k] := by
  intro s f hr
  have hn : ∀ i, i ≠ A → i ≠ B → i ≠ C → hits i = [] := fun i h1 h2 h3 => by rw [hh, if_neg h1, if_neg h2, if_neg h3]; rfl
  obtain ⟨q1, s1⟩ := hr.idle (a := 0) hr.start.1 lt0 (A - 1) (Nat.zero_le _) (fun i h1 h2 => hn i (by omega) (by omega) (by omega))
  obtain ⟨q2, s2⟩ := hr.go (S' := ⟨0, 0 + w, 0, 0⟩) s1 (fun l hl => by
      rw [show A - 1 + 1 = A by omega, hh, if_pos rfl, if_neg (by omega), if_neg (by omega)] at hl
      rw [List.perm_singleton.mp hl]; rfl) (B - A)
    (fun i h1 h2 => hn i (by omega) (by omega) (by omega)) (fun j hj => shut_false hlow0 hj)
  have s2' := s2 (by omega)
  rw [free_shut _ hlow0, show A - 1 + (B - A) = B - 1 by omega] at s2'
  set V := climb (slopeR stdFl dt (0 + w)) 0 (B - A) with hV
  have hVl : V < d10 := hlow0 _ le_rfl
  have fin : ∃ S, s (C - 1) = S ∧ (∀ i, B - 1 < i → i ≤ C - 1 → f i = false) ∧
      ∀ l : List (SynKind × Double), l.Perm (hits C) → l.foldl addHit S = ⟨V, 0, d50, 1⟩ := by
    rcases Nat.eq_or_lt_of_le hBC with rfl | hlt
    · refine ⟨_, s2', fun i h1 h2 => by omega, fun l hl => ?_⟩
      rw [hh, if_neg (by omega), if_pos rfl, if_pos rfl] at hl
      rw [fold_perm hl (by simp)]
      show (⟨V, 0 + w + -w, 0 + d50, 0 + 1⟩ : NState Double) = _
      rw [add_negD, zero_addD, zero_addD]
    · obtain ⟨q3, s3⟩ := hr.go (S' := ⟨V, 0, 0, 0⟩) s2' (fun l hl => by
          rw [show B - 1 + 1 = B by omega, hh, if_neg (by omega), if_pos rfl, if_neg (by omega)] at hl
          rw [List.perm_singleton.mp hl]
          show (⟨V, 0 + w + -w, 0, 0⟩ : NState Double) = _
          rw [add_negD]) (C - B)
        (fun i h1 h2 => hn i (by omega) (by omega) (by omega)) (fun j hj => shut_false (k := C - B) (fun j _ => by rw [climb_rest]; exact hVl) hj)
      have s3' := s3 (by omega)
      rw [free_shut _ (fun j _ => by rw [climb_rest]; exact hVl), climb_rest, show B - 1 + (C - B) = C - 1 by omega] at s3'
      refine ⟨_, s3', fun i h1 h2 => q3 i h1 (by omega), fun l hl => ?_⟩
      rw [hh, if_neg (by omega), if_neg (by omega), if_pos rfl] at hl
      rw [fold_perm hl (by simp)]
      show (⟨V, 0, 0 + d50, 0 + 1⟩ : NState Double) = _
      rw [zero_addD, zero_addD]
  obtain ⟨S, hS, q3, hfold⟩ := fin
  obtain ⟨q4, f4, s4⟩ := hr.go_fire hS (by rw [show C - 1 + 1 = C by omega]; exact hfold) k (fun i h1 h2 => hn i (by omega) (by omega) (by omega))
    (fun j hj => open_false hlow hj) (open_true hlow hfire)
  rw [show C - 1 + k + 1 = C + k by omega] at f4 s4
  intro i
  rcases Nat.lt_trichotomy i (C + k) with hi | rfl | hi
  · have : f i = false := by
      rcases Nat.eq_zero_or_pos i with rfl | h0
      · exact hr.start.2
      · rcases Nat.lt_or_ge (C - 1) i with h1 | h1
        · exact q4 i h1 (by omega)
        · rcases Nat.lt_or_ge (B - 1) i with h2 | h2
          · exact q3 i h2 (by omega)
          · rcases Nat.lt_or_ge (A - 1) i with h3 | h3
            · exact q2 i h3 (by omega)
            · exact q1 i h0 h3
    rw [this]; simp; omega
  · rw [f4]; simp
  · rw [(hr.idle s4 lt0 i hi.le (fun j h1 h2 => hn j (by omega) (by omega) (by omega))).1 i hi le_rfl]; simp; omega

theorem one_neg_one : (1 : Double) + -1 = 0 := by decide +kernel

/-- The run of the exponential accumulator: the exponential current from `A` to `B`, then the ramp. -/
theorem exp_run {A B k : ℕ} {w : Double} (hA : 0 < A) (hAB : A < B)
    (hh : ∀ i, hits i = (if i = A then [(.gf, d50), (.gate, 1)] else []) ++ (if i = B then [(.gate, -1), (.ge, w)] else []))
    (hlow0 : ∀ j ≤ B - A, vAt dt d50 0 j < d10)
    (hlow : ∀ j ≤ k, climb (slopeR stdFl dt (0 + w)) (vAt dt d50 0 (B - A)) j < d10)
    (hfire : d10 ≤ climb (slopeR stdFl dt (0 + w)) (vAt dt d50 0 (B - A)) (k + 1)) : FitsR stdFl dt hits [B + k] := by
  intro s f hr
  have hn : ∀ i, i ≠ A → i ≠ B → hits i = [] := fun i h1 h2 => by rw [hh, if_neg h1, if_neg h2]; rfl
  obtain ⟨q1, s1⟩ := hr.idle (a := 0) hr.start.1 lt0 (A - 1) (Nat.zero_le _) (fun i h1 h2 => hn i (by omega) (by omega))
  obtain ⟨q2, s2⟩ := hr.go (S' := ⟨0, 0, d50, 1⟩) s1 (fun l hl => by
      rw [show A - 1 + 1 = A by omega, hh, if_pos rfl, if_neg (by omega)] at hl
      rw [fold_perm hl (by simp)]
      show (⟨0, 0, 0 + d50, 0 + 1⟩ : NState Double) = _
      rw [zero_addD, zero_addD]) (B - A)
    (fun i h1 h2 => hn i (by omega) (by omega)) (fun j hj => open_false hlow0 hj)
  have s2' := s2 (by omega)
  rw [free_open _ hlow0, show A - 1 + (B - A) = B - 1 by omega] at s2'
  obtain ⟨q4, f4, s4⟩ := hr.go_fire (S' := ⟨vAt dt d50 0 (B - A), 0 + w, gfAt dt d50 (B - A), 0⟩) s2' (fun l hl => by
      rw [show B - 1 + 1 = B by omega, hh, if_neg (by omega), if_pos rfl] at hl
      rw [fold_perm hl (by simp)]
      show (⟨vAt dt d50 0 (B - A), 0 + w, gfAt dt d50 (B - A), 1 + -1⟩ : NState Double) = _
      rw [one_neg_one]) k (fun i h1 h2 => hn i (by omega) (by omega))
    (fun j hj => shut_false hlow hj) (shut_true hlow hfire)
  rw [show B - 1 + k + 1 = B + k by omega] at f4 s4
  intro i
  rcases Nat.lt_trichotomy i (B + k) with hi | rfl | hi
  · have : f i = false := by
      rcases Nat.eq_zero_or_pos i with rfl | h0
      · exact hr.start.2
      · rcases Nat.lt_or_ge (B - 1) i with h1 | h1
        · exact q4 i h1 (by omega)
        · rcases Nat.lt_or_ge (A - 1) i with h3 | h3
          · exact q2 i h3 (by omega)
          · exact q1 i h0 h3
    rw [this]; simp; omega
  · rw [f4]; simp
  · rw [(hr.idle s4 lt0 i hi.le (fun j h1 h2 => hn j (by omega) (by omega))).1 i hi le_rfl]; simp; omega

/-- The charge of an accumulator after `m` steps. -/
theorem charge_err {d : Double} {n : ℚ} (h : GoodSlope d n) {m : ℕ} (hm : (m : ℚ) ≤ n - 3 / 2) :
    (∀ j ≤ m, climb d 0 j < d10) ∧ |(climb d 0 m).val / 10 - m / n| ≤ 14 / 10 * n * uu := by
  obtain ⟨k0, r1, r2, r3, r4⟩ := ramp_count h
  have hd0 : 0 ≤ d.val := by have := h.lo; have : (0 : ℚ) ≤ 24 * uu := by norm_num
                             linarith [h.lo]
  have hn : 0 < n := by linarith [h.n1]
  have hlow : ∀ j ≤ m, climb d 0 j < d10 := by
    intro j hj
    refine r1 j ?_
    have hj' : (j : ℚ) ≤ m := by exact_mod_cast hj
    have : (j : ℚ) < k0 + 1 := by linarith
    have : j < k0 + 1 := by exact_mod_cast this
    omega
  refine ⟨hlow, ?_⟩
  have hlt : ∀ j ≤ m, (climb d 0 j).val < 10 := fun j hj => by have := hlow j hj; rw [Fl.lt_iff, d10_val] at this; exact this
  have herr := abs_le.mp (climb_err d 0 m (fun j hj => by
      have h1 := hlt j hj.le
      have h2 := climb_ge hd0 0 j
      rw [Fl.val_zero] at h2
      have := h.hi
      rw [abs_le]; constructor <;> linarith))
  rw [Fl.val_zero] at herr
  obtain ⟨a1, a2⟩ := herr
  have hnear := abs_le.mp h.near
  have hm0 : (0 : ℚ) ≤ m := Nat.cast_nonneg _
  have b1 : (m : ℚ) * (10 / n - 10 / n * (4 * uu)) ≤ m * d.val := mul_le_mul_of_nonneg_left (by linarith [hnear.1]) hm0
  have b2 : (m : ℚ) * d.val ≤ m * (10 / n + 10 / n * (4 * uu)) := mul_le_mul_of_nonneg_left (by linarith [hnear.2]) hm0
  have hmn : (m : ℚ) / n ≤ 1 := by rw [div_le_one hn]; linarith
  have hu0 : 0 < uu := by norm_num
  have e1 : (m : ℚ) * (10 / n) = 10 * (m / n) := by ring
  have hmu : (m : ℚ) * uu ≤ (n - 3 / 2) * uu := mul_le_mul_of_nonneg_right hm hu0.le
  have hmnu : (m : ℚ) / n * uu ≤ 1 * uu := mul_le_mul_of_nonneg_right hmn hu0.le
  have hnu : 13 * uu ≤ n * uu := mul_le_mul_of_nonneg_right h.n1 hu0.le
  generalize uu = u at *
  rw [abs_le]
  constructor
  · have : (m : ℚ) * (10 / n - 10 / n * (4 * u)) = 10 * (m / n) - 40 * (m / n * u) := by ring
    linarith
  · have : (m : ℚ) * (10 / n + 10 / n * (4 * u)) = 10 * (m / n) + 40 * (m / n * u) := by ring
    linarith

theorem rho_bounds (hdt : 0 < dt.val) (hdt1 : dt.val ≤ 1) : 19 / 20 ≤ rhoQ dt ∧ rhoQ dt < 1 := by unfold rhoQ; constructor <;> linarith

theorem log_lo {n u e V X v y q : ℚ} (he : 0 < e) (hn : n * u ≤ 1 / 16 * e) (c : -(14 / 10 * n * u) ≤ V / 10 - X)
    (h1 : -y ≤ v - (V + 10 * (1 - q))) (h4 : y ≤ 63 / 16 * e) (hq : q ≤ X - e) : 10 ≤ v := by
  have : 14 / 10 * n * u = 14 / 10 * (n * u) := by ring
  linarith

theorem log_hi {n u e V X v y q : ℚ} (he : 0 < e) (hn : n * u ≤ 1 / 16 * e) (c : V / 10 - X ≤ 14 / 10 * n * u)
    (h1 : v - (V + 10 * (1 - q)) ≤ y) (h4 : y ≤ 63 / 16 * e) (h : 10 ≤ v) : q ≤ X + e := by
  have : 14 / 10 * n * u = 14 / 10 * (n * u) := by ring
  linarith

/-- **The logarithm accumulator in doubles**: charged for `m = B - A` steps, that is up to `X = m / n`, it fires when the remaining part of the current
has decayed to `X`, up to half a step of the ramp. -/
theorem log_fits (hdt : 0 < dt.val) (hdt1 : dt.val ≤ 1) {w : Double} {n : ℚ} (h : GoodSlope (slopeR stdFl dt (0 + w)) n) {A B C M : ℕ} (hA : 0 < A) (hAB : A < B) (hBC : B ≤ C)
    (hm : (B : ℚ) - A ≤ n - 3 / 2) (hM : rhoQ dt ^ M ≤ ((B : ℚ) - A) / n - 1 / (2 * n)) (hM' : M ≤ 2 ^ 24)
    (hh : ∀ i, hits i = (if i = A then [(.ge, w)] else []) ++ (if i = B then [(.ge, -w)] else []) ++ (if i = C then [(.gf, d50), (.gate, 1)] else [])) :
    ∃ k : ℕ, FitsR stdFl dt hits [C + k] ∧ k + 1 ≤ M ∧ rhoQ dt ^ (k + 1) ≤ ((B : ℚ) - A) / n + 1 / (2 * n) ∧ ((B : ℚ) - A) / n - 1 / (2 * n) < rhoQ dt ^ k := by
  obtain ⟨m, hmB⟩ : ∃ m, m = B - A := ⟨_, rfl⟩
  have hmq : (B : ℚ) - A = m := by rw [hmB, Nat.cast_sub hAB.le]
  rw [hmq] at hm hM ⊢
  obtain ⟨c1, c2⟩ := charge_err h hm
  set V := climb (slopeR stdFl dt (0 + w)) 0 m with hV
  have hn0 : 0 < n := by linarith [h.n1]
  have hu0 : 0 < uu := by norm_num
  have hn2 : 0 < 1 / (2 * n) := by positivity
  -- rounding is small against half a step
  have hnn : n * uu * (2 * n) ≤ 1 / 16 := by
    have h1 : n * n ≤ 2 ^ 24 * 2 ^ 24 := mul_le_mul h.n2 h.n2 hn0.le (by norm_num)
    calc n * uu * (2 * n) = 2 * (n * n) * uu := by ring
      _ ≤ 2 * (2 ^ 24 * 2 ^ 24) * uu := mul_le_mul_of_nonneg_right (by linarith) hu0.le
      _ = 1 / 16 := by norm_num
  have hnu : n * uu ≤ 1 / 16 * (1 / (2 * n)) := by
    rw [mul_one_div (1 / 16 : ℚ) (2 * n)]; exact (le_div_iff₀ (by linarith)).mpr hnn
  have hku : ∀ k : ℕ, k ≤ 2 ^ 24 → 63 * (k : ℚ) * uu ≤ 63 / 16 * (1 / (2 * n)) := by
    intro k hk
    have hk' : (k : ℚ) ≤ 2 ^ 24 := by exact_mod_cast hk
    have h1 : (k : ℚ) * n ≤ 2 ^ 24 * 2 ^ 24 := mul_le_mul hk' h.n2 hn0.le (by norm_num)
    rw [mul_one_div (63 / 16 : ℚ) (2 * n)]
    refine (le_div_iff₀ (by linarith)).mpr ?_
    calc 63 * (k : ℚ) * uu * (2 * n) = 126 * (k * n) * uu := by ring
      _ ≤ 126 * (2 ^ 24 * 2 ^ 24) * uu := mul_le_mul_of_nonneg_right (by linarith) hu0.le
      _ = 63 / 16 := by norm_num
  obtain ⟨c3, c4⟩ := abs_le.mp c2
  have hVl : V.val < 10 := by have := c1 m le_rfl; rw [Fl.lt_iff, d10_val] at this; exact this
  have hV1 : -1 ≤ V.val := by
    have : (0 : ℚ) ≤ m / n := by positivity
    have : 1 / (2 * n) ≤ 1 := by
      rw [div_le_one (by linarith)]; linarith [h.n1]
    linarith
  have hex : ∃ k, k ≤ M ∧ d10 ≤ vAt dt d50 V k := by
    by_contra hc
    push Not at hc
    have hc' : ∀ k ≤ M, (vAt dt d50 V k).val < 10 := fun k hk => by have := hc k hk; rw [Fl.lt_iff, d10_val] at this; exact this
    obtain ⟨h1, h2⟩ := abs_le.mp (v_err hdt hdt1 d50_val hV1 (k := M) (hM'.trans (by norm_num)) fun j hj => hc' j hj.le)
    have h3 := hc' M le_rfl
    have h4 := hku M hM'
    exact absurd h3 (not_lt.mpr (log_lo hn2 hnu c3 h1 h4 hM))
  classical
  have hspec := Nat.find_spec hex
  have hmin : ∀ j < Nat.find hex, vAt dt d50 V j < d10 := fun j hj => by
    have := Nat.find_min hex hj
    rw [not_and, not_le] at this
    exact this (hj.le.trans hspec.1)
  have hpos : 0 < Nat.find hex := by
    by_contra h0
    have hs := hspec.2
    rw [show Nat.find hex = 0 by omega, Fl.le_iff, d10_val] at hs
    have : (vAt dt d50 V 0).val = V.val := rfl
    linarith
  obtain ⟨k, hk⟩ : ∃ k, Nat.find hex = k + 1 := ⟨Nat.find hex - 1, by omega⟩
  rw [hk] at hspec hmin
  have hlt : ∀ j ≤ k, (vAt dt d50 V j).val < 10 := fun j hj => by
    have := hmin j (by omega); rw [Fl.lt_iff, d10_val] at this; exact this
  refine ⟨k, log_run hA hAB hBC hh (by rw [← hmB]; exact c1) (by rw [← hmB]; exact fun j hj => hmin j (by omega)) (by rw [← hmB]; exact hspec.2), hspec.1, ?_, ?_⟩
  · obtain ⟨h1, h2⟩ := abs_le.mp (v_err hdt hdt1 d50_val hV1 (k := k + 1) (by have := hspec.1; omega) fun j hj => hlt j (by omega))
    have h3 := hspec.2
    rw [Fl.le_iff, d10_val] at h3
    have h4 := hku (k + 1) (by have := hspec.1; omega)
    exact log_hi hn2 hnu c4 h2 h4 h3
  · obtain ⟨h1, h2⟩ := abs_le.mp (v_err hdt hdt1 d50_val hV1 (k := k) (by have := hspec.1; omega) fun j hj => hlt j (by omega))
    have h3 := hlt k le_rfl
    have h4 := hku k (by have := hspec.1; omega)
    by_contra hc
    exact absurd h3 (not_lt.mpr (log_lo hn2 hnu c3 h1 h4 (not_lt.mp hc)))

/-- **The exponential accumulator in doubles**: after `m = B - A` steps of current, the ramp of `n` steps takes the remaining part `rho ^ m` of them. -/
theorem exp_fits (hdt : 0 < dt.val) (hdt1 : dt.val ≤ 1) {w : Double} {n : ℚ} (h : GoodSlope (slopeR stdFl dt (0 + w)) n) {A B m : ℕ} (hA : 0 < A) (hm0 : 0 < m) (hAB : B = A + m)
    (hm : m ≤ 2 ^ 24) (hl : 7 * (m : ℚ) * uu ≤ rhoQ dt ^ m)
    (hh : ∀ i, hits i = (if i = A then [(.gf, d50), (.gate, 1)] else []) ++ (if i = B then [(.gate, -1), (.ge, w)] else [])) :
    ∃ k : ℕ, FitsR stdFl dt hits [B + k] ∧ n * rhoQ dt ^ m - 1 / 2 ≤ (k : ℚ) + 1 ∧ (k : ℚ) + 1 ≤ n * rhoQ dt ^ m + 3 / 2 := by
  have hmB : m = B - A := by omega
  have hn0 : 0 < n := by linarith [h.n1]
  have hu0 : 0 < uu := by norm_num
  obtain ⟨hr0, hr1⟩ := rho_bounds hdt hdt1
  have hr0' : 0 < rhoQ dt := by linarith
  have hp : ∀ j ≤ m, rhoQ dt ^ m ≤ rhoQ dt ^ j := fun j hj => pow_le_pow_of_le_one hr0'.le hr1.le hj
  have hlow0 : ∀ j ≤ m, (vAt dt d50 0 j).val < 10 := by
    intro j
    induction j using Nat.strong_induction_on with
    | _ j ih =>
      intro hj
      obtain ⟨h1, h2⟩ := abs_le.mp (v_err (V := 0) hdt hdt1 d50_val (by rw [Fl.val_zero]; norm_num) (k := j) (by omega) fun i hi => ih i hi (by omega))
      rw [Fl.val_zero] at h2
      have h3 := hp j hj
      have h4 : 63 * (j : ℚ) * uu ≤ 63 * m * uu := by
        have : (j : ℚ) ≤ m := by exact_mod_cast hj
        exact mul_le_mul_of_nonneg_right (by linarith) hu0.le
      have h5 : 0 < rhoQ dt ^ j := by positivity
      generalize rhoQ dt ^ j = q at *
      generalize rhoQ dt ^ m = q' at *
      generalize uu = u at *
      have : 63 * (m : ℚ) * u = 9 * (7 * m * u) := by ring
      linarith
  have herr := abs_le.mp (v_err (V := 0) hdt hdt1 d50_val (by rw [Fl.val_zero]; norm_num) (k := m) (by omega) fun i hi => hlow0 i hi.le)
  rw [Fl.val_zero] at herr
  have hlowd : ∀ j ≤ m, vAt dt d50 0 j < d10 := fun j hj => by rw [Fl.lt_iff, d10_val]; exact hlow0 j hj
  have hq0 : 0 < rhoQ dt ^ m := by positivity
  have hq1 : rhoQ dt ^ m ≤ 1 := pow_le_one₀ hr0'.le hr1.le
  have hVl := hlow0 m le_rfl
  have hmu : 63 * (m : ℚ) * uu ≤ 1 := by
    have : (m : ℚ) ≤ 2 ^ 24 := by exact_mod_cast hm
    calc 63 * (m : ℚ) * uu ≤ 63 * 2 ^ 24 * uu := mul_le_mul_of_nonneg_right (by linarith) hu0.le
      _ ≤ 1 := by norm_num
  obtain ⟨k, r1, r2, r3, r4⟩ := climb_fires (V := vAt dt d50 0 m) h.lo (by linarith [h.hi]) (by linarith) hVl
  refine ⟨k, exp_run hA (by omega) hh (by rw [← hmB]; exact hlowd) (by rw [← hmB]; exact r1) (by rw [← hmB]; exact r2), ?_⟩
  have hnear := abs_le.mp h.near
  generalize (slopeR stdFl dt (0 + w)).val = d at *
  generalize (vAt dt d50 0 m).val = V at *
  generalize rhoQ dt ^ m = q at *
  have hm' : (m : ℚ) ≤ 2 ^ 24 := by exact_mod_cast hm
  have p1 : n * uu ≤ 1 / 2 ^ 29 := by
    calc n * uu ≤ 2 ^ 24 * uu := mul_le_mul_of_nonneg_right h.n2 hu0.le
      _ = 1 / 2 ^ 29 := by norm_num
  have p2 : n * (n * uu) ≤ 1 / 32 := by
    calc n * (n * uu) ≤ 2 ^ 24 * (1 / 2 ^ 29) := mul_le_mul h.n2 p1 (by positivity) (by norm_num)
      _ = 1 / 32 := by norm_num
  have p3 : n * (63 * m * uu) ≤ 63 / 32 := by
    calc n * (63 * m * uu) ≤ 2 ^ 24 * (63 * 2 ^ 24 * uu) := mul_le_mul h.n2 (mul_le_mul_of_nonneg_right (by linarith) hu0.le) (by positivity) (by norm_num)
      _ = 63 / 32 := by norm_num
  have hDn : 10 / n * n = 10 := by field_simp
  have hn1 := h.n1
  obtain ⟨v1, v2⟩ := herr
  push_cast at r3
  have hk0 : (0 : ℚ) ≤ k := Nat.cast_nonneg _
  have hun : 13 * uu ≤ n * uu := mul_le_mul_of_nonneg_right hn1 hu0.le
  have hnu0 : 0 ≤ n * uu := by positivity
  generalize uu = u at *
  -- the upper bound first
  have up : (k : ℚ) * (10 - 40 * u - 12 * (n * u)) ≤ 10 * (n * q) + n * (63 * m * u) := by
    have h1 : (k : ℚ) * (10 / n - 10 / n * (4 * u) - 12 * u) ≤ k * (d - 12 * u) := mul_le_mul_of_nonneg_left (by linarith [hnear.1]) hk0
    have h2 : (k : ℚ) * (10 / n - 10 / n * (4 * u) - 12 * u) ≤ 10 * q + 63 * m * u := by linarith
    calc (k : ℚ) * (10 - 40 * u - 12 * (n * u)) = k * ((10 / n * n) - (10 / n * n) * (4 * u) - 12 * (n * u)) := by rw [hDn]; ring
      _ = k * (10 / n - 10 / n * (4 * u) - 12 * u) * n := by ring
      _ ≤ (10 * q + 63 * m * u) * n := mul_le_mul_of_nonneg_right h2 hn0.le
      _ = _ := by ring
  have hnq : n * q ≤ n := mul_le_of_le_one_right hn0.le hq1
  have hk1 : (k : ℚ) ≤ 2 * n := by
    by_contra hc
    push Not at hc
    have : 9 * (k : ℚ) ≤ k * (10 - 40 * u - 12 * (n * u)) := by
      have : (9 : ℚ) ≤ 10 - 40 * u - 12 * (n * u) := by linarith
      nlinarith
    linarith
  have s1 : (k : ℚ) * (n * u) ≤ 2 * n * (n * u) := mul_le_mul_of_nonneg_right hk1 hnu0
  have s2 : (k : ℚ) * u ≤ 2 * n * u := mul_le_mul_of_nonneg_right hk1 hu0.le
  have dn : ((k : ℚ) + 1) * (10 + 40 * u + 12 * (n * u)) ≥ 10 * (n * q) - n * (63 * m * u) := by
    have h1 : ((k : ℚ) + 1) * (d + 12 * u) ≤ (k + 1) * (10 / n + 10 / n * (4 * u) + 12 * u) := mul_le_mul_of_nonneg_left (by linarith [hnear.2]) (by linarith)
    have h2 : 10 * q - 63 * m * u ≤ ((k : ℚ) + 1) * (10 / n + 10 / n * (4 * u) + 12 * u) := by linarith
    calc ((k : ℚ) + 1) * (10 + 40 * u + 12 * (n * u)) = (k + 1) * ((10 / n * n) + (10 / n * n) * (4 * u) + 12 * (n * u)) := by rw [hDn]; ring
      _ = (k + 1) * (10 / n + 10 / n * (4 * u) + 12 * u) * n := by ring
      _ ≥ (10 * q - 63 * m * u) * n := mul_le_mul_of_nonneg_right h2 hn0.le
      _ = _ := by ring
  constructor <;> linarith

theorem perm_two {α : Type*} {l : List α} {x y : α} (h : l.Perm [x, y]) : l = [x, y] ∨ l = [y, x] := by
  have hlen := h.length_eq
  obtain ⟨a, b, rfl⟩ : ∃ a b, l = [a, b] := by
    match l, hlen with
    | [a, b], _ => exact ⟨a, b, rfl⟩
  have ha : a = x ∨ a = y := by simpa using h.subset (List.mem_cons_self ..)
  have hcount : ∀ p : List α, p.Perm [x, y] → True := fun _ _ => trivial
  rcases ha with rfl | rfl
  · have := (List.perm_cons a).mp h
    rw [List.perm_singleton.mp this]; exact .inl rfl
  · have := (List.perm_cons a).mp (h.trans (List.Perm.swap a x []))
    rw [List.perm_singleton.mp this]; exact .inr rfl

theorem fold_fields (l : List (SynKind × Double)) (s : NState Double) :
    l.foldl addHit s = ⟨((l.filter fun e => e.1 = .V).map Prod.snd).foldl (· + ·) s.V, ((l.filter fun e => e.1 = .ge).map Prod.snd).foldl (· + ·) s.ge,
      ((l.filter fun e => e.1 = .gf).map Prod.snd).foldl (· + ·) s.gf, ((l.filter fun e => e.1 = .gate).map Prod.snd).foldl (· + ·) s.gate⟩ := by
  induction l generalizing s with
  | nil => rfl
  | cons e l ih =>
    rw [List.foldl_cons, ih]
    obtain ⟨k, x⟩ := e
    cases k <;> simp [addHit, addEv, List.filter_cons]

/-- The two signals of the exponential accumulator arrive in the same step. -/
theorem same_fold {l : List (SynKind × Double)} {w : Double} (hl : l.Perm [(.gf, d50), (.gate, 1), (.gate, -1), (.ge, w)]) :
    l.foldl addHit ⟨0, 0, 0, 0⟩ = ⟨0, 0 + w, 0 + d50, 0⟩ := by
  rw [fold_fields]
  have h1 : (l.filter fun e => e.1 = .V) = [] := (hl.filter _).eq_nil
  have h2 : (l.filter fun e => e.1 = .ge) = [(.ge, w)] := List.perm_singleton.mp (hl.filter _)
  have h3 : (l.filter fun e => e.1 = .gf) = [(.gf, d50)] := List.perm_singleton.mp (hl.filter _)
  have h4 : (l.filter fun e => e.1 = .gate).Perm [(.gate, 1), (.gate, -1)] := hl.filter _
  rw [h1, h2, h3]
  have e1 : (0 : Double) + 1 + -1 = 0 := by decide +kernel
  have e2 : (0 : Double) + -1 + 1 = 0 := by decide +kernel
  rcases perm_two h4 with h | h <;> rw [h]
  · show (⟨0, 0 + w, 0 + d50, 0 + 1 + -1⟩ : NState Double) = _
    rw [e1]
  · show (⟨0, 0 + w, 0 + d50, 0 + -1 + 1⟩ : NState Double) = _
    rw [e2]

theorem fits_one {N k : ℕ} (hr : ∀ s f, NRun stdFl dt hits s f → (∀ i, 0 < i → i < N + k → f i = false) ∧ f (N + k) = true ∧ s (N + k) = ⟨0, 0, 0, 0⟩)
    (hn : ∀ i, N + k < i → hits i = []) : FitsR stdFl dt hits [N + k] := by
  intro s f h
  obtain ⟨h1, h2, h3⟩ := hr s f h
  intro i
  rcases Nat.lt_trichotomy i (N + k) with hi | rfl | hi
  · have : f i = false := by
      rcases Nat.eq_zero_or_pos i with rfl | h0
      · exact h.start.2
      · exact h1 i h0 hi
    rw [this]; simp; omega
  · rw [h2]; simp
  · rw [(h.idle h3 lt0 i hi.le (fun j h1 h2 => hn j (by omega))).1 i hi le_rfl]; simp; omega

/-- The two signals of the exponential accumulator arrive in the same step: a plain ramp. -/
theorem exp_run_same {B k : ℕ} {w : Double} (hB : 0 < B)
    (hh : ∀ i, hits i = (if i = B then [(.gf, d50), (.gate, 1)] else []) ++ (if i = B then [(.gate, -1), (.ge, w)] else []))
    (hlow : ∀ j ≤ k, climb (slopeR stdFl dt (0 + w)) 0 j < d10) (hfire : d10 ≤ climb (slopeR stdFl dt (0 + w)) 0 (k + 1)) : FitsR stdFl dt hits [B + k] := by
  have hn : ∀ i, i ≠ B → hits i = [] := fun i h1 => by rw [hh, if_neg h1, if_neg h1]; rfl
  refine fits_one (fun s f hr => ?_) (fun i hi => hn i (by omega))
  obtain ⟨q1, s1⟩ := hr.idle (a := 0) hr.start.1 lt0 (B - 1) (Nat.zero_le _) (fun i h1 h2 => hn i (by omega))
  obtain ⟨q4, f4, s4⟩ := hr.go_fire (S' := ⟨0, 0 + w, 0 + d50, 0⟩) s1 (fun l hl => by
      rw [show B - 1 + 1 = B by omega, hh, if_pos rfl, if_pos rfl] at hl
      exact same_fold hl) k (fun i h1 h2 => hn i (by omega))
    (fun j hj => shut_false hlow hj) (shut_true hlow hfire)
  rw [show B - 1 + k + 1 = B + k by omega] at f4 s4
  refine ⟨fun i h0 hi => ?_, f4, s4⟩
  rcases Nat.lt_or_ge (B - 1) i with h1 | h1
  · exact q4 i h1 (by omega)
  · exact q1 i h0 h1

theorem euler_neg_low {V ge : Double} (h : V + slopeR stdFl dt ge < d10) : euler stdFl dt ⟨V, ge, 0, -1⟩ = (⟨V + slopeR stdFl dt ge, ge, 0, -1⟩, false) := by
  have hz : (-1 : Double) * 0 = 0 := RoundedArith.mul_zero _
  have hz' : (0 : Double) * 0 = 0 := RoundedArith.mul_zero _
  have h' : ¬ stdFl.Vt ≤ V + dt * (ge + -1 * 0) / stdFl.tm := by rw [hz, ← hz']; exact not_le.mpr h
  have hne : (-1 : Double) ≠ 0 := by decide +kernel
  have hg : (0 : Double) - dt * (0 / stdFl.tf) = 0 := by
    rw [RoundedArith.zero_div, RoundedArith.mul_zero]; decide +kernel
  unfold euler
  simp only [if_neg h', ne_eq, hne, not_false_iff, if_true]
  rw [hz, slopeR, hz', hg]

theorem free_neg {V ge : Double} (k : ℕ) (h : ∀ j ≤ k, climb (slopeR stdFl dt ge) V j < d10) :
    freeRunFl stdFl dt ⟨V, ge, 0, -1⟩ k = ⟨climb (slopeR stdFl dt ge) V k, ge, 0, -1⟩ := by
  induction k with
  | zero => rfl
  | succ k ih =>
    rw [freeRunFl, ih fun j hj => h j (by omega), euler_neg_low (h (k + 1) le_rfl)]; rfl

theorem climb_add (d V : Double) (a b : ℕ) : climb d (climb d V a) b = climb d V (a + b) := by
  induction b with
  | zero => rfl
  | succ b ih => rw [climb, ih]; rfl

/-- The ramp of the exponential accumulator starts before the current: a plain ramp. -/
theorem exp_run_late {A B k : ℕ} {w : Double} (hB : 0 < B) (hBA : B < A) (hA : A ≤ B + k)
    (hh : ∀ i, hits i = (if i = A then [(.gf, d50), (.gate, 1)] else []) ++ (if i = B then [(.gate, -1), (.ge, w)] else []))
    (hlow : ∀ j ≤ k, climb (slopeR stdFl dt (0 + w)) 0 j < d10) (hfire : d10 ≤ climb (slopeR stdFl dt (0 + w)) 0 (k + 1)) : FitsR stdFl dt hits [B + k] := by
  have hn : ∀ i, i ≠ A → i ≠ B → hits i = [] := fun i h1 h2 => by rw [hh, if_neg h1, if_neg h2]; rfl
  refine fits_one (fun s f hr => ?_) (fun i hi => hn i (by omega) (by omega))
  obtain ⟨q1, s1⟩ := hr.idle (a := 0) hr.start.1 lt0 (B - 1) (Nat.zero_le _) (fun i h1 h2 => hn i (by omega) (by omega))
  obtain ⟨q2, s2⟩ := hr.go (S' := ⟨0, 0 + w, 0, -1⟩) s1 (fun l hl => by
      rw [show B - 1 + 1 = B by omega, hh, if_neg (by omega), if_pos rfl] at hl
      rw [fold_perm hl (by simp)]
      show (⟨0, 0 + w, 0, 0 + -1⟩ : NState Double) = _
      rw [zero_addD (-1)]) (A - B)
    (fun i h1 h2 => hn i (by omega) (by omega))
    (fun j hj => by rw [free_neg j fun i hi => hlow i (by omega), euler_neg_low (hlow (j + 1) (by omega))])
  have s2' := s2 (by omega)
  rw [free_neg _ fun i hi => hlow i (by omega), show B - 1 + (A - B) = A - 1 by omega] at s2'
  obtain ⟨q4, f4, s4⟩ := hr.go_fire (S' := ⟨climb (slopeR stdFl dt (0 + w)) 0 (A - B), 0 + w, 0 + d50, 0⟩) s2' (fun l hl => by
      rw [show A - 1 + 1 = A by omega, hh, if_pos rfl, if_neg (by omega)] at hl
      rw [fold_perm hl (by simp)]
      have e2 : (-1 : Double) + 1 = 0 := by decide +kernel
      show (⟨climb (slopeR stdFl dt (0 + w)) 0 (A - B), 0 + w, 0 + d50, -1 + 1⟩ : NState Double) = _
      rw [e2]) (k - (A - B)) (fun i h1 h2 => hn i (by omega) (by omega))
    (fun j hj => shut_false (k := k - (A - B)) (fun i hi => by rw [climb_add]; exact hlow _ (by omega)) hj)
    (shut_true (fun i hi => by rw [climb_add]; exact hlow _ (by omega)) (by rw [climb_add, show A - B + (k - (A - B) + 1) = k + 1 by omega]; exact hfire))
  rw [show A - 1 + (k - (A - B)) + 1 = B + k by omega] at f4 s4
  refine ⟨fun i h0 hi => ?_, f4, s4⟩
  rcases Nat.lt_or_ge (A - 1) i with h1 | h1
  · exact q4 i h1 (by omega)
  · rcases Nat.lt_or_ge (B - 1) i with h2 | h2
    · exact q2 i h2 (by omega)
    · exact q1 i h0 h2

/-- **The exponential accumulator in doubles**, whatever the order of its two signals: the ramp of `n` steps takes the remaining part of them. -/
theorem exp_any (hdt : 0 < dt.val) (hdt1 : dt.val ≤ 1) {w : Double} {n : ℚ} (h : GoodSlope (slopeR stdFl dt (0 + w)) n) {A B : ℕ} (hA : 0 < A) (hB : 0 < B)
    (hm : B - A ≤ 2 ^ 24) (hAB : (A : ℚ) + 2 ≤ B + n) (hl : 7 * ((B - A : ℕ) : ℚ) * uu ≤ rhoQ dt ^ (B - A))
    (hh : ∀ i, hits i = (if i = A then [(.gf, d50), (.gate, 1)] else []) ++ (if i = B then [(.gate, -1), (.ge, w)] else [])) :
    ∃ k : ℕ, FitsR stdFl dt hits [B + k] ∧ n * rhoQ dt ^ (B - A) - 1 / 2 ≤ (k : ℚ) + 1 ∧ (k : ℚ) + 1 ≤ n * rhoQ dt ^ (B - A) + 3 / 2 := by
  rcases Nat.lt_or_ge A B with hlt | hge
  · exact exp_fits hdt hdt1 h hA (by omega) (by omega) hm hl hh
  · obtain ⟨k, r1, r2, r3, r4⟩ := ramp_count h
    rw [show B - A = 0 by omega, pow_zero, mul_one]
    refine ⟨k, ?_, by linarith, by linarith⟩
    rcases Nat.eq_or_lt_of_le hge with rfl | hlt
    · exact exp_run_same hB hh r1 r2
    · refine exp_run_late hB hlt ?_ hh r1 r2
      have : (A : ℚ) ≤ B + k := by linarith
      exact_mod_cast this

end Axon
