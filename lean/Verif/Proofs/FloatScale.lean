import Verif.Proofs.FloatChoice

/-! # An accumulator with two slopes, in doubles -/
set_option linter.unusedSectionVars false
namespace Axon
open Spec

theorem perm_pair {α : Type*} {l : List α} {x y : α} (h : l.Perm [x, y]) : l = [x, y] ∨ l = [y, x] := by
  have hlen := h.length_eq
  obtain ⟨u, v, rfl⟩ : ∃ u v, l = [u, v] := by
    match l, hlen with
    | [u, v], _ => exact ⟨u, v, rfl⟩
  have hu : u = x ∨ u = y := by simpa using h.subset (List.mem_cons_self)
  rcases hu with rfl | rfl
  · left; have := (List.perm_cons u).mp h; rw [List.perm_singleton.mp this]
  · right
    have h' : [u, v].Perm [u, x] := h.trans (List.Perm.swap _ _ _)
    have := (List.perm_cons u).mp h'; rw [List.perm_singleton.mp this]

theorem climb_succ' {K : Type*} [Add K] (d V : K) (k : ℕ) : climb d (V + d) k = climb d V (k + 1) := by
  induction k with
  | zero => rfl
  | succ k ih => rw [climb, ih]; rfl

variable {dt : Double}

/-- Driven with slope `wl` from step `a` to step `b`, where the drive becomes `g`: the neuron fires when the voltage reaches the threshold. -/
theorem FitsX.two {hits : ℕ → List (SynKind × Double)} {wl g : Double} {a b k : ℕ} (ha : 0 < a) (hab : a < b)
    (h1 : hits a = [(.ge, wl)]) (h2 : ∀ V : Double, (hits b).foldl addHit ⟨V, 0 + wl, 0, 0⟩ = ⟨V, g, 0, 0⟩) (h0 : ∀ i, i ≠ a → i ≠ b → hits i = [])
    (hlow0 : ∀ j ≤ b - a, climb (slopeR stdFl dt (0 + wl)) 0 j < d10)
    (hlow : ∀ j ≤ k, climb (slopeR stdFl dt g) (climb (slopeR stdFl dt (0 + wl)) 0 (b - a)) j < d10)
    (hfire : d10 ≤ climb (slopeR stdFl dt g) (climb (slopeR stdFl dt (0 + wl)) 0 (b - a)) (k + 1)) : FitsX stdFl dt hits [b + k] := by
  intro s f hx
  have hr : NRun stdFl dt hits s f := hx.toR fun _ => List.Perm.refl _
  obtain ⟨q1, s1⟩ := hr.idle (a := 0) hr.start.1 lt0 (a - 1) (Nat.zero_le _) (fun i _ _ => h0 i (by omega) (by omega))
  obtain ⟨q2, s2⟩ := hr.seg s1 (Turns.one (e := (.ge, wl)) (by rw [show a - 1 + 1 = a by omega, h1]) (hitGe 0 0 _)) (b - a)
    (fun i _ _ => h0 i (by omega) (by omega)) (fun j _ hj => hlow0 j hj)
  have s2' := s2 (by omega)
  rw [show a - 1 + (b - a) = b - 1 by omega] at s2'
  set V := climb (slopeR stdFl dt (0 + wl)) 0 (b - a) with hV
  have hb := hx.step (b - 1)
  rw [show b - 1 + 1 = b by omega, s2', h2 V] at hb
  have tail : ∃ q4 : ∀ i, b ≤ i → i < b + k → f i = false, f (b + k) = true ∧ s (b + k) = ⟨stdFl.Vreset, 0, 0, 0⟩ := by
    rcases Nat.eq_zero_or_pos k with rfl | hk
    · rw [euler_fire (V := V) hfire] at hb
      obtain ⟨e1, e2⟩ := Prod.mk.inj hb
      exact ⟨by intro i _ _; omega, e2, e1⟩
    · rw [euler_low (V := V) (hlow 1 hk)] at hb
      obtain ⟨e1, e2⟩ := Prod.mk.inj hb
      obtain ⟨q3, f3, s3⟩ := hr.seg_fire e1 (Turns.none (h0 (b + 1) (by omega) (by omega))) (k - 1) (fun i _ _ => h0 i (by omega) (by omega))
        (fun j _ hj => by rw [climb_succ']; exact hlow _ (by omega)) (by rw [climb_succ', show k - 1 + 1 + 1 = k + 1 by omega]; exact hfire)
      rw [show b + (k - 1) + 1 = b + k by omega] at f3 s3
      refine ⟨fun i hi hi' => ?_, f3, s3⟩
      rcases Nat.eq_or_lt_of_le hi with rfl | hlt
      · exact e2
      · exact q3 i hlt (by omega)
  obtain ⟨q4, f4, s4⟩ := tail
  intro i
  rcases Nat.lt_trichotomy i (b + k) with hi | rfl | hi
  · have : f i = false := by
      rcases Nat.eq_zero_or_pos i with rfl | hi0
      · exact hr.start.2
      · rcases Nat.lt_or_ge (b - 1) i with h2 | h2
        · exact q4 i (by omega) hi
        · rcases Nat.lt_or_ge (a - 1) i with h3 | h3
          · exact q2 i h3 (by omega)
          · exact q1 i hi0 h3
    rw [this]; simp; omega
  · rw [f4]; simp
  · rw [(hr.idle s4 lt0 i hi.le (fun j _ _ => h0 j (by omega) (by omega))).1 i hi le_rfl]; simp; omega

/-- How long the second slope takes. -/
theorem two_count {d d' : Double} {N N' : ℚ} (hN : 13 ≤ N) (hN2 : N ≤ 2 ^ 24 + 1) (hN' : 12 ≤ N') (hN2' : N' ≤ 2 ^ 24 + 1) (hd : d.val = 10 / N) (hd' : d'.val = 10 / N')
    {M : ℕ} (hM : (M : ℚ) ≤ N) (hlow : ∀ j ≤ M, climb d 0 j < d10) :
    ∃ k : ℕ, (∀ j ≤ k, climb d' (climb d 0 M) j < d10) ∧ d10 ≤ climb d' (climb d 0 M) (k + 1) ∧
      N' - M * (N' / N) - 1 / 8 ≤ (k : ℚ) + 1 ∧ (k : ℚ) + 1 ≤ N' - M * (N' / N) + 1 + 1 / 8 := by
  have hNp : 0 < N := by linarith
  have hNp' : 0 < N' := by linarith
  have hu0 : (0 : ℚ) < uu := by norm_num
  have e1 : 10 / (2 ^ 24 + 1) ≤ d.val := by rw [hd]; exact div_le_div_of_nonneg_left (by norm_num) hNp hN2
  have e2 : 10 / (2 ^ 24 + 1) ≤ d'.val := by rw [hd']; exact div_le_div_of_nonneg_left (by norm_num) hNp' hN2'
  have e3 : 24 * uu ≤ d'.val := le_trans (by norm_num) e2
  have e3' : 12 * uu ≤ d'.val / 2 := by generalize uu = u at *; linarith
  have e4 : d.val ≤ 10 / 13 := by rw [hd]; exact div_le_div_of_nonneg_left (by norm_num) (by norm_num) hN
  have e5 : d'.val ≤ 10 / 12 := by rw [hd']; exact div_le_div_of_nonneg_left (by norm_num) (by norm_num) hN'
  have hd0 : 0 ≤ d.val := by rw [hd]; positivity
  have hd0' : 0 < d'.val := by rw [hd']; positivity
  have hlt : ∀ j ≤ M, (climb d 0 j).val < 10 := fun j hj => by have := hlow j hj; rw [Fl.lt_iff, d10_val] at this; exact this
  have herr := abs_le.mp (climb_err d 0 M (fun j hj => by
    have h1 := hlt j hj.le
    have h2 := climb_ge hd0 0 j
    rw [Fl.val_zero] at h2
    rw [abs_le]; constructor <;> linarith))
  rw [Fl.val_zero, zero_add] at herr
  have hV0 := climb_ge hd0 0 M
  rw [Fl.val_zero] at hV0
  obtain ⟨k, q1, q2, q3, q4⟩ := climb_fires (d := d') (V := climb d 0 M) e3 (e5.trans (by norm_num)) (by linarith) (hlt _ le_rfl)
  refine ⟨k, q1, q2, ?_⟩
  push_cast at q3
  have hk0 : (0 : ℚ) ≤ k := Nat.cast_nonneg _
  -- a crude bound on k
  have hk : (k : ℚ) ≤ 2 * N' := by
    have h1 : (k : ℚ) * (d'.val / 2) ≤ k * (d'.val - 12 * uu) := mul_le_mul_of_nonneg_left (by generalize uu = u at *; linarith) hk0
    have h2 : (k : ℚ) * (d'.val / 2) ≤ 10 := h1.trans (by linarith)
    rw [hd'] at h2
    have h3 : (k : ℚ) * (10 / N' / 2) * N' ≤ 10 * N' := mul_le_mul_of_nonneg_right h2 hNp'.le
    have h4 : (k : ℚ) * (10 / N' / 2) * N' = 5 * k := by field_simp; ring
    linarith
  have hr : d.val * N' = 10 * (N' / N) := by rw [hd]; ring
  have hr' : d'.val * N' = 10 := by rw [hd']; field_simp
  -- the total of the roundings
  have hE : ((M : ℚ) + (k + 1)) * (12 * uu) * N' ≤ 5 / 4 := by
    have h1 : (M : ℚ) + (k + 1) ≤ 3 * (2 ^ 24 + 2) := by linarith
    have h2 : ((M : ℚ) + (k + 1)) * (12 * uu) ≤ 3 * (2 ^ 24 + 2) * (12 * uu) := mul_le_mul_of_nonneg_right h1 (by positivity)
    have h3 : ((M : ℚ) + (k + 1)) * (12 * uu) * N' ≤ 3 * (2 ^ 24 + 2) * (12 * uu) * (2 ^ 24 + 1) := mul_le_mul h2 hN2' hNp'.le (by positivity)
    have h4 : (3 : ℚ) * (2 ^ 24 + 2) * (12 * uu) * (2 ^ 24 + 1) ≤ 5 / 4 := by norm_num
    exact h3.trans h4
  have hE0 : 0 ≤ (M : ℚ) * (12 * uu) * N' := by positivity
  have hE1 : 0 ≤ (k : ℚ) * (12 * uu) * N' := by positivity
  have hE2 : 0 ≤ 12 * uu * N' := by positivity
  have a1 : 10 * N' ≤ (climb d 0 M).val * N' + ((k : ℚ) + 1) * (d'.val + 12 * uu) * N' := by
    have := mul_le_mul_of_nonneg_right q3 hNp'.le
    linarith
  have a2 : (climb d 0 M).val * N' ≤ M * d.val * N' + M * (12 * uu) * N' := by
    have := mul_le_mul_of_nonneg_right (show (climb d 0 M).val ≤ M * d.val + M * (12 * uu) by linarith [herr.2]) hNp'.le
    linarith
  have a3 : (M : ℚ) * d.val * N' - M * (12 * uu) * N' ≤ (climb d 0 M).val * N' := by
    have := mul_le_mul_of_nonneg_right (show M * d.val - M * (12 * uu) ≤ (climb d 0 M).val by linarith [herr.1]) hNp'.le
    linarith
  have a4 : (climb d 0 M).val * N' + (k : ℚ) * (d'.val - 12 * uu) * N' ≤ 10 * N' := by
    have := mul_le_mul_of_nonneg_right q4.le hNp'.le
    linarith
  have b1 : (M : ℚ) * d.val * N' = 10 * (M * (N' / N)) := by rw [mul_assoc, hr]; ring
  have b2 : ((k : ℚ) + 1) * (d'.val + 12 * uu) * N' = 10 * (k + 1) + (k * (12 * uu) * N' + 12 * uu * N') := by
    have : ((k : ℚ) + 1) * (d'.val + 12 * uu) * N' = (k + 1) * (d'.val * N') + (k * (12 * uu) * N' + 12 * uu * N') := by ring
    rw [this, hr']; ring
  have b3 : (k : ℚ) * (d'.val - 12 * uu) * N' = 10 * k - k * (12 * uu) * N' := by
    have : (k : ℚ) * (d'.val - 12 * uu) * N' = k * (d'.val * N') - k * (12 * uu) * N' := by ring
    rw [this, hr']; ring
  have hE' : (M : ℚ) * (12 * uu) * N' + k * (12 * uu) * N' + 12 * uu * N' ≤ 5 / 4 := by
    have : ((M : ℚ) + (k + 1)) * (12 * uu) * N' = M * (12 * uu) * N' + k * (12 * uu) * N' + 12 * uu * N' := by ring
    linarith
  rw [b1] at a2 a3
  rw [b2] at a1
  rw [b3] at a4
  generalize (M : ℚ) * (12 * uu) * N' = X at *
  generalize (k : ℚ) * (12 * uu) * N' = Y at *
  generalize 12 * uu * N' = Z at *
  generalize (M : ℚ) * (N' / N) = W at *
  constructor <;> linarith

/-- The increment of one step, for a weight known up to a relative error. -/
theorem slope_rel {w : Double} {W e : ℚ} (hdt : 0 < dt.val) (hW : 0 < W) (he : e ≤ 1 / 100) (he0 : 0 ≤ e) (hw : |w.val - W| ≤ W * e) :
    |(slopeR stdFl dt w).val - dt.val * W / 100| ≤ dt.val * W / 100 * (e + 4 * uu) := by
  have h100 : stdFl.tm.val = 100 := by decide +kernel
  have hz : (0 : Double) * 0 = 0 := RoundedArith.mul_zero _
  have ee : (slopeR stdFl dt w).val = fl 53 (fl 53 (dt.val * w.val) / 100) := by
    unfold slopeR
    rw [hz, RoundedArith.add_zero, Fl.val_div, h100, Fl.val_mul]
  rw [ee]
  set t := dt.val
  have hu0 : (0 : ℚ) < uu := by norm_num
  have hus : uu ≤ 1 / 100 := by norm_num
  have fnear := fl_near
  generalize uu = u at *
  obtain ⟨a1, a2⟩ := abs_le.mp hw
  have hwe : W * e ≤ W * (1 / 100) := mul_le_mul_of_nonneg_left he hW.le
  have hw0 : 0 < w.val := by linarith
  have htw : 0 < t * w.val := by positivity
  have htW : 0 < t * W := by positivity
  have b1 := abs_le.mp (fnear (t * w.val))
  rw [abs_of_pos htw] at b1
  have hB'0 : 0 < fl 53 (t * w.val) := fl_pos htw
  set B' := fl 53 (t * w.val)
  have c1 := abs_le.mp (fnear (B' / 100))
  rw [abs_of_pos (by positivity)] at c1
  set C' := fl 53 (B' / 100)
  have t1 : t * w.val ≤ t * W * (1 + e) := by
    have : t * w.val ≤ t * (W + W * e) := mul_le_mul_of_nonneg_left (by linarith) hdt.le
    linarith
  have t2 : t * W * (1 - e) ≤ t * w.val := by
    have : t * (W - W * e) ≤ t * w.val := mul_le_mul_of_nonneg_left (by linarith) hdt.le
    linarith
  have t3 : B' ≤ t * W * ((1 + e) * (1 + u)) := by
    have : t * w.val * (1 + u) ≤ t * W * (1 + e) * (1 + u) := mul_le_mul_of_nonneg_right t1 (by linarith)
    linarith [b1.2]
  have t4 : t * W * ((1 - e) * (1 - u)) ≤ B' := by
    have : t * W * (1 - e) * (1 - u) ≤ t * w.val * (1 - u) := mul_le_mul_of_nonneg_right t2 (by linarith)
    linarith [b1.1]
  have t5 : C' ≤ t * W / 100 * ((1 + e) * (1 + u) * (1 + u)) := by
    have : B' * (1 + u) ≤ t * W * ((1 + e) * (1 + u)) * (1 + u) := mul_le_mul_of_nonneg_right t3 (by linarith)
    linarith [c1.2]
  have t6 : t * W / 100 * ((1 - e) * (1 - u) * (1 - u)) ≤ C' := by
    have : t * W * ((1 - e) * (1 - u)) * (1 - u) ≤ B' * (1 - u) := mul_le_mul_of_nonneg_right t4 (by linarith)
    linarith [c1.1]
  have w1 : u * u ≤ u * (1 / 100) := mul_le_mul_of_nonneg_left hus hu0.le
  have w2 : e * u ≤ (1 / 100) * u := mul_le_mul_of_nonneg_right he hu0.le
  have w3 : 0 ≤ e * u := by positivity
  have w4 : e * (u * u) ≤ (1 / 100) * (u * u) := mul_le_mul_of_nonneg_right he (by positivity)
  have w5 : 0 ≤ e * (u * u) := by positivity
  have w6 : 0 ≤ u * u := by positivity
  have p1 : (1 + e) * (1 + u) * (1 + u) ≤ 1 + (e + 4 * u) := by
    have : (1 + e) * (1 + u) * (1 + u) = 1 + e + 2 * u + u * u + 2 * (e * u) + e * (u * u) := by ring
    linarith
  have p2 : 1 - (e + 4 * u) ≤ (1 - e) * (1 - u) * (1 - u) := by
    have : (1 - e) * (1 - u) * (1 - u) = 1 - e - 2 * u + u * u + 2 * (e * u) - e * (u * u) := by ring
    linarith
  have q1 : t * W / 100 * ((1 + e) * (1 + u) * (1 + u)) ≤ t * W / 100 * (1 + (e + 4 * u)) := mul_le_mul_of_nonneg_left p1 (by positivity)
  have q2 : t * W / 100 * (1 - (e + 4 * u)) ≤ t * W / 100 * ((1 - e) * (1 - u) * (1 - u)) := mul_le_mul_of_nonneg_left p2 (by positivity)
  rw [abs_le]
  constructor <;> linarith

/-- The number of steps of a ramp, from its slope. -/
theorem inv_near {d D ε : ℚ} (hD : 0 < D) (hε : ε ≤ 1 / 2) (h : |d - D| ≤ D * ε) : 0 < d ∧ |10 / d - 10 / D| ≤ 10 / D * (2 * ε) := by
  obtain ⟨h1, h2⟩ := abs_le.mp h
  have hDe : D * ε ≤ D * (1 / 2) := mul_le_mul_of_nonneg_left hε hD.le
  have hd : 0 < d := by linarith
  have hε0 : 0 ≤ D * ε := le_trans (abs_nonneg _) h
  refine ⟨hd, ?_⟩
  have e : 10 / d - 10 / D = 10 * (D - d) / (d * D) := by field_simp
  rw [e, abs_div, abs_of_pos (by positivity : 0 < d * D), div_le_iff₀ (by positivity), abs_mul, abs_sub_comm]
  have : 10 / D * (2 * ε) * (d * D) = 20 * (ε * d) := by field_simp; ring
  rw [this, abs_of_pos (by norm_num : (0 : ℚ) < 10)]
  have hε1 : 0 ≤ ε := by
    by_contra hc
    push Not at hc
    have := mul_neg_of_pos_of_neg hD hc
    linarith
  have : ε * (D / 2) ≤ ε * d := mul_le_mul_of_nonneg_left (by linarith) hε1
  linarith

/-- What is known about the two slopes of a rescaler with factor `F`: `nl = n / F` steps for the long ramp. -/
theorem scale_slopes {enc : Encoder Double} {φ : Double} {n nl : ℚ} (hdt : 0 < dt.val) (hT : 0 < enc.Tmax.val) (hF : 0 < φ.val)
    (hn : n = enc.Tmax.val / dt.val) (hnl : nl = enc.Tmax.val / (φ.val * dt.val)) (h13 : 13 ≤ n) (hn2 : n ≤ 2 ^ 24) (h18 : 18 ≤ nl) (hnl2 : nl ≤ 2 ^ 23)
    {g : Double} (hg : g = enc.waccFl ∨ g = 0 + φ * enc.waccFl + enc.waccFl + -(φ * enc.waccFl)) :
    ∃ N, GoodSlope (slopeR stdFl dt (0 + φ * enc.waccFl)) N ∧ |N - nl| ≤ 1 / 1000 ∧
      ∀ M : ℕ, (M : ℚ) ≤ N → (∀ j ≤ M, climb (slopeR stdFl dt (0 + φ * enc.waccFl)) 0 j < d10) →
        ∃ k : ℕ, (∀ j ≤ k, climb (slopeR stdFl dt g) (climb (slopeR stdFl dt (0 + φ * enc.waccFl)) 0 M) j < d10) ∧
          d10 ≤ climb (slopeR stdFl dt g) (climb (slopeR stdFl dt (0 + φ * enc.waccFl)) 0 M) (k + 1) ∧
          n - M * φ.val - 1 / 6 ≤ (k : ℚ) + 1 ∧ (k : ℚ) + 1 ≤ n - M * φ.val + 1 + 1 / 6 := by
  set wl := φ * enc.waccFl with hwl
  set F := φ.val with hFdef
  set T := enc.Tmax.val with hTdef
  set t := dt.val with htdef
  obtain ⟨W, hWd⟩ : ∃ W, W = 1000 / T := ⟨_, rfl⟩
  have hW : 0 < W := by rw [hWd]; positivity
  have hu0 : (0 : ℚ) < uu := by norm_num
  have hFn : F * nl = n := by rw [hnl, hn]; field_simp
  have hFb : F ≤ 2 ^ 24 / 18 := by
    rw [le_div_iff₀ (by norm_num)]
    have : F * 18 ≤ F * nl := mul_le_mul_of_nonneg_left h18 hF.le
    linarith
  -- the weights
  have ew : |enc.waccFl.val - W| ≤ W * uu := by
    have := fl_near (1000 / T)
    rw [← hWd, abs_of_pos hW] at this
    have e : enc.waccFl.val = fl 53 W := by rw [Encoder.waccFl, Fl.val_div, d1000, hWd]
    rw [e]; exact this
  have el : |wl.val - F * W| ≤ F * W * (3 * uu) := by
    have e : wl.val = fl 53 (F * enc.waccFl.val) := by rw [hwl, Fl.val_mul]
    have h1 := fl_near (F * enc.waccFl.val)
    rw [e]
    obtain ⟨a1, a2⟩ := abs_le.mp ew
    have hus : uu ≤ 1 / 100 := by norm_num
    generalize uu = u at *
    have hWu : W * u ≤ W * (1 / 100) := mul_le_mul_of_nonneg_left hus hW.le
    have p : 0 < F * enc.waccFl.val := mul_pos hF (by linarith)
    rw [abs_of_pos p] at h1
    obtain ⟨b1, b2⟩ := abs_le.mp h1
    have c1 : F * enc.waccFl.val ≤ F * (W + W * u) := mul_le_mul_of_nonneg_left (by linarith) hF.le
    have c2 : F * (W - W * u) ≤ F * enc.waccFl.val := mul_le_mul_of_nonneg_left (by linarith) hF.le
    have c3 : F * enc.waccFl.val * u ≤ F * (W + W * u) * u := mul_le_mul_of_nonneg_right c1 hu0.le
    have c4 : F * W * (u * u) ≤ F * W * (u * (1 / 100)) := mul_le_mul_of_nonneg_left (mul_le_mul_of_nonneg_left hus hu0.le) (by positivity)
    have c5 : 0 ≤ F * W * u := by positivity
    have c6 : F * (W + W * u) * u = F * W * u + F * W * (u * u) := by ring
    rw [abs_le]
    constructor <;> linarith
  have eg : |g.val - W| ≤ W * ((2 * F + 4) * uu) := by
    have hWF : 0 ≤ W * (F * uu) := by positivity
    have hWu0 : 0 ≤ W * uu := by positivity
    rcases hg with rfl | rfl
    · refine ew.trans ?_
      generalize uu = u at *
      linarith
    · have e : (0 + wl + enc.waccFl + -wl).val = fl 53 (fl 53 (wl.val + enc.waccFl.val) + -wl.val) := by
        rw [zero_addD, Fl.val_add, Fl.val_add]; rfl
      rw [e]
      have h1 := fl_near (wl.val + enc.waccFl.val)
      have h2 := fl_near (fl 53 (wl.val + enc.waccFl.val) + -wl.val)
      obtain ⟨a1, a2⟩ := abs_le.mp ew
      obtain ⟨b1, b2⟩ := abs_le.mp el
      have hus : uu ≤ 1 / 1000 := by norm_num
      have huF : F * uu ≤ 1 / 1000 := by
        calc F * uu ≤ 2 ^ 24 / 18 * uu := mul_le_mul_of_nonneg_right hFb hu0.le
          _ ≤ 1 / 1000 := by norm_num
      generalize uu = u at *
      set X := fl 53 (wl.val + enc.waccFl.val)
      have hWu : W * u ≤ W * (1 / 1000) := mul_le_mul_of_nonneg_left hus hW.le
      have hFW : 0 < F * W := by positivity
      have hFWu : F * W * u ≤ F * W * (1 / 1000) := mul_le_mul_of_nonneg_left hus hFW.le
      have hFWu2 : W * (F * u) ≤ W * (1 / 1000) := mul_le_mul_of_nonneg_left huF hW.le
      have p1 : 0 ≤ wl.val := by linarith
      have p2 : 0 ≤ enc.waccFl.val := by linarith
      have s1 : wl.val + enc.waccFl.val ≤ 101 / 100 * (F * W + W) := by linarith
      have s2 : (wl.val + enc.waccFl.val) * u ≤ 101 / 100 * (F * W + W) * u := mul_le_mul_of_nonneg_right s1 hu0.le
      rw [abs_of_nonneg (show 0 ≤ wl.val + enc.waccFl.val by linarith)] at h1
      obtain ⟨x1, x2⟩ := abs_le.mp (h1.trans s2)
      have hX : |X + -wl.val| ≤ 11 / 10 * W := by
        rw [abs_le]; constructor <;> linarith
      obtain ⟨y1, y2⟩ := abs_le.mp (h2.trans (mul_le_mul_of_nonneg_right hX hu0.le))
      have hp : 0 ≤ F * W * u := by positivity
      rw [abs_le]
      constructor <;> linarith
  -- the slopes
  have hu6 : (3 : ℚ) * uu ≤ 1 / 100 := by norm_num
  have sl := slope_rel (dt := dt) (w := 0 + wl) (W := F * W) (e := 3 * uu) hdt (by positivity) hu6 (by positivity) (by rw [zero_addD]; exact el)
  have hge : (2 * F + 4) * uu ≤ 1 / 100 := by
    calc (2 * F + 4) * uu ≤ (2 * (2 ^ 24 / 18) + 4) * uu := mul_le_mul_of_nonneg_right (by linarith) hu0.le
      _ ≤ 1 / 100 := by norm_num
  have sg := slope_rel (dt := dt) (w := g) (W := W) (e := (2 * F + 4) * uu) hdt hW hge (by positivity) eg
  obtain ⟨l1, l2⟩ := inv_near (by positivity) (by norm_num) sl
  obtain ⟨g1, g2⟩ := inv_near (by positivity) (by
    have : (4 : ℚ) * uu ≤ 1 / 100 := by norm_num
    calc (2 * F + 4) * uu + 4 * uu ≤ 1 / 100 + 1 / 100 := add_le_add hge this
      _ ≤ 1 / 2 := by norm_num) sg
  have i1 : 10 / (t * (F * W) / 100) = nl := by rw [hnl, hWd]; field_simp; norm_num
  have i2 : 10 / (t * W / 100) = n := by rw [hn, hWd]; field_simp; norm_num
  rw [← htdef, i1] at l2
  rw [← htdef, i2] at g2
  set d := slopeR stdFl dt (0 + wl)
  set d' := slopeR stdFl dt g
  obtain ⟨N, hN⟩ : ∃ N, N = 10 / d.val := ⟨_, rfl⟩
  obtain ⟨N', hN'⟩ : ∃ N, N = 10 / d'.val := ⟨_, rfl⟩
  rw [← hN] at l2
  rw [← hN'] at g2
  have hd : d.val = 10 / N := by rw [hN]; field_simp
  have hd' : d'.val = 10 / N' := by rw [hN']; field_simp
  have k1 : |N - nl| ≤ 1 / 1000000 := l2.trans (by
    calc nl * (2 * (3 * uu + 4 * uu)) ≤ 2 ^ 23 * (2 * (3 * uu + 4 * uu)) := mul_le_mul_of_nonneg_right hnl2 (by norm_num)
      _ ≤ 1 / 1000000 := by norm_num)
  have hnF : n * F ≤ 2 ^ 24 * (2 ^ 24 / 18) := mul_le_mul hn2 hFb hF.le (by norm_num)
  have k2 : |N' - n| ≤ 1 / 100 := g2.trans (by
    calc n * (2 * ((2 * F + 4) * uu + 4 * uu)) = 4 * (n * F) * uu + 16 * n * uu := by ring
      _ ≤ 4 * (2 ^ 24 * (2 ^ 24 / 18)) * uu + 16 * 2 ^ 24 * uu :=
        add_le_add (mul_le_mul_of_nonneg_right (by linarith) hu0.le) (mul_le_mul_of_nonneg_right (by linarith) hu0.le)
      _ ≤ 1 / 100 := by norm_num)
  have k3 : F * |N - nl| ≤ 1 / 1000 := by
    calc F * |N - nl| ≤ F * (nl * (2 * (3 * uu + 4 * uu))) := mul_le_mul_of_nonneg_left l2 hF.le
      _ = n * (2 * (3 * uu + 4 * uu)) := by rw [← mul_assoc, hFn]
      _ ≤ 2 ^ 24 * (2 * (3 * uu + 4 * uu)) := mul_le_mul_of_nonneg_right hn2 (by norm_num)
      _ ≤ 1 / 1000 := by norm_num
  obtain ⟨k1a, k1b⟩ := abs_le.mp k1
  obtain ⟨k2a, k2b⟩ := abs_le.mp k2
  have hNp : 0 < N := by linarith
  have hN'13 : (12 : ℚ) ≤ N' := by linarith
  refine ⟨N, ⟨by linarith, by linarith, by rw [hd, sub_self, abs_zero]; positivity⟩, k1.trans (by norm_num), fun M hM hlow => ?_⟩
  have hMN : |M * (N' / N) - M * F| ≤ 1 / 50 := by
    have e : (M : ℚ) * (N' / N) - M * F = M / N * (N' - F * N) := by field_simp
    have h0 : 0 ≤ (M : ℚ) / N := by positivity
    have h1 : (M : ℚ) / N ≤ 1 := by rw [div_le_one hNp]; exact hM
    have h2 : N' - F * N = (N' - n) - F * (N - nl) := by rw [← hFn]; ring
    have h3 : |N' - F * N| ≤ 1 / 100 + 1 / 1000 := by
      rw [h2]
      refine (abs_sub _ _).trans (add_le_add k2 ?_)
      rw [abs_mul, abs_of_pos hF]; exact k3
    rw [e, abs_mul, abs_of_nonneg h0]
    calc (M : ℚ) / N * |N' - F * N| ≤ 1 * (1 / 100 + 1 / 1000) := mul_le_mul h1 h3 (abs_nonneg _) (by norm_num)
      _ ≤ 1 / 50 := by norm_num
  obtain ⟨m1, m2⟩ := abs_le.mp hMN
  obtain ⟨k, r1, r2, r3, r4⟩ := two_count (d := d) (d' := d') (N := N) (N' := N') (by linarith) (by linarith) (by linarith) (by linarith) hd hd' hM hlow
  exact ⟨k, r1, r2, by linarith, by linarith⟩

end Axon
