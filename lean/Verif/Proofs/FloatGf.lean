import Verif.Proofs.FloatRamp

/-! # The gated exponential current of a neuron in Python floats -/
set_option linter.unusedSectionVars false
namespace Axon
open Spec

section Generic
variable {K : Type*} [LinearOrder K] [Add K] [Sub K] [Mul K] [Div K] [Zero K] [One K] [NatCast K] [RoundedArith K]

theorem addHit_comm (x y : SynKind × K) (h : x.1 ≠ y.1) (s : NState K) : addHit (addHit s x) y = addHit (addHit s y) x := by
  obtain ⟨k, a⟩ := x
  obtain ⟨k', b⟩ := y
  cases k <;> cases k' <;> first | rfl | exact absurd rfl h

/-- If the arrivals of a step are of different kinds, their order does not matter. -/
theorem fold_perm {l l' : List (SynKind × K)} (h : l.Perm l') (hn : l'.Pairwise fun x y => x.1 ≠ y.1) (s : NState K) :
    l.foldl addHit s = l'.foldl addHit s := by
  refine (List.Perm.foldl_eq' h.symm (fun x hx y hy z => ?_) s).symm
  by_cases hxy : x = y
  · rw [hxy]
  · have hne : x.1 ≠ y.1 := List.Pairwise.forall_of_forall_of_flip (R := fun x y => x ≠ y → x.1 ≠ y.1) (by intro x _ hx; exact absurd rfl hx)
      (hn.imp fun {a b} h => show a ≠ b → a.1 ≠ b.1 from fun _ => h) (hn.imp fun {a b} h => show b ≠ a → b.1 ≠ a.1 from fun _ => Ne.symm h) hx hy hxy
    exact addHit_comm x y hne z

/-- The state after `k` steps without arrivals. -/
def freeRunFl (p : Params K) (dt : K) (S : NState K) : ℕ → NState K
  | 0 => S
  | k + 1 => (euler p dt (freeRunFl p dt S k)).1

variable {p : Params K} {dt : K} {hits : ℕ → List (SynKind × K)} {s : ℕ → NState K} {f : ℕ → Bool}

theorem NRun.go (h : NRun p dt hits s f) {a : ℕ} {S S' : NState K} (hs : s a = S) (ht : ∀ l : List (SynKind × K), l.Perm (hits (a + 1)) → l.foldl addHit S = S')
    (k : ℕ) (hq : ∀ i, a + 1 < i → i ≤ a + k → hits i = []) (hlow : ∀ j < k, (euler p dt (freeRunFl p dt S' j)).2 = false) :
    (∀ i, a < i → i ≤ a + k → f i = false) ∧ (1 ≤ k → s (a + k) = freeRunFl p dt S' k) := by
  induction k with
  | zero => exact ⟨by intro i h1 h2; omega, by omega⟩
  | succ k ih =>
    obtain ⟨h1, h2⟩ := ih (fun i hi hi' => hq i hi (by omega)) (fun j hj => hlow j (by omega))
    obtain ⟨l, hl, he⟩ := h.step (a + k)
    have hst : l.foldl addHit (s (a + k)) = freeRunFl p dt S' k := by
      rcases Nat.eq_zero_or_pos k with rfl | hk
      · rw [Nat.add_zero, hs]; exact ht l hl
      · rw [hq (a + k + 1) (by omega) (by omega)] at hl
        rw [hl.eq_nil, h2 hk]; rfl
    rw [hst] at he
    have e1 : s (a + k + 1) = (euler p dt (freeRunFl p dt S' k)).1 := congrArg Prod.fst he
    have e2 : f (a + k + 1) = (euler p dt (freeRunFl p dt S' k)).2 := congrArg Prod.snd he
    refine ⟨fun i hi hi' => ?_, fun _ => e1⟩
    rcases Nat.lt_or_ge i (a + k + 1) with hlt | hge
    · exact h1 i hi (by omega)
    · rw [show i = a + k + 1 by omega, e2]; exact hlow k (by omega)

theorem NRun.go_fire (h : NRun p dt hits s f) {a : ℕ} {S S' : NState K} (hs : s a = S) (ht : ∀ l : List (SynKind × K), l.Perm (hits (a + 1)) → l.foldl addHit S = S')
    (k : ℕ) (hq : ∀ i, a + 1 < i → i ≤ a + (k + 1) → hits i = []) (hlow : ∀ j < k, (euler p dt (freeRunFl p dt S' j)).2 = false)
    (hfire : (euler p dt (freeRunFl p dt S' k)).2 = true) :
    (∀ i, a < i → i ≤ a + k → f i = false) ∧ f (a + k + 1) = true ∧ s (a + k + 1) = ⟨p.Vreset, 0, 0, 0⟩ := by
  obtain ⟨h1, h2⟩ := h.go hs ht k (fun i hi hi' => hq i hi (by omega)) hlow
  obtain ⟨l, hl, he⟩ := h.step (a + k)
  have hst : l.foldl addHit (s (a + k)) = freeRunFl p dt S' k := by
    rcases Nat.eq_zero_or_pos k with rfl | hk
    · rw [Nat.add_zero, hs]; exact ht l hl
    · rw [hq (a + k + 1) (by omega) (by omega)] at hl
      rw [hl.eq_nil, h2 hk]; rfl
  rw [hst] at he
  have e1 : s (a + k + 1) = (euler p dt (freeRunFl p dt S' k)).1 := congrArg Prod.fst he
  have e2 : f (a + k + 1) = (euler p dt (freeRunFl p dt S' k)).2 := congrArg Prod.snd he
  refine ⟨h1, e2.trans hfire, e1.trans ?_⟩
  unfold euler at hfire ⊢
  dsimp only at hfire ⊢
  split at hfire
  · rename_i hc; rw [if_pos hc]
  · exact absurd hfire (by simp)

end Generic

/-! ## The three ways a neuron moves -/
variable {dt : Double}

theorem zero_mulD (x : Double) : 0 * x = 0 := Fl.val_injective (by rw [Fl.val_mul, Fl.val_zero, zero_mul, fl_zero])
theorem one_mulD (x : Double) : 1 * x = x := Fl.val_injective (by rw [Fl.val_mul, Fl.val_one, one_mul, x.exact])

/-- The gate is shut: only `ge` counts. -/
theorem euler_shut_low {V ge G : Double} (h : V + slopeR stdFl dt ge < d10) : euler stdFl dt ⟨V, ge, G, 0⟩ = (⟨V + slopeR stdFl dt ge, ge, G, 0⟩, false) := by
  have h' : ¬ stdFl.Vt ≤ V + dt * (ge + 0 * G) / stdFl.tm := by rw [zero_mulD, ← zero_mulD (0 : Double)]; exact not_le.mpr h
  unfold euler
  simp only [if_neg h', ne_eq, not_true, if_false]
  rw [zero_mulD, slopeR, zero_mulD]

theorem euler_shut_fire {V ge G : Double} (h : d10 ≤ V + slopeR stdFl dt ge) : euler stdFl dt ⟨V, ge, G, 0⟩ = (⟨0, 0, 0, 0⟩, true) := by
  have h' : stdFl.Vt ≤ V + dt * (ge + 0 * G) / stdFl.tm := by rw [zero_mulD, ← zero_mulD (0 : Double)]; exact h
  unfold euler
  simp only [if_pos h']; rfl

theorem free_shut {V ge G : Double} (k : ℕ) (h : ∀ j ≤ k, climb (slopeR stdFl dt ge) V j < d10) :
    freeRunFl stdFl dt ⟨V, ge, G, 0⟩ k = ⟨climb (slopeR stdFl dt ge) V k, ge, G, 0⟩ := by
  induction k with
  | zero => rfl
  | succ k ih =>
    rw [freeRunFl, ih fun j hj => h j (by omega), euler_shut_low (h (k + 1) le_rfl)]; rfl

/-- The exponential current after `k` steps. -/
def gfAt (dt G : Double) : ℕ → Double
  | 0 => G
  | k + 1 => gfAt dt G k - dt * (gfAt dt G k / stdFl.tf)

/-- The voltage after `k` steps of exponential current. -/
def vAt (dt G V : Double) : ℕ → Double
  | 0 => V
  | k + 1 => vAt dt G V k + dt * gfAt dt G k / stdFl.tm

theorem one_ne : (1 : Double) ≠ 0 := by decide +kernel

theorem euler_open_low {V G : Double} (h : V + dt * G / stdFl.tm < d10) :
    euler stdFl dt ⟨V, 0, G, 1⟩ = (⟨V + dt * G / stdFl.tm, 0, G - dt * (G / stdFl.tf), 1⟩, false) := by
  have h' : ¬ stdFl.Vt ≤ V + dt * (0 + 1 * G) / stdFl.tm := by rw [one_mulD, zero_addD]; exact not_le.mpr h
  unfold euler
  simp only [if_neg h', ne_eq, one_ne, not_false_iff, if_true]
  rw [one_mulD, zero_addD]

theorem euler_open_fire {V G : Double} (h : d10 ≤ V + dt * G / stdFl.tm) : euler stdFl dt ⟨V, 0, G, 1⟩ = (⟨0, 0, 0, 0⟩, true) := by
  have h' : stdFl.Vt ≤ V + dt * (0 + 1 * G) / stdFl.tm := by rw [one_mulD, zero_addD]; exact h
  unfold euler
  simp only [if_pos h']; rfl

theorem free_open {V G : Double} (k : ℕ) (h : ∀ j ≤ k, vAt dt G V j < d10) : freeRunFl stdFl dt ⟨V, 0, G, 1⟩ k = ⟨vAt dt G V k, 0, gfAt dt G k, 1⟩ := by
  induction k with
  | zero => rfl
  | succ k ih =>
    rw [freeRunFl, ih fun j hj => h j (by omega), euler_open_low (h (k + 1) le_rfl)]; rfl

/-! ## Rounding errors -/

/-- One step of the decay. -/
theorem gf_step {x d u : ℚ} {r1 r2 r3 : ℚ} (hu0 : 0 < u) (hu : u ≤ 1 / 100) (hx : 0 ≤ x) (hd0 : 0 ≤ d) (hd : d ≤ 5)
    (h1 : |r1 - x / 20| ≤ |x / 20| * u) (h2 : |r2 - d * r1| ≤ |d * r1| * u) (h3 : |r3 - (x - r2)| ≤ |x - r2| * u) :
    |r3 - x * (1 - d / 20)| ≤ x * (1 - d / 20) * (2 * u) := by
  have hx20 : 0 ≤ x / 20 := by positivity
  rw [abs_of_nonneg hx20] at h1
  obtain ⟨a1, a2⟩ := abs_le.mp h1
  have hr1 : 0 ≤ r1 := by nlinarith
  have hdr : 0 ≤ d * r1 := by positivity
  rw [abs_of_nonneg hdr] at h2
  obtain ⟨b1, b2⟩ := abs_le.mp h2
  have c1 : d * r1 ≤ d * (x / 20 * (1 + u)) := mul_le_mul_of_nonneg_left (by linarith) hd0
  have c2 : d * (x / 20 * (1 - u)) ≤ d * r1 := mul_le_mul_of_nonneg_left (by linarith) hd0
  obtain ⟨y, hy⟩ : ∃ y, y = d * (x / 20) := ⟨_, rfl⟩
  have hy0 : 0 ≤ y := by rw [hy]; positivity
  have hy1 : y ≤ x / 4 := by rw [hy]; have := mul_le_mul_of_nonneg_right hd hx20; linarith
  have c1' : d * r1 ≤ y + y * u := by rw [hy]; linarith
  have c2' : y - y * u ≤ d * r1 := by rw [hy]; linarith
  have hyu : 0 ≤ y * u := by positivity
  have hyuu : y * u * u ≤ y * u * (1 / 100) := mul_le_mul_of_nonneg_left hu hyu
  have e1 : d * r1 * u ≤ (y + y * u) * u := mul_le_mul_of_nonneg_right c1' hu0.le
  have f1 : r2 ≤ y + 21 / 10 * (y * u) := by nlinarith
  have f2 : y - 21 / 10 * (y * u) ≤ r2 := by nlinarith
  have hxu : 0 ≤ x * u := by positivity
  have hyx : y * u ≤ x / 4 * u := mul_le_mul_of_nonneg_right hy1 hu0.le
  have hxs : x * u ≤ x / 100 := by have := mul_le_mul_of_nonneg_left hu hx; linarith
  have hw : 0 ≤ x - r2 := by linarith
  rw [abs_of_nonneg hw] at h3
  have hw1 : x - r2 ≤ x - y + 21 / 10 * (y * u) := by linarith
  have hw2 : (x - r2) * u ≤ (x - y + 21 / 10 * (y * u)) * u := mul_le_mul_of_nonneg_right hw1 hu0.le
  have hw3 : (x - y + 21 / 10 * (y * u)) * u ≤ (x - y) * u + 21 / 10 * (y * u) * (1 / 100) := by nlinarith
  obtain ⟨g1, g2⟩ := abs_le.mp h3
  have hgoal : x * (1 - d / 20) = x - y := by rw [hy]; ring
  rw [hgoal, abs_le]
  have key : 22 / 10 * (y * u) ≤ (x - y) * u := by nlinarith
  constructor <;> linarith

/-- What is left of the current after `k` exact steps. -/
def rhoQ (dt : Double) : ℚ := 1 - dt.val / 20

theorem tf_val : stdFl.tf.val = 20 := by decide +kernel
theorem tm_val : stdFl.tm.val = 100 := by decide +kernel

theorem gfAt_val (dt G : Double) (k : ℕ) : (gfAt dt G (k + 1)).val = fl 53 ((gfAt dt G k).val - fl 53 (dt.val * fl 53 ((gfAt dt G k).val / 20))) := by
  rw [gfAt, Fl.val_sub, Fl.val_mul, Fl.val_div, tf_val]

theorem vAt_val (dt G V : Double) (k : ℕ) : (vAt dt G V (k + 1)).val = fl 53 ((vAt dt G V k).val + fl 53 (fl 53 (dt.val * (gfAt dt G k).val) / 100)) := by
  rw [vAt, Fl.val_add, Fl.val_div, Fl.val_mul, tm_val]

theorem gf_err {dt G : Double} (hdt : 0 < dt.val) (hdt5 : dt.val ≤ 5) (hG : 0 ≤ G.val) {k : ℕ} (hk : k ≤ 2 ^ 28) :
    |(gfAt dt G k).val - G.val * rhoQ dt ^ k| ≤ G.val * rhoQ dt ^ k * (4 * k * uu) := by
  have hu0 : 0 < uu := by norm_num
  have hub : (2 : ℚ) ^ 28 * uu = 1 / 2 ^ 25 := by norm_num
  have hu1 : uu ≤ 1 / 100 := by norm_num
  have hr0 : 0 < rhoQ dt := by unfold rhoQ; linarith
  induction k with
  | zero => simp [gfAt]
  | succ k ih =>
    have h1 := ih (by omega)
    have hq : 0 ≤ G.val * rhoQ dt ^ k := by positivity
    have hku : (k : ℚ) * uu ≤ 1 / 2 ^ 25 := by
      have : (k : ℚ) ≤ 2 ^ 28 := by exact_mod_cast (by omega : k ≤ 2 ^ 28)
      calc (k : ℚ) * uu ≤ 2 ^ 28 * uu := mul_le_mul_of_nonneg_right this hu0.le
        _ = _ := hub
    have hku0 : 0 ≤ (k : ℚ) * uu := by positivity
    obtain ⟨a1, a2⟩ := abs_le.mp h1
    have hx : 0 ≤ (gfAt dt G k).val := by
      have := mul_le_mul_of_nonneg_left hku hq
      clear h1 ih hub hu1
      generalize G.val * rhoQ dt ^ k = q at *
      generalize uu = u at *
      linarith
    have hs := gf_step (r1 := fl 53 ((gfAt dt G k).val / 20)) hu0 hu1 hx hdt.le hdt5 (fl_near _) (fl_near _) (fl_near _)
    rw [← gfAt_val] at hs
    generalize (gfAt dt G (k + 1)).val = y at *
    generalize (gfAt dt G k).val = x at *
    rw [pow_succ, ← mul_assoc]
    push_cast
    have hr1 : rhoQ dt = 1 - dt.val / 20 := rfl
    rw [← hr1] at hs
    generalize rhoQ dt = r at *
    generalize G.val * r ^ k = q at *
    generalize uu = u at *
    obtain ⟨b1, b2⟩ := abs_le.mp hs
    have c1 : x * r ≤ (q + q * (4 * k * u)) * r := mul_le_mul_of_nonneg_right (by linarith) hr0.le
    have c2 : (q - q * (4 * k * u)) * r ≤ x * r := mul_le_mul_of_nonneg_right (by linarith) hr0.le
    have hqr : 0 ≤ q * r := by positivity
    have c3 : x * r ≤ 2 * (q * r) := by
      have : q * r * (k * u) ≤ q * r * (1 / 2 ^ 25) := mul_le_mul_of_nonneg_left hku hqr
      nlinarith
    have c4 : x * r * (2 * u) ≤ 2 * (q * r) * (2 * u) := mul_le_mul_of_nonneg_right c3 (by positivity)
    rw [abs_le]
    constructor <;> nlinarith

/-- One step of the voltage under the current. -/
theorem inc_step {x d u r1 r2 : ℚ} (hu0 : 0 < u) (hu : u ≤ 1 / 100) (hx : 0 ≤ x) (hd0 : 0 ≤ d)
    (h1 : |r1 - d * x| ≤ |d * x| * u) (h2 : |r2 - r1 / 100| ≤ |r1 / 100| * u) : |r2 - d * x / 100| ≤ d * x / 100 * (3 * u) := by
  have hdx : 0 ≤ d * x := by positivity
  rw [abs_of_nonneg hdx] at h1
  obtain ⟨a1, a2⟩ := abs_le.mp h1
  generalize d * x = y at *
  have hyu : 0 ≤ y * u := by positivity
  have hyu1 : y * u ≤ y * (1 / 100) := mul_le_mul_of_nonneg_left hu hdx
  have hr : 0 ≤ r1 / 100 := by linarith
  rw [abs_of_nonneg hr] at h2
  obtain ⟨b1, b2⟩ := abs_le.mp h2
  have c : r1 / 100 * u ≤ (2 * y) / 100 * u := mul_le_mul_of_nonneg_right (by linarith) hu0.le
  rw [abs_le]
  constructor <;> linarith

/-- The voltage under an exponential current of 50 from the start: `V + 10 * (1 - rho ^ k)`, up to rounding. -/
theorem v_err {dt G V : Double} (hdt : 0 < dt.val) (hdt1 : dt.val ≤ 1) (hG : G.val = 50) (hV : -1 ≤ V.val) {k : ℕ} (hk : k ≤ 2 ^ 28)
    (hlow : ∀ j < k, (vAt dt G V j).val < 10) :
    |(vAt dt G V k).val - (V.val + 10 * (1 - rhoQ dt ^ k))| ≤ 63 * k * uu := by
  have hu0 : 0 < uu := by norm_num
  have hub : (2 : ℚ) ^ 28 * uu = 1 / 2 ^ 25 := by norm_num
  have hu1 : uu ≤ 1 / 2 ^ 25 := by norm_num
  have hr0 : 0 < rhoQ dt := by unfold rhoQ; linarith
  have hr1 : rhoQ dt ≤ 1 := by unfold rhoQ; linarith
  have hrd : 10 * (1 - rhoQ dt) = dt.val / 2 := by unfold rhoQ; ring
  suffices h : |(vAt dt G V k).val - (V.val + 10 * (1 - rhoQ dt ^ k))| ≤ 50 * k * uu * (1 - rhoQ dt ^ k) + 13 * k * uu by
    refine h.trans ?_
    have h1 : 0 ≤ rhoQ dt ^ k := by positivity
    have h2 : 50 * (k : ℚ) * uu * (1 - rhoQ dt ^ k) ≤ 50 * k * uu * 1 := mul_le_mul_of_nonneg_left (by linarith) (by positivity)
    linarith
  induction k with
  | zero => simp [vAt]
  | succ k ih =>
    have hke : (k : ℚ) * uu ≤ 1 / 2 ^ 25 := by
      have : (k : ℚ) ≤ 2 ^ 28 := by exact_mod_cast (by omega : k ≤ 2 ^ 28)
      calc (k : ℚ) * uu ≤ 2 ^ 28 * uu := mul_le_mul_of_nonneg_right this hu0.le
        _ = _ := hub
    have hku0 : 0 ≤ (k : ℚ) * uu := by positivity
    have h1 := ih (by omega) (fun j hj => hlow j (by omega))
    have h2 := gf_err hdt (by linarith) (by rw [hG]; norm_num) (k := k) (by omega) (G := G)
    rw [hG] at h2
    have hlt := hlow k (by omega)
    have hp0 : 0 < rhoQ dt ^ k := by positivity
    have hp1 : rhoQ dt ^ k ≤ 1 := pow_le_one₀ hr0.le hr1
    obtain ⟨a1, a2⟩ := abs_le.mp h2
    have hx : 0 ≤ (gfAt dt G k).val := by
      have := mul_le_mul_of_nonneg_left hke hp0.le
      clear h1 ih hub hu1
      generalize rhoQ dt ^ k = q at *
      generalize uu = u at *
      linarith
    have hs := inc_step (u := uu) (r1 := fl 53 (dt.val * (gfAt dt G k).val)) hu0 (by linarith) hx hdt.le (fl_near _) (fl_near _)
    have hf := fl_near ((vAt dt G V k).val + fl 53 (fl 53 (dt.val * (gfAt dt G k).val) / 100))
    rw [← vAt_val] at hf
    rw [pow_succ]
    push_cast
    generalize fl 53 (fl 53 (dt.val * (gfAt dt G k).val) / 100) = inc at *
    generalize (vAt dt G V (k + 1)).val = v' at *
    generalize (vAt dt G V k).val = v at *
    generalize (gfAt dt G k).val = x at *
    generalize rhoQ dt ^ k = q at *
    generalize rhoQ dt = r at *
    generalize dt.val = d at *
    generalize V.val = V at *
    generalize (k : ℚ) = k at *
    generalize uu = u at *
    -- the increment
    obtain ⟨b1, b2⟩ := abs_le.mp hs
    obtain ⟨c1, c2⟩ := abs_le.mp h1
    have hdq : 0 ≤ d * q := by positivity
    have hdx1 : d * x ≤ d * (50 * q + 50 * q * (4 * k * u)) := mul_le_mul_of_nonneg_left (by linarith) hdt.le
    have hdx2 : d * (50 * q - 50 * q * (4 * k * u)) ≤ d * x := mul_le_mul_of_nonneg_left (by linarith) hdt.le
    have hm : d * q * (k * u) ≤ d * q * (1 / 2 ^ 25) := mul_le_mul_of_nonneg_left hke hdq
    have hm0 : 0 ≤ d * q * (k * u) := by positivity
    have hdx3 : d * x ≤ 60 * (d * q) := by linarith
    have hdx4 : d * x / 100 * (3 * u) ≤ 60 * (d * q) / 100 * (3 * u) := mul_le_mul_of_nonneg_right (by linarith) (by positivity)
    have hi : |inc - d * q / 2| ≤ d * q * (5 / 2 * (k + 1) * u) := by
      rw [abs_le]; constructor <;> linarith
    obtain ⟨i1, i2⟩ := abs_le.mp hi
    have hdq1 : d * q ≤ 1 := by nlinarith
    have hm1 : d * q * u ≤ 1 / 2 ^ 25 := by
      have : d * q * u ≤ 1 * u := mul_le_mul_of_nonneg_right hdq1 hu0.le
      linarith
    have hvl : -2 ≤ v := by
      have h3 : 50 * k * u * (1 - q) ≤ 50 * k * u * 1 := mul_le_mul_of_nonneg_left (by linarith) (by linarith)
      linarith
    have habs : |v + inc| ≤ 12 := by
      rw [abs_le]; constructor <;> linarith
    have hr : |v + inc| * u ≤ 12 * u := mul_le_mul_of_nonneg_right habs hu0.le
    obtain ⟨f1, f2⟩ := abs_le.mp (hf.trans hr)
    have hdr : 10 * (1 - q * r) = 10 * (1 - q) + d * q / 2 := by
      have : 10 * (1 - r) * q = d / 2 * q := by rw [hrd]
      linarith
    have hqr : 50 * ((k + 1) * u) * (1 - q * r) = 50 * ((k + 1) * u) * (1 - q) + (k + 1) * u * (5 / 2 * (d * q)) := by
      have : 1 - q * r = (1 - q) + d * q / 20 := by linarith
      rw [this]; ring
    have hq1 : 0 ≤ u * (1 - q) := mul_nonneg hu0.le (by linarith)
    rw [hdr, abs_le]
    constructor <;> linarith

end Axon
