import Verif.Spec.PredProgram
import Verif.Proofs.PredNorm
import Verif.Proofs.PredAdd
import Verif.Proofs.EndToEnd

/-! # The modules of a compiled program, in the predictive simulator -/
set_option linter.unusedSectionVars false
namespace Axon
open Spec

/-- The module of an operation, alone and given the spikes `inj`, spikes as `LS` says. -/
def BlockRuns (op : OpType) (r dt : ℝ) (inj : List (ℕ × ℝ)) (LS : ℕ → List ℝ) : Prop :=
  ∀ E : PEnv ℝ, E.exp = Real.exp → E.dt = dt → E.net.syns = (spawnEmpty op r).2.syns.reverse → (∀ x, E.net.par x = stdPar) →
    ∀ x < (spawnEmpty op r).2.neus.length, Fits E inj LS x

/-- The spikes of a pair of rails. -/
def RailsShow (LS : ℕ → List ℝ) (p : Header) (neg : Bool) (a b : ℝ) : Prop := LS p.plus = off neg [a, b] ∧ LS p.minus = off (!neg) [a, b]

theorem load_runs {r dt : ℝ} (hs : Sane Real.exp dt) (neg : Bool) {a b : ℝ} (hab : a < b) :
    ∃ LS, BlockRuns .load r dt (railInj 0 1 neg a b) LS ∧ RailsShow LS ⟨0, 1⟩ neg a b := by
  refine ⟨fun x => [off neg [a, b], off (!neg) [a, b]].getD x [], ?_, rfl, rfl⟩
  intro E e1 e2 e3 e4 x hx
  have e3' : E.net.syns = [] := e3
  have hx' : x < 2 := hx
  have hs' : Sane E.exp E.dt := by rw [e1, e2]; exact hs
  interval_cases x <;> cases neg
  · exact Fits.pair (e4 _) hs' (a := a) (b := b) hab (by simp [arriving, e3', railInj, e4, stdPar]) rfl
  · exact Fits.none (by simp [arriving, e3', railInj]) rfl
  · exact Fits.none (by simp [arriving, e3', railInj]) rfl
  · exact Fits.pair (e4 _) hs' (a := a) (b := b) hab (by simp [arriving, e3', railInj, e4, stdPar]) rfl

theorem neg_runs {r dt : ℝ} (hs : Sane Real.exp dt) (neg : Bool) {a b : ℝ} (hab : a < b) :
    ∃ LS, BlockRuns .neg r dt (railInj 0 1 neg a b) LS ∧ RailsShow LS ⟨2, 3⟩ (!neg) (a + 1) (b + 1) := by
  refine ⟨fun x => [off neg [a, b], off (!neg) [a, b], off (!neg) [a + 1, b + 1], off neg [a + 1, b + 1]].getD x [], ?_, rfl, by simp⟩
  intro E e1 e2 e3 e4 x hx
  have e3' : E.net.syns = [⟨0, 3, 10, 1, .V⟩, ⟨1, 2, 10, 1, .V⟩] := e3
  have hx' : x < 4 := hx
  have hs' : Sane E.exp E.dt := by rw [e1, e2]; exact hs
  interval_cases x <;> cases neg
  · exact Fits.pair (e4 _) hs' (a := a) (b := b) hab (by simp [arriving, e3', railInj, e4, stdPar]) rfl
  · exact Fits.none (by simp [arriving, e3', railInj]) rfl
  · exact Fits.none (by simp [arriving, e3', railInj]) rfl
  · exact Fits.pair (e4 _) hs' (a := a) (b := b) hab (by simp [arriving, e3', railInj, e4, stdPar]) rfl
  · exact Fits.none (by simp [arriving, e3', railInj]) rfl
  · exact Fits.pair (e4 _) hs' (a := a + 1) (b := b + 1) (by linarith) (by simp [arriving, e3', railInj, e4, stdPar]) rfl
  · exact Fits.pair (e4 _) hs' (a := a + 1) (b := b + 1) (by linarith) (by simp [arriving, e3', railInj, e4, stdPar]) rfl
  · exact Fits.none (by simp [arriving, e3', railInj]) rfl

/-- The part of a value that goes to the positive side, and to the negative side. -/
theorem signed_parts {neg : Bool} {x : ℝ} (h : signed neg |x| = x) : max x 0 = (bif neg then 0 else |x|) ∧ max (-x) 0 = (bif neg then |x| else 0) := by
  unfold signed at h
  cases neg
  · simp only [Bool.false_eq_true, if_false] at h
    have h0 : 0 ≤ x := h ▸ abs_nonneg x
    simp [abs_of_nonneg h0, h0]
  · simp only [if_true] at h
    have h0 : x ≤ 0 := by have := abs_nonneg x; linarith
    simp [abs_of_nonpos h0, h0]

set_option maxHeartbeats 1000000 in
theorem add_runs {r dt : ℝ} (hr : 0 < r) (hs : Sane Real.exp dt) (hd : dt ≤ 1) {n₁ n₂ : Bool} {a₁ b₁ a₂ b₂ x₁ x₂ ε₁ ε₂ : ℝ} (h₁ : a₁ + 10 ≤ b₁) (h₂ : a₂ + 10 ≤ b₂)
    (s₁ : signed n₁ |x₁| = x₁) (s₂ : signed n₂ |x₂| = x₂) (e₁ : |b₁ - a₁ - (10 + |x₁| / r * 100)| ≤ ε₁) (e₂ : |b₂ - a₂ - (10 + |x₂| / r * 100)| ≤ ε₂)
    (hpos : (max x₁ 0 + max x₂ 0) / r * 100 + (ε₁ + ε₂ + dt) ≤ 100)
    (hneg : (max (-x₁) 0 + max (-x₂) 0) / r * 100 + (ε₁ + ε₂ + dt) ≤ 100)
    (hzero : ε₁ + ε₂ ≤ (x₁ + x₂) / r * 100 ∨ (x₁ + x₂) / r * 100 + (ε₁ + ε₂ + dt) + 1 / 100 ≤ 0) :
    ∃ LS neg a b, BlockRuns .add r dt (railInj 40 41 n₁ a₁ b₁ ++ railInj 46 47 n₂ a₂ b₂) LS ∧ RailsShow LS ⟨6, 7⟩ neg a b ∧ b₁ ≤ a ∧ a + 10 ≤ b ∧
      signed neg |x₁ + x₂| = x₁ + x₂ ∧ |b - a - (10 + |x₁ + x₂| / r * 100)| ≤ ε₁ + ε₂ + dt := by
  have hdt := hs.pos
  have hTm : (defaultEncoder : Encoder ℝ).Tmin = 10 := rfl
  have hTc : (defaultEncoder : Encoder ℝ).Tcod = 100 := rfl
  have hTx : (defaultEncoder : Encoder ℝ).Tmax = 110 := by show (10 : ℝ) + 100 = 110; norm_num
  obtain ⟨-, bl, bs⟩ := add_block (K := ℝ) r
  obtain ⟨p₁, q₁⟩ := signed_parts s₁
  obtain ⟨p₂, q₂⟩ := signed_parts s₂
  rw [p₁, p₂] at hpos
  rw [q₁, q₂] at hneg
  obtain ⟨PP, hPP⟩ : ∃ PP, PP = (bif n₁ then 0 else (b₁ - a₁ - 10)) + (bif n₂ then 0 else (b₂ - a₂ - 10)) := ⟨_, rfl⟩
  obtain ⟨QQ, hQQ⟩ : ∃ QQ, QQ = (bif n₁ then (b₁ - a₁ - 10) else 0) + (bif n₂ then (b₂ - a₂ - 10) else 0) := ⟨_, rfl⟩
  obtain ⟨l₁, u₁⟩ := abs_le.mp e₁
  obtain ⟨l₂, u₂⟩ := abs_le.mp e₂
  have z₁ : 0 ≤ ε₁ := (abs_nonneg _).trans e₁
  have z₂ : 0 ≤ ε₂ := (abs_nonneg _).trans e₂
  have hPle : PP + dt ≤ 100 := by
    rw [hPP]; cases n₁ <;> cases n₂ <;> simp only [cond_true, cond_false, add_div, zero_add, add_zero, zero_div] at hpos ⊢ <;> linarith
  have hQle : QQ + dt ≤ 100 := by
    rw [hQQ]; cases n₁ <;> cases n₂ <;> simp only [cond_true, cond_false, add_div, zero_add, add_zero, zero_div] at hneg ⊢ <;> linarith
  have hS : |PP - QQ - (x₁ + x₂) / r * 100| ≤ ε₁ + ε₂ := by
    have k₁ : |(bif n₁ then 0 else (b₁ - a₁ - 10)) - (bif n₁ then (b₁ - a₁ - 10) else 0) - x₁ / r * 100| ≤ ε₁ := by
      conv_lhs => rw [← s₁]
      unfold signed
      rw [abs_le]
      cases n₁ <;> simp [neg_div] <;> constructor <;> linarith
    have k₂ : |(bif n₂ then 0 else (b₂ - a₂ - 10)) - (bif n₂ then (b₂ - a₂ - 10) else 0) - x₂ / r * 100| ≤ ε₂ := by
      conv_lhs => rw [← s₂]
      unfold signed
      rw [abs_le]
      cases n₂ <;> simp [neg_div] <;> constructor <;> linarith
    rw [abs_le] at k₁ k₂ ⊢
    rw [hPP, hQQ, add_div]
    constructor <;> linarith [k₁.1, k₁.2, k₂.1, k₂.2]
  obtain ⟨S1, S2⟩ := abs_le.mp hS
  have hup := up_lt hdt 110
  obtain ⟨LS, hfit, y, D, hy, hD, o1, o2, -⟩ := lin_block (enc := defaultEncoder) (N := 2) (by rw [hTm]; norm_num) (by rw [hTc]; norm_num) hs hd (by rw [hTx]; linarith) (by norm_num)
    (neg := fun i => if i = 0 then n₁ else n₂) (a := fun i => if i = 0 then a₁ else a₂) (b := fun i => if i = 0 then b₁ else b₂) (c := fun i => ([1, 1] : List ℝ).getD i 0)
    (by intro i hi; interval_cases i <;> simpa [hTm]) (PP := PP) (QQ := QQ)
    (by rw [hPP, show List.range 2 = [0, 1] from rfl]; cases n₁ <;> cases n₂ <;> simp [toPlus, hTm]) (by rw [hTx, hTc]; linarith)
    (by rw [hQQ, show List.range 2 = [0, 1] from rfl]; cases n₁ <;> cases n₂ <;> simp [toPlus, hTm]) (by rw [hTx, hTc]; linarith)
  have hb : BlockRuns .add r dt (railInj 40 41 n₁ a₁ b₁ ++ railInj 46 47 n₂ a₂ b₂) LS := by
    intro E e1 e2 e3 e4 x hx
    rw [bl] at hx
    have := hfit E e1 e2 (by rw [e3, bs]; exact List.reverse_perm _) (fun x _ => e4 x) x hx
    rw [show List.range 2 = [0, 1] from rfl] at this
    cases n₁ <;> cases n₂ <;> simpa [railInj] using this
  rw [hTx] at hD
  have i1 := le_up hdt (110 - QQ)
  have i2 := up_lt hdt (110 - QQ)
  have i3 := le_up hdt (110 - PP)
  have i4 := up_lt hdt (110 - PP)
  have hy1 : b₁ ≤ y := by have := hy 0 (by norm_num); simpa using this
  have habs : ∀ {s : ℝ}, (0 ≤ s / r * 100 → 0 ≤ s) ∧ (s / r * 100 ≤ 0 → s ≤ 0) := by
    intro s
    constructor
    · intro h
      have : 0 ≤ s / r := by linarith
      by_contra hc
      exact absurd this (not_le.mpr (div_neg_of_neg_of_pos (not_le.mp hc) hr))
    · intro h
      have : s / r ≤ 0 := by linarith
      by_contra hc
      exact absurd this (not_le.mpr (div_pos (not_le.mp hc) hr))
  rcases hzero with hz | hz
  · have hle : PP ≥ QQ := by linarith
    have hD0 : 0 ≤ D := by
      rw [hD]; have := up_le_up hdt (x := 110 - PP) (y := 110 - QQ) (by linarith); linarith
    obtain ⟨t1, t2⟩ := o1 hD0
    have hx0 : 0 ≤ x₁ + x₂ := habs.1 (by linarith)
    refine ⟨LS, false, y, y + 10 + D, hb, ⟨by rw [← hTm]; exact t1, t2⟩, hy1, by linarith, by simp [signed, abs_of_nonneg hx0], ?_⟩
    rw [abs_of_nonneg hx0, abs_le]
    constructor <;> linarith
  · have hD0 : D ≤ -(1 / 100) := by linarith
    obtain ⟨t1, t2⟩ := o2 hD0
    have hx0 : x₁ + x₂ ≤ 0 := habs.2 (by linarith)
    refine ⟨LS, true, y, y + 10 - D, hb, ⟨t2, by rw [← hTm]; exact t1⟩, hy1, by linarith, by simp [signed, abs_of_nonpos hx0], ?_⟩
    rw [abs_of_nonpos hx0, abs_le, neg_div]
    constructor <;> linarith

/-- The whole multiplier module, once the trains of its inner multiplier are known. -/
theorem norm_runs {r dt : ℝ} (hr : 0 < r) (hs : Sane Real.exp dt) (hd : dt ≤ 1) {n₁ n₂ : Bool} {a₁ b₁ a₂ b₂ P J : ℝ} {L4 L5 L8 L10 : List ℝ}
    (ha₁ : 0 ≤ a₁) (h₁ : a₁ + 10 ≤ b₁) (ha₂ : 0 ≤ a₂) (h₂ : a₂ + 10 ≤ b₂) (hhor : 110 / r + 2 * dt ≤ 500) (hMP : max b₁ b₂ + 1 ≤ P)
    (hJ : 0 < J ∨ J = 0 ∧ 1 ≤ r) (hrJ : r * J < 110)
    (hmul : ∀ E : PEnv ℝ, E.exp = Real.exp → E.dt = dt → E.net.syns = pmulSyns defaultEncoder → (∀ x < 12, E.net.par x = stdPar) → ∀ x < 12,
      Fits E [(0, a₁ + 1), (0, b₁ + 1), (1, a₂ + 1), (1, b₂ + 1)] (mulLS (a₁ + 1) (b₁ + 1) (a₂ + 1) (b₂ + 1) (max b₁ b₂ + 1) L4 L5 L8 L10 [P, P + 10 + J]) x) :
    ∃ LS a, BlockRuns .mul r dt (railInj 18 19 n₁ a₁ b₁ ++ railInj 20 21 n₂ a₂ b₂) LS ∧
      RailsShow LS ⟨22, 23⟩ (n₁ != n₂) a (a + 10 + up dt (max 0 (r * J - r * (up dt (110 / r) - 110 / r)))) ∧ b₁ ≤ a := by
  have hdt := hs.pos
  have hTm : (defaultEncoder : Encoder ℝ).Tmin = 10 := rfl
  have hTc : (defaultEncoder : Encoder ℝ).Tcod = 100 := rfl
  have hTx : (defaultEncoder : Encoder ℝ).Tmax = 110 := by show (10 : ℝ) + 100 = 110; norm_num
  obtain ⟨-, bl, bs⟩ := mul_block (K := ℝ) r
  have hA1 := le_up hdt (110 / r)
  have hr0 : 0 < 110 / r := by positivity
  refine ⟨normLS n₁ n₂ 10 a₁ b₁ a₂ b₂ (max b₁ b₂) P (P + 10 + J) (up dt (110 / r)) (up dt (max 0 (r * J - r * (up dt (110 / r) - 110 / r)))) L4 L5 L8 L10,
    P + 10 + up dt (110 / r) + 6, ?_, ⟨rfl, ?_⟩, ?_⟩
  · intro E e1 e2 e3 e4 x hx
    rw [bl] at hx
    have e3' : E.net.syns = pmulSyns defaultEncoder ++ (scalSyns12 r defaultEncoder ++ normOuter) := by
      rw [e3, bs]; exact norm_syns _ _ _
    have := norm_fits (enc := defaultEncoder) (f := r) (A := up dt (110 / r)) (C := up dt (max 0 (r * J - r * (up dt (110 / r) - 110 / r)))) (J := J)
      (by rw [hTm]; norm_num) (by rw [hTc]; norm_num) (E := E) (by rw [e1, e2]; exact hs) e3' (fun x _ => e4 x) hr (by rw [hTx, e2]; exact hhor)
      (by rw [hTx, e2]; linarith) n₁ n₂ ha₁ (by linarith) ha₂ (by linarith) rfl hMP (by rw [hTm]) hJ (by rw [hTx]; exact hrJ) (by rw [hTx, e2]) (by rw [hTx, e2])
      (hmul _ e1 e2 rfl (fun _ _ => rfl)) x hx
    exact this
  · show off (n₁ == n₂) _ = off (!(n₁ != n₂)) _
    cases n₁ <;> cases n₂ <;> rfl
  · have := le_max_left b₁ b₂
    linarith

theorem sub_mul_mul_le {v₁ v₂ y₁ y₂ e₁ e₂ : ℝ} (hv₂ : 0 ≤ v₂) (hv₂' : v₂ ≤ 1) (hy₁ : 0 ≤ y₁) (hy₁' : y₁ ≤ 1) (h₁ : |v₁ - y₁| ≤ e₁) (h₂ : |v₂ - y₂| ≤ e₂) :
    |v₁ * v₂ - y₁ * y₂| ≤ e₁ + e₂ := by
  rw [show v₁ * v₂ - y₁ * y₂ = (v₁ - y₁) * v₂ + y₁ * (v₂ - y₂) by ring]
  refine (abs_add_le _ _).trans ?_
  rw [abs_mul, abs_mul, abs_of_nonneg hv₂, abs_of_nonneg hy₁]
  have := abs_nonneg (v₁ - y₁)
  have := abs_nonneg (v₂ - y₂)
  nlinarith

set_option maxHeartbeats 1000000 in
theorem mul_runs {r dt : ℝ} (hr : 0 < r) (hs : Sane Real.exp dt) (hd : dt ≤ 1) {n₁ n₂ : Bool} {a₁ b₁ a₂ b₂ x₁ x₂ ε₁ ε₂ : ℝ} (ha₁ : 0 ≤ a₁) (h₁ : a₁ + 10 ≤ b₁)
    (ha₂ : 0 ≤ a₂) (h₂ : a₂ + 10 ≤ b₂) (s₁ : signed n₁ |x₁| = x₁) (s₂ : signed n₂ |x₂| = x₂) (e₁ : |b₁ - a₁ - (10 + |x₁| / r * 100)| ≤ ε₁)
    (e₂ : |b₂ - a₂ - (10 + |x₂| / r * 100)| ≤ ε₂)
    (hx₁ : ε₁ < |x₁| / r * 100) (hx₁' : |x₁| / r * 100 + ε₁ < 100) (hx₂ : ε₂ < |x₂| / r * 100) (hx₂' : |x₂| / r * 100 + ε₂ < 100)
    (hxx : |x₁ * x₂| ≤ r) (hdecay : -20 * Real.log (|x₁| / r - ε₁ / 100) + -20 * Real.log (|x₂| / r - ε₂ / 100) + 2 * dt ≤ 343)
    (hhor : 110 / r + 2 * dt ≤ 500) (hamp : r * (ε₁ + ε₂ + 10 * dt) < 10) :
    ∃ LS neg a b, BlockRuns .mul r dt (railInj 18 19 n₁ a₁ b₁ ++ railInj 20 21 n₂ a₂ b₂) LS ∧ RailsShow LS ⟨22, 23⟩ neg a b ∧ b₁ ≤ a ∧ a + 10 ≤ b ∧
      signed neg |x₁ * x₂| = x₁ * x₂ ∧ |b - a - (10 + |x₁ * x₂| / r * 100)| ≤ r * (ε₁ + ε₂ + 11 * dt) + dt := by
  have hdt := hs.pos
  have hTm : (defaultEncoder : Encoder ℝ).Tmin = 10 := rfl
  have hTc : (defaultEncoder : Encoder ℝ).Tcod = 100 := rfl
  obtain ⟨v₁, hv₁⟩ : ∃ v₁, v₁ = (b₁ - a₁ - 10) / 100 := ⟨_, rfl⟩
  obtain ⟨v₂, hv₂⟩ : ∃ v₂, v₂ = (b₂ - a₂ - 10) / 100 := ⟨_, rfl⟩
  obtain ⟨y₁, hy₁⟩ : ∃ y₁, y₁ = |x₁| / r := ⟨_, rfl⟩
  obtain ⟨y₂, hy₂⟩ : ∃ y₂, y₂ = |x₂| / r := ⟨_, rfl⟩
  rw [← hy₁] at e₁ hx₁ hx₁' hdecay
  rw [← hy₂] at e₂ hx₂ hx₂' hdecay
  obtain ⟨l₁, u₁⟩ := abs_le.mp e₁
  obtain ⟨l₂, u₂⟩ := abs_le.mp e₂
  have z₁ : 0 ≤ ε₁ := (abs_nonneg _).trans e₁
  have z₂ : 0 ≤ ε₂ := (abs_nonneg _).trans e₂
  have k₁ : |v₁ - y₁| ≤ ε₁ / 100 := by rw [abs_le, hv₁]; constructor <;> linarith
  have k₂ : |v₂ - y₂| ≤ ε₂ / 100 := by rw [abs_le, hv₂]; constructor <;> linarith
  have w₁ : 0 < v₁ ∧ v₁ < 1 := by have := abs_le.mp k₁; constructor <;> linarith
  have w₂ : 0 < v₂ ∧ v₂ < 1 := by have := abs_le.mp k₂; constructor <;> linarith
  have g₁ : -20 * Real.log v₁ ≤ -20 * Real.log (y₁ - ε₁ / 100) := by
    have := Real.log_le_log (show 0 < y₁ - ε₁ / 100 by linarith) (show y₁ - ε₁ / 100 ≤ v₁ by linarith [(abs_le.mp k₁).1]); linarith
  have g₂ : -20 * Real.log v₂ ≤ -20 * Real.log (y₂ - ε₂ / 100) := by
    have := Real.log_le_log (show 0 < y₂ - ε₂ / 100 by linarith) (show y₂ - ε₂ / 100 ≤ v₂ by linarith [(abs_le.mp k₂).1]); linarith
  obtain ⟨D1, hD1⟩ : ∃ D1, D1 = up dt (-20 * Real.log v₁) := ⟨_, rfl⟩
  obtain ⟨D2, hD2⟩ : ∃ D2, D2 = up dt (-20 * Real.log v₂) := ⟨_, rfl⟩
  obtain ⟨J, hJ⟩ : ∃ J, J = up dt (100 * Real.exp (-(D1 + D2) / 20)) := ⟨_, rfl⟩
  have d1 := le_up hdt (-20 * Real.log v₁)
  have d1' := up_lt hdt (-20 * Real.log v₁)
  have d2 := le_up hdt (-20 * Real.log v₂)
  have d2' := up_lt hdt (-20 * Real.log v₂)
  rw [← hD1] at d1 d1'
  rw [← hD2] at d2 d2'
  have ev : Real.exp (Real.log v₁ + Real.log v₂) = v₁ * v₂ := by rw [Real.exp_add, Real.exp_log w₁.1, Real.exp_log w₂.1]
  have X1 : Real.exp (-(D1 + D2) / 20) ≤ v₁ * v₂ := by
    rw [← ev]; exact Real.exp_le_exp.mpr (by linarith)
  have X2 : v₁ * v₂ - dt / 10 ≤ Real.exp (-(D1 + D2) / 20) := by
    have : Real.exp (Real.log v₁ + Real.log v₂ + -(dt / 10)) ≤ Real.exp (-(D1 + D2) / 20) := Real.exp_le_exp.mpr (by linarith)
    rw [Real.exp_add, ev] at this
    have h3 := Real.add_one_le_exp (-(dt / 10))
    have h4 : v₁ * v₂ ≤ 1 := mul_le_one₀ w₁.2.le w₂.1.le w₂.2.le
    have h5 : 0 < v₁ * v₂ := mul_pos w₁.1 w₂.1
    have h6 := mul_le_mul_of_nonneg_left h3 h5.le
    have h7 : v₁ * v₂ * (dt / 10) ≤ 1 * (dt / 10) := mul_le_mul_of_nonneg_right h4 (by positivity)
    rw [mul_add] at h6
    linarith
  have j1 := le_up hdt (100 * Real.exp (-(D1 + D2) / 20))
  have j2 := up_lt hdt (100 * Real.exp (-(D1 + D2) / 20))
  rw [← hJ] at j1 j2
  have hJ0 : 0 < J := lt_of_lt_of_le (by have := Real.exp_pos (-(D1 + D2) / 20); positivity) j1
  have hyy := sub_mul_mul_le w₂.1.le w₂.2.le (show 0 ≤ y₁ by linarith) (show y₁ ≤ 1 by linarith) k₁ k₂
  obtain ⟨m1, m2⟩ := abs_le.mp hyy
  have q1 : J ≤ 100 * (y₁ * y₂) + (ε₁ + ε₂ + 10 * dt) := by linarith
  have q2 : 100 * (y₁ * y₂) - (ε₁ + ε₂ + 10 * dt) ≤ J := by linarith
  have hval : |x₁ * x₂| / r = r * (y₁ * y₂) := by rw [hy₁, hy₂, abs_mul]; field_simp
  have hle1 : r * (y₁ * y₂) ≤ 1 := by rw [← hval]; exact (div_le_one hr).mpr hxx
  have r1 : r * J ≤ 100 * (r * (y₁ * y₂)) + r * (ε₁ + ε₂ + 10 * dt) := by
    have := mul_le_mul_of_nonneg_left q1 hr.le
    rw [mul_add] at this; linarith
  have r2 : 100 * (r * (y₁ * y₂)) - r * (ε₁ + ε₂ + 10 * dt) ≤ r * J := by
    have := mul_le_mul_of_nonneg_left q2 hr.le
    rw [mul_sub] at this; linarith
  have hb1 : b₁ ≤ max b₁ b₂ := le_max_left _ _
  have l1 : 0 ≤ -20 * Real.log v₁ := by have := Real.log_nonpos w₁.1.le w₁.2.le; linarith
  have l2 : 0 ≤ -20 * Real.log v₂ := by have := Real.log_nonpos w₂.1.le w₂.2.le; linarith
  obtain ⟨LS, a, hB, hR, ha⟩ := norm_runs (n₁ := n₁) (n₂ := n₂) hr hs hd ha₁ h₁ ha₂ h₂ hhor (P := max b₁ b₂ + 1 + 6 + D1 + D2) (by linarith) (.inl hJ0) (by linarith)
    (fun E e1 e2 e3 e4 x hx => by
      have := mul_fits (enc := defaultEncoder) (M := max b₁ b₂ + 1) (D1 := D1) (D2 := D2) (D3 := J) e1 (by rw [hTm]; norm_num) (by rw [hTc]; norm_num) (by rw [e1, e2]; exact hs) e3 e4 w₁ w₂ (b1 := b₁ + 1) (b2 := b₂ + 1)
        (a1 := a₁ + 1) (a2 := a₂ + 1) (by rw [hTm, hTc, hv₁]; ring) (by rw [hTm, hTc, hv₂]; ring) (by rw [max_add_add_right])
        (by rw [e2]; linarith) (by rw [hTc, e2]; linarith) (by rw [e2, hD1]) (by rw [e2, hD2]) (by rw [e2, hTc, hJ]) x hx
      rw [hTm] at this
      exact this)
  have c1 := le_up hdt (110 / r)
  have c2 := up_lt hdt (110 / r)
  have cr0 : 0 ≤ r * (up dt (110 / r) - 110 / r) := mul_nonneg hr.le (by linarith)
  have cr1 : r * (up dt (110 / r) - 110 / r) ≤ r * dt := mul_le_mul_of_nonneg_left (by linarith) hr.le
  generalize r * (up dt (110 / r) - 110 / r) = c at *
  have f1 := le_up hdt (max 0 (r * J - c))
  have f2 := up_lt hdt (max 0 (r * J - c))
  have f3 := le_max_right 0 (r * J - c)
  have f0 := le_max_left 0 (r * J - c)
  have f4 : max 0 (r * J - c) ≤ r * J := max_le (by positivity) (by linarith)
  refine ⟨LS, n₁ != n₂, a, _, hB, hR, ha, by linarith, signed_mul s₁ s₂, ?_⟩
  rw [hval, abs_le, show r * (ε₁ + ε₂ + 11 * dt) = r * (ε₁ + ε₂ + 10 * dt) + r * dt by ring]
  constructor <;> linarith

/-! ## Budgets -/

theorem op_load_of_ge' {h : SHeap ℝ} {v : ℕ} (hv : ¬ v < h.length) : h.op v = .load := by
  simp [SHeap.op, List.getElem?_eq_none (not_lt.mp hv)]

theorem Spec.PredBudget.reach {h : SHeap ℝ} {r dt : ℝ} {root : ℕ} {x ε : ℝ} (hB : PredBudget h r dt root x ε) {v : ℕ} (hv : Spec.Reach h root v) :
    ∃ x ε, PredBudget h r dt v x ε := by
  induction hv with
  | refl => exact ⟨_, _, hB⟩
  | tail _ hp ih =>
    obtain ⟨x, ε, hb⟩ := ih
    cases hb with
    | load hop e => rw [e] at hp; simp at hp
    | neg hop e hu => rw [e] at hp; simp at hp; subst hp; exact ⟨_, _, hu⟩
    | add hop e h₁ h₂ => rw [e] at hp; simp at hp; rcases hp with rfl | rfl; exacts [⟨_, _, h₁⟩, ⟨_, _, h₂⟩]
    | mul hop e h₁ h₂ => rw [e] at hp; simp at hp; rcases hp with rfl | rfl; exacts [⟨_, _, h₁⟩, ⟨_, _, h₂⟩]
    | zeroMul hop e h₁ h₂ => rw [e] at hp; simp at hp; rcases hp with rfl | rfl; exacts [⟨_, _, h₁⟩, ⟨_, _, h₂⟩]
    | mulZero hop e h₁ h₂ => rw [e] at hp; simp at hp; rcases hp with rfl | rfl; exacts [⟨_, _, h₁⟩, ⟨_, _, h₂⟩]

theorem Spec.PredBudget.compilable {h : SHeap ℝ} {r dt : ℝ} {v : ℕ} {x ε : ℝ} (hB : PredBudget h r dt v x ε) : Compilable (h.op v) := by
  cases hB with
  | load hop => exact .inl hop
  | neg hop => exact .inr (.inr (.inr hop))
  | add hop => exact .inr (.inl hop)
  | mul hop => exact .inr (.inr (.inl hop))
  | zeroMul hop => exact .inr (.inr (.inl hop))
  | mulZero hop => exact .inr (.inr (.inl hop))

theorem Spec.PredBudget.loaded {h : SHeap ℝ} {r dt : ℝ} {v : ℕ} {x ε : ℝ} (hB : PredBudget h r dt v x ε) (hl : h.op v = .load) : |h.data v| ≤ r := by
  cases hB with
  | load hop hp hx => exact hx
  | neg hop => rw [hl] at hop; cases hop
  | add hop => rw [hl] at hop; cases hop
  | mul hop => rw [hl] at hop; cases hop
  | zeroMul hop => rw [hl] at hop; cases hop
  | mulZero hop => rw [hl] at hop; cases hop

/-- The number a node of a well-made graph stands for is its data. -/
theorem Spec.PredBudget.data {h : SHeap ℝ} (hd : DataOK h) {r dt : ℝ} {v : ℕ} {x ε : ℝ} (hB : PredBudget h r dt v x ε) : x = h.data v := by
  have two : ∀ {v u₁ u₂ : ℕ} {op : OpType}, h.op v = op → op ≠ .load → h.prev v = [u₁, u₂] → opValue op [h.data u₁, h.data u₂] = some (h.data v) := by
    intro v u₁ u₂ op hop hne hp
    have hv : v < h.length := by
      by_contra hv; exact hne (hop.symm.trans (op_load_of_ge' hv))
    have := hd v hv (by rw [hop]; exact hne)
    rw [hop, hp] at this
    simpa using this
  induction hB with
  | load => rfl
  | @neg v u x ε hop hp _ ih =>
    have hv : v < h.length := by
      by_contra hv; have := op_load_of_ge' (h := h) hv; rw [hop] at this; cases this
    have := hd v hv (by rw [hop]; simp)
    rw [hop, hp] at this
    simp only [opValue, List.map_cons, List.map_nil, Option.some.injEq] at this
    rw [ih, this]
  | add hop hp _ _ _ _ _ _ ih₁ ih₂ => have := two hop (by simp) hp; simp only [opValue, Option.some.injEq] at this; rw [ih₁, ih₂, this]
  | mul hop hp _ _ _ _ _ _ _ _ _ _ _ ih₁ ih₂ => have := two hop (by simp) hp; simp only [opValue, Option.some.injEq] at this; rw [ih₁, ih₂, this]
  | zeroMul hop hp _ _ _ _ _ ih₁ ih₂ => have := two hop (by simp) hp; simp only [opValue, Option.some.injEq] at this; rw [← this, ← ih₁, zero_mul]
  | mulZero hop hp _ _ _ _ _ _ _ ih₁ ih₂ => have := two hop (by simp) hp; simp only [opValue, Option.some.injEq] at this; rw [← this, ← ih₂, mul_zero]

theorem up_zero (dt : ℝ) : up dt 0 = 0 := by simp [up]

theorem mul_runs_zero {r dt : ℝ} (hr : 1 ≤ r) (hs : Sane Real.exp dt) (hd : dt ≤ 1) {n₁ n₂ : Bool} {a₁ b₁ a₂ b₂ : ℝ} (ha₁ : 0 ≤ a₁) (h₁ : a₁ + 10 ≤ b₁)
    (ha₂ : 0 ≤ a₂) (h₂ : a₂ + 10 ≤ b₂) (g₁ : b₁ - a₁ < 110) (g₂ : b₂ - a₂ < 110) (h0 : b₁ = a₁ + 10 ∨ b₂ = a₂ + 10)
    (hlog : a₁ + 10 < b₁ → -20 * Real.log ((b₁ - a₁ - 10) / 100) + 2 * dt ≤ 500) :
    ∃ LS neg a, BlockRuns .mul r dt (railInj 18 19 n₁ a₁ b₁ ++ railInj 20 21 n₂ a₂ b₂) LS ∧ RailsShow LS ⟨22, 23⟩ neg a (a + 10) ∧ b₁ ≤ a := by
  have hdt := hs.pos
  have hTm : (defaultEncoder : Encoder ℝ).Tmin = 10 := rfl
  have hTc : (defaultEncoder : Encoder ℝ).Tcod = 100 := rfl
  have hr0 : 0 < r := by linarith
  have hhor : 110 / r + 2 * dt ≤ 500 := by
    have : 110 / r ≤ 110 := div_le_self (by norm_num) hr
    linarith
  obtain ⟨LS, a, hB, hR, ha⟩ := norm_runs (n₁ := n₁) (n₂ := n₂) (J := 0) hr0 hs hd ha₁ h₁ ha₂ h₂ hhor (P := max b₁ b₂ + 1 + 351) (by linarith) (.inr ⟨rfl, hr⟩) (by norm_num)
    (fun E e1 e2 e3 e4 x hx => by
      have := mul_fits_zero (enc := defaultEncoder) (M := max b₁ b₂ + 1) (v1 := (b₁ - a₁ - 10) / 100) (v2 := (b₂ - a₂ - 10) / 100) e1 (by rw [hTm]; norm_num)
        (by rw [hTc]; norm_num) (by rw [e1, e2]; exact hs) e3 e4 ⟨by linarith, by linarith⟩ ⟨by linarith, by linarith⟩
        (by rcases h0 with rfl | rfl <;> ring) (b1 := b₁ + 1) (b2 := b₂ + 1) (a1 := a₁ + 1) (a2 := a₂ + 1) (by rw [hTm, hTc]; ring) (by rw [hTm, hTc]; ring)
        (by rw [max_add_add_right]) (fun h => by rw [e2]; exact hlog (by linarith)) x hx
      rw [hTm, e2] at this
      rw [add_zero]
      exact this)
  have c1 := le_up hdt (110 / r)
  have cr0 : 0 ≤ r * (up dt (110 / r) - 110 / r) := mul_nonneg hr0.le (by linarith)
  rw [max_eq_left (by linarith), up_zero, add_zero] at hR
  exact ⟨LS, _, a, hB, hR, ha⟩

/-! ## The operations one after the other -/

/-- The sign and the two spikes `o` are what the budgets of Scalar `v` grant. -/
def Told (h : SHeap ℝ) (r dt : ℝ) (v : ℕ) (o : Bool × ℝ × ℝ) : Prop :=
  0 ≤ o.2.1 ∧ o.2.1 + 10 ≤ o.2.2 ∧ ∀ x ε, PredBudget h r dt v x ε → signed o.1 |x| = x ∧ |o.2.2 - o.2.1 - (10 + |x| / r * 100)| ≤ ε

/-- What the module of Scalar `v` is given, when its operands show `O`. -/
noncomputable def nodeInj (h : SHeap ℝ) (r : ℝ) (O : ℕ → Bool × ℝ × ℝ) (v : ℕ) : List (ℕ × ℝ) :=
  if h.op v = .load then railInj 0 1 (decide (h.data v < 0)) 0 (10 + |h.data v| / r * 100)
  else (h.prev v).zipIdx.flatMap (fun p => railInj (portNo (spawnEmpty (h.op v) r).1 p.2).plus (portNo (spawnEmpty (h.op v) r).1 p.2).minus
    (O p.1).1 ((O p.1).2.1 + 1) ((O p.1).2.2 + 1))

theorem predBudget_nonneg {h : SHeap ℝ} {r dt : ℝ} (hdt : 0 < dt) (hr : 0 < r) {v : ℕ} {x ε : ℝ} (hB : PredBudget h r dt v x ε) : 0 ≤ ε := by
  induction hB with
  | load _ _ _ hε => exact hε
  | neg _ _ _ ih => exact ih
  | add _ _ _ _ _ _ _ hε ih₁ ih₂ => linarith
  | mul _ _ _ _ _ _ _ _ _ _ _ _ hε ih₁ ih₂ => exact le_trans (by positivity) hε
  | zeroMul _ _ _ _ _ _ hε => exact hε
  | mulZero _ _ _ _ _ _ _ _ hε => exact hε

theorem signed_zero' (m : Bool) : signed m |(0 : ℝ)| = 0 := by cases m <;> simp [signed]

set_option maxHeartbeats 1000000 in
/-- One more operation. -/
theorem node_step {h : SHeap ℝ} (hd : DataOK h) {r dt : ℝ} (hr : 0 < r) (hs : Sane Real.exp dt) (hdt : dt ≤ 1) {v : ℕ} (hB : ∃ x ε, PredBudget h r dt v x ε)
    {O : ℕ → Bool × ℝ × ℝ} (hO : ∀ u ∈ h.prev v, Told h r dt u (O u)) :
    ∃ o LS, Told h r dt v o ∧ BlockRuns (h.op v) r dt (nodeInj h r O v) LS ∧ RailsShow LS (spawnEmpty (h.op v) r).1.out o.1 o.2.1 o.2.2 := by
  obtain ⟨x, ε, hB⟩ := hB
  have hpos := hs.pos
  have uniq : ∀ {u x x' ε ε'}, PredBudget h r dt u x ε → PredBudget h r dt u x' ε' → x = x' := fun a b => (a.data hd).trans (b.data hd).symm
  unfold nodeInj
  cases hB with
  | load hop hp hx hε =>
    have h0 : 0 ≤ |h.data v| / r * 100 := by positivity
    obtain ⟨LS, hb, hshow⟩ := load_runs (r := r) hs (decide (h.data v < 0)) (a := 0) (b := 10 + |h.data v| / r * 100) (by linarith)
    refine ⟨(decide (h.data v < 0), 0, 10 + |h.data v| / r * 100), LS, ⟨le_rfl, by simp only; linarith, ?_⟩, ?_, ?_⟩
    · intro x' ε' hB'
      cases hB' with
      | load _ _ _ hε => exact ⟨signed_abs _, by simpa using hε⟩
      | neg hop' => rw [hop] at hop'; cases hop'
      | add hop' => rw [hop] at hop'; cases hop'
      | mul hop' => rw [hop] at hop'; cases hop'
      | zeroMul hop' => rw [hop] at hop'; cases hop'
      | mulZero hop' => rw [hop] at hop'; cases hop'
    · rw [if_pos hop, hop]; exact hb
    · rw [hop]; exact hshow
  | @neg _ u x ε hop hp hu =>
    obtain ⟨o1, o2, o3⟩ := hO u (by rw [hp]; simp)
    obtain ⟨LS, hb, hshow⟩ := neg_runs (r := r) hs (O u).1 (a := (O u).2.1 + 1) (b := (O u).2.2 + 1) (by linarith)
    refine ⟨(!(O u).1, (O u).2.1 + 1 + 1, (O u).2.2 + 1 + 1), LS, ⟨by simp only; linarith, by simp only; linarith, ?_⟩, ?_, ?_⟩
    · intro x' ε' hB'
      cases hB' with
      | load hop' => rw [hop] at hop'; cases hop'
      | neg _ hp' hu' =>
        rw [hp] at hp'; cases hp'
        obtain ⟨k1, k2⟩ := o3 _ _ hu'
        refine ⟨signed_neg_abs k1, ?_⟩
        rw [abs_neg]
        simpa using k2
      | add hop' => rw [hop] at hop'; cases hop'
      | mul hop' => rw [hop] at hop'; cases hop'
      | zeroMul hop' => rw [hop] at hop'; cases hop'
      | mulZero hop' => rw [hop] at hop'; cases hop'
    · rw [if_neg (by rw [hop]; simp), hp, hop]
      simp only [List.zipIdx_cons, List.zipIdx_nil, List.flatMap_cons, List.flatMap_nil, List.append_nil]
      exact hb
    · rw [hop]; exact hshow
  | @add _ u₁ u₂ x₁ x₂ ε₁ ε₂ ε hop hp b₁ b₂ hpos hneg hzero hε =>
    obtain ⟨p1, p2, p3⟩ := hO u₁ (by rw [hp]; simp)
    obtain ⟨q1, q2, q3⟩ := hO u₂ (by rw [hp]; simp)
    obtain ⟨s₁, e₁⟩ := p3 _ _ b₁
    obtain ⟨s₂, e₂⟩ := q3 _ _ b₂
    obtain ⟨LS, neg, a, b, hb, hshow, ha, hab, hsg, herr⟩ := add_runs (n₁ := (O u₁).1) (n₂ := (O u₂).1) hr hs hdt (a₁ := (O u₁).2.1 + 1) (b₁ := (O u₁).2.2 + 1)
      (a₂ := (O u₂).2.1 + 1) (b₂ := (O u₂).2.2 + 1) (x₁ := x₁) (x₂ := x₂) (ε₁ := |(O u₁).2.2 - (O u₁).2.1 - (10 + |x₁| / r * 100)|)
      (ε₂ := |(O u₂).2.2 - (O u₂).2.1 - (10 + |x₂| / r * 100)|) (by linarith) (by linarith) s₁ s₂
      (by rw [show (O u₁).2.2 + 1 - ((O u₁).2.1 + 1) = (O u₁).2.2 - (O u₁).2.1 by ring]) (by rw [show (O u₂).2.2 + 1 - ((O u₂).2.1 + 1) = (O u₂).2.2 - (O u₂).2.1 by ring])
      (by linarith) (by linarith) (by rcases hzero with h | h; exacts [.inl (by linarith), .inr (by linarith)])
    refine ⟨(neg, a, b), LS, ⟨by simp only; linarith, hab, ?_⟩, ?_, ?_⟩
    · intro x' ε' hB'
      cases hB' with
      | load hop' => rw [hop] at hop'; cases hop'
      | neg hop' => rw [hop] at hop'; cases hop'
      | add _ hp' b₁' b₂' _ _ _ hε' =>
        rw [hp] at hp'; cases hp'
        obtain rfl := uniq b₁ b₁'
        obtain rfl := uniq b₂ b₂'
        have k1 := (p3 _ _ b₁').2
        have k2 := (q3 _ _ b₂').2
        exact ⟨hsg, herr.trans (by linarith)⟩
      | mul hop' => rw [hop] at hop'; cases hop'
      | zeroMul hop' => rw [hop] at hop'; cases hop'
      | mulZero hop' => rw [hop] at hop'; cases hop'
    · rw [if_neg (by rw [hop]; simp), hp, hop, (add_block r).1]
      simp only [List.zipIdx_cons, List.zipIdx_nil, List.flatMap_cons, List.flatMap_nil, List.append_nil]
      exact hb
    · rw [hop, (add_block r).1]; exact hshow
  | @mul _ u₁ u₂ x₁ x₂ ε₁ ε₂ ε hop hp b₁ b₂ hx₁ hx₁' hx₂ hx₂' hxx hdecay hhor hamp hε =>
    obtain ⟨p1, p2, p3⟩ := hO u₁ (by rw [hp]; simp)
    obtain ⟨q1, q2, q3⟩ := hO u₂ (by rw [hp]; simp)
    obtain ⟨s₁, e₁⟩ := p3 _ _ b₁
    obtain ⟨s₂, e₂⟩ := q3 _ _ b₂
    have log1 := Real.log_le_log (show 0 < |x₁| / r - ε₁ / 100 by linarith) (show |x₁| / r - ε₁ / 100 ≤ |x₁| / r - |(O u₁).2.2 - (O u₁).2.1 - (10 + |x₁| / r * 100)| / 100 by linarith)
    have log2 := Real.log_le_log (show 0 < |x₂| / r - ε₂ / 100 by linarith) (show |x₂| / r - ε₂ / 100 ≤ |x₂| / r - |(O u₂).2.2 - (O u₂).2.1 - (10 + |x₂| / r * 100)| / 100 by linarith)
    obtain ⟨LS, neg, a, b, hb, hshow, ha, hab, hsg, herr⟩ := mul_runs (n₁ := (O u₁).1) (n₂ := (O u₂).1) hr hs hdt (a₁ := (O u₁).2.1 + 1) (b₁ := (O u₁).2.2 + 1)
      (a₂ := (O u₂).2.1 + 1) (b₂ := (O u₂).2.2 + 1) (x₁ := x₁) (x₂ := x₂) (ε₁ := |(O u₁).2.2 - (O u₁).2.1 - (10 + |x₁| / r * 100)|)
      (ε₂ := |(O u₂).2.2 - (O u₂).2.1 - (10 + |x₂| / r * 100)|) (by linarith) (by linarith) (by linarith) (by linarith) s₁ s₂
      (by rw [show (O u₁).2.2 + 1 - ((O u₁).2.1 + 1) = (O u₁).2.2 - (O u₁).2.1 by ring]) (by rw [show (O u₂).2.2 + 1 - ((O u₂).2.1 + 1) = (O u₂).2.2 - (O u₂).2.1 by ring])
      (by linarith) (by linarith) (by linarith) (by linarith) hxx (by linarith) hhor (lt_of_le_of_lt (mul_le_mul_of_nonneg_left (by linarith) hr.le) hamp)
    refine ⟨(neg, a, b), LS, ⟨by simp only; linarith, hab, ?_⟩, ?_, ?_⟩
    · intro x' ε' hB'
      have ne : ∀ {x ε : ℝ}, |x - x| ≤ ε → ε < |(0 : ℝ)| / r * 100 → False := by
        intro x ε h1 h2; rw [sub_self, abs_zero] at h1; rw [abs_zero, zero_div, zero_mul] at h2; linarith
      have z₁ : 0 ≤ ε₁ := (abs_nonneg _).trans e₁
      have z₂ : 0 ≤ ε₂ := (abs_nonneg _).trans e₂
      cases hB' with
      | load hop' => rw [hop] at hop'; cases hop'
      | neg hop' => rw [hop] at hop'; cases hop'
      | add hop' => rw [hop] at hop'; cases hop'
      | mul _ hp' b₁' b₂' _ _ _ _ _ _ _ _ hε' =>
        rw [hp] at hp'; cases hp'
        obtain rfl := uniq b₁ b₁'
        obtain rfl := uniq b₂ b₂'
        have k1 := (p3 _ _ b₁').2
        have k2 := (q3 _ _ b₂').2
        have := mul_le_mul_of_nonneg_left (add_le_add_left (add_le_add k1 k2) (11 * dt)) hr.le
        exact ⟨hsg, herr.trans (by linarith)⟩
      | zeroMul _ hp' b₁' =>
        rw [hp] at hp'; cases hp'
        obtain rfl := uniq b₁ b₁'
        exact (ne (x := 0) (by simpa using z₁) hx₁).elim
      | mulZero _ hp' _ b₂' =>
        rw [hp] at hp'; cases hp'
        obtain rfl := uniq b₂ b₂'
        exact (ne (x := 0) (by simpa using z₂) hx₂).elim
    · rw [if_neg (by rw [hop]; simp), hp, hop, (mul_block r).1]
      simp only [List.zipIdx_cons, List.zipIdx_nil, List.flatMap_cons, List.flatMap_nil, List.append_nil]
      exact hb
    · rw [hop, (mul_block r).1]; exact hshow
  | @zeroMul _ u₁ u₂ x₂ ε₂ ε hop hp b₁ b₂ hx₂' hr1 hε =>
    obtain ⟨p1, p2, p3⟩ := hO u₁ (by rw [hp]; simp)
    obtain ⟨q1, q2, q3⟩ := hO u₂ (by rw [hp]; simp)
    obtain ⟨-, e₁⟩ := p3 _ _ b₁
    obtain ⟨s₂, e₂⟩ := q3 _ _ b₂
    rw [abs_zero, zero_div, zero_mul, add_zero] at e₁
    have e1' := abs_eq_zero.mp (le_antisymm e₁ (abs_nonneg _))
    have e2' := abs_le.mp e₂
    obtain ⟨LS, neg, a, hb, hshow, ha⟩ := mul_runs_zero (n₁ := (O u₁).1) (n₂ := (O u₂).1) hr1 hs hdt (a₁ := (O u₁).2.1 + 1) (b₁ := (O u₁).2.2 + 1)
      (a₂ := (O u₂).2.1 + 1) (b₂ := (O u₂).2.2 + 1) (by linarith) (by linarith) (by linarith) (by linarith) (by linarith) (by linarith) (.inl (by linarith))
      (fun h => by linarith)
    refine ⟨(neg, a, a + 10), LS, ⟨by simp only; linarith, le_rfl, ?_⟩, ?_, ?_⟩
    · intro x' ε' hB'
      have hx' : x' = 0 := (hB'.data hd).trans ((PredBudget.zeroMul hop hp b₁ b₂ hx₂' hr1 le_rfl).data hd).symm
      subst hx'
      refine ⟨signed_zero' _, ?_⟩
      have : 0 ≤ ε' := predBudget_nonneg hpos hr hB'
      simpa using this
    · rw [if_neg (by rw [hop]; simp), hp, hop, (mul_block r).1]
      simp only [List.zipIdx_cons, List.zipIdx_nil, List.flatMap_cons, List.flatMap_nil, List.append_nil]
      exact hb
    · rw [hop, (mul_block r).1]; exact hshow
  | @mulZero _ u₁ u₂ x₁ ε₁ ε hop hp b₁ b₂ hx₁ hx₁' hdecay hr1 hε =>
    obtain ⟨p1, p2, p3⟩ := hO u₁ (by rw [hp]; simp)
    obtain ⟨q1, q2, q3⟩ := hO u₂ (by rw [hp]; simp)
    obtain ⟨-, e₁⟩ := p3 _ _ b₁
    obtain ⟨-, e₂⟩ := q3 _ _ b₂
    rw [abs_zero, zero_div, zero_mul, add_zero] at e₂
    have e2' := abs_eq_zero.mp (le_antisymm e₂ (abs_nonneg _))
    have e1' := abs_le.mp e₁
    obtain ⟨LS, neg, a, hb, hshow, ha⟩ := mul_runs_zero (n₁ := (O u₁).1) (n₂ := (O u₂).1) hr1 hs hdt (a₁ := (O u₁).2.1 + 1) (b₁ := (O u₁).2.2 + 1)
      (a₂ := (O u₂).2.1 + 1) (b₂ := (O u₂).2.2 + 1) (by linarith) (by linarith) (by linarith) (by linarith) (by linarith) (by linarith) (.inr (by linarith))
      (fun h => by
        have := Real.log_le_log (show 0 < |x₁| / r - ε₁ / 100 by linarith) (show |x₁| / r - ε₁ / 100 ≤ ((O u₁).2.2 + 1 - ((O u₁).2.1 + 1) - 10) / 100 by linarith)
        linarith)
    refine ⟨(neg, a, a + 10), LS, ⟨by simp only; linarith, le_rfl, ?_⟩, ?_, ?_⟩
    · intro x' ε' hB'
      have hx' : x' = 0 := (hB'.data hd).trans ((PredBudget.mulZero hop hp b₁ b₂ hx₁ hx₁' hdecay hr1 le_rfl).data hd).symm
      subst hx'
      refine ⟨signed_zero' _, ?_⟩
      have : 0 ≤ ε' := predBudget_nonneg hpos hr hB'
      simpa using this
    · rw [if_neg (by rw [hop]; simp), hp, hop, (mul_block r).1]
      simp only [List.zipIdx_cons, List.zipIdx_nil, List.flatMap_cons, List.flatMap_nil, List.append_nil]
      exact hb
    · rw [hop, (mul_block r).1]; exact hshow

/-- All delays of a module are positive. -/
theorem block_delays {op : OpType} (r : ℝ) (h : Compilable op) : ∀ s ∈ (spawnEmpty op r).2.syns, 0 < s.delay := by
  rcases h with rfl | rfl | rfl | rfl
  · intro s hs
    have : s ∈ ([] : List (Synapse ℝ)) := hs
    simp at this
  · rw [(add_block r).2.2]
    exact linSyns_delay (by show (1 : ℝ) ≤ 10; norm_num) _ _ _
  · rw [(mul_block r).2.2]
    intro s hs
    have hs' : s ∈ pmulSyns (defaultEncoder : Encoder ℝ) ++ (scalSyns12 r defaultEncoder ++ normOuter) := by
      rw [← norm_syns _ _ none]; exact List.mem_reverse.mpr hs
    have hTm : (defaultEncoder : Encoder ℝ).Tmin = 10 := rfl
    have all : ∀ s ∈ pmulSyns (defaultEncoder : Encoder ℝ) ++ (scalSyns12 r defaultEncoder ++ normOuter), 0 < s.delay := by
      simp only [pmulSyns, scalSyns12, normOuter, List.cons_append, List.nil_append, List.forall_mem_cons, hTm]
      norm_num
    exact all s hs'
  · intro s hs
    have hs' : s ∈ [(⟨1, 2, 10, 1, .V⟩ : Synapse ℝ), ⟨0, 3, 10, 1, .V⟩] := hs
    simp only [List.mem_cons, List.not_mem_nil, or_false] at hs'
    rcases hs' with rfl | rfl <;> norm_num

theorem Spec.PredBudget.operands {h : SHeap ℝ} {r dt : ℝ} {v : ℕ} (hB : ∃ x ε, PredBudget h r dt v x ε) {u : ℕ} (hu : u ∈ h.prev v) :
    ∃ x ε, PredBudget h r dt u x ε := by
  obtain ⟨x, ε, hB⟩ := hB
  exact hB.reach (.single hu)

/-- The modules of all operations. -/
theorem nodes_run {h : SHeap ℝ} (ho : OperandsOlder h) (hd : DataOK h) {r dt : ℝ} (hr : 0 < r) (hs : Sane Real.exp dt) (hdt : dt ≤ 1) (n : ℕ) :
    ∃ (O : ℕ → Bool × ℝ × ℝ) (T : ℕ → ℕ → List ℝ), ∀ v < n, v < h.length → (∃ x ε, PredBudget h r dt v x ε) →
      Told h r dt v (O v) ∧ BlockRuns (h.op v) r dt (nodeInj h r O v) (T v) ∧
      RailsShow (T v) (spawnEmpty (h.op v) r).1.out (O v).1 (O v).2.1 (O v).2.2 := by
  induction n with
  | zero => exact ⟨fun _ => (false, 0, 0), fun _ _ => [], by simp⟩
  | succ n ih =>
    obtain ⟨O, T, hOT⟩ := ih
    by_cases hn : n < h.length ∧ ∃ x ε, PredBudget h r dt n x ε
    · obtain ⟨hlt, hB⟩ := hn
      obtain ⟨o, LS, k1, k2, k3⟩ := node_step hd hr hs hdt hB (O := O) (fun u hu =>
        (hOT u (ho n hlt u hu) ((ho n hlt u hu).trans hlt) (PredBudget.operands hB hu)).1)
      have hsame : ∀ v ≤ n, v < h.length → nodeInj h r (Function.update O n o) v = nodeInj h r O v := by
        intro v hvn hvl
        unfold nodeInj
        split
        · rfl
        · refine List.flatMap_congr fun p hp => ?_
          have hp' : p.1 ∈ h.prev v := by
            obtain ⟨a, b⟩ := p
            exact List.mem_of_getElem? (List.mem_zipIdx_iff_getElem?.mp hp)
          have := ho v hvl _ hp'
          rw [Function.update_of_ne (by omega)]
      refine ⟨Function.update O n o, Function.update T n LS, fun v hv hvl hvB => ?_⟩
      rw [hsame v (by omega) hvl]
      rcases Nat.lt_succ_iff_lt_or_eq.mp hv with hv | rfl
      · rw [Function.update_of_ne (by omega), Function.update_of_ne (by omega)]
        exact hOT v hv hvl hvB
      · rw [Function.update_self, Function.update_self]
        exact ⟨k1, k2, k3⟩
    · refine ⟨O, T, fun v hv hvl hvB => ?_⟩
      rcases Nat.lt_succ_iff_lt_or_eq.mp hv with hv | rfl
      · exact hOT v hv hvl hvB
      · exact absurd ⟨hvl, hvB⟩ hn

/-! ## All modules together -/

theorem arriving_inj {K : Type*} [Field K] [LinearOrder K] (net : Net K) (inj : List (ℕ × K)) (LS : ℕ → List K) (n : ℕ) : arriving net inj LS n =
    (injTimes inj n).map (fun t => Item.hit t .V (net.par n).Vt) ++
      (insOf net.syns n).flatMap (fun s => (LS s.pre).map (fun t => .hit (t + s.delay) s.kind s.weight)) := by
  unfold arriving injTimes insOf
  rw [List.map_map]; rfl

theorem injTimes_flatMap {α : Type*} (l : List α) (f : α → List (ℕ × ℝ)) (n : ℕ) : injTimes (l.flatMap f) n = l.flatMap (fun a => injTimes (f a) n) := by
  induction l with
  | nil => rfl
  | cons a l ih => simp only [List.flatMap_cons, ← ih]; simp [injTimes]

section
variable {h : SHeap ℝ} {root : ℕ} {r : ℝ} {w' : World ℝ} {plan : Plan ℝ} {L : Layout} {ns : List ℕ}

set_option maxHeartbeats 1000000 in
/-- A neuron of a module behaves in the compiled network as in the module alone. -/
theorem placed_fits (F : Faithful h root r World.empty w' plan L) (hg : ∀ v ∈ L.nodes, GoodNode h v) {E : PEnv ℝ} (hE : E.net = w'.net ns)
    (hexp : E.exp = Real.exp) (hpar : ∀ v ∈ L.nodes, ∀ k < (spawnEmpty (h.op v) r).2.neus.length, E.net.par (L.off v + k) = stdPar)
    {O : ℕ → Bool × ℝ × ℝ} {T : ℕ → ℕ → List ℝ} {LS : ℕ → List ℝ}
    (hLS : ∀ v ∈ L.nodes, ∀ k < (spawnEmpty (h.op v) r).2.neus.length, LS (L.off v + k) = T v k)
    (hO : ∀ v ∈ L.nodes, RailsShow (T v) (spawnEmpty (h.op v) r).1.out (O v).1 (O v).2.1 (O v).2.2)
    {v : ℕ} (hv : v ∈ L.nodes) (hrun : BlockRuns (h.op v) r E.dt (nodeInj h r O v) (T v)) {k : ℕ} (hk : k < (spawnEmpty (h.op v) r).2.neus.length) :
    Fits E (loadSpikes defaultEncoder h r L) LS (L.off v + k) := by
  have hf := spawnFacts r (hg v hv).1
  refine Fits.move (E' := E.only (spawnEmpty (h.op v) r).2.syns.reverse) (n' := k) rfl rfl (hpar v hv k hk).symm (hLS v hv k hk).symm ?_
    (hrun (E.only (spawnEmpty (h.op v) r).2.syns.reverse) hexp rfl rfl (fun _ => rfl) k hk)
  have hins := placed_ins (ns := ns) F hg hv hk
  unfold InS at hins
  rw [arriving_inj, arriving_inj, hpar v hv k hk, hE]
  show (List.map _ _ ++ List.flatMap _ (insOf (spawnEmpty (h.op v) r).2.syns.reverse k)).Perm _
  have hins2 := hins.flatMap_right (fun s => (LS s.pre).map (fun t => Item.hit (t + s.delay) s.kind s.weight))
  refine List.Perm.trans ?_ ((hins2.symm).append_left _)
  rw [List.flatMap_append]
  have hinner : (insOf (spawnEmpty (h.op v) r).2.syns.reverse k).flatMap (fun s => (T v s.pre).map (fun t => Item.hit (t + s.delay) s.kind s.weight)) |>.Perm
      (((insOf (spawnEmpty (h.op v) r).2.syns k).map (Synapse.shift (L.off v))).flatMap (fun s => (LS s.pre).map (fun t => Item.hit (t + s.delay) s.kind s.weight))) := by
    refine ((List.reverse_perm _).filter _ |>.flatMap_right _).trans (List.Perm.of_eq ?_)
    rw [List.flatMap_map]
    refine List.flatMap_congr fun s hs => ?_
    have := (hf.ok.syn_bd s (List.mem_filter.mp hs).1).1
    show _ = (LS (L.off v + s.pre)).map _
    rw [hLS v hv _ this]; rfl
  by_cases hl : h.op v = .load
  · have hprev : h.prev v = [] := by
      have := (hg v hv).2; rw [hl] at this; exact List.length_eq_zero_iff.mp this
    rw [hprev]
    simp only [List.zipIdx_nil, List.flatMap_nil, List.append_nil]
    refine List.Perm.append (List.Perm.of_eq ?_) hinner
    rw [placed_inj F hg defaultEncoder hv hk]
    have hlen : (spawnEmpty (h.op v) r).2.neus.length = 2 := by rw [hl]; rfl
    have hout : L.out v = ⟨L.off v + 0, L.off v + 1⟩ := by rw [F.outCopy v hv, hl]; rfl
    rw [hlen] at hk
    rw [hout]
    unfold nodeInj
    rw [if_pos hl]
    by_cases hx : h.data v < 0
    · interval_cases k <;> simp [hl, hx, not_le.mpr hx, railInj, injTimes, defaultEncoder]; rfl
    · interval_cases k <;> simp [hl, hx, not_lt.mp hx, railInj, injTimes, defaultEncoder]; rfl
  · rw [placed_inj F hg defaultEncoder hv hk, if_neg (fun h => hl h.1), List.map_nil, List.nil_append]
    refine List.perm_append_comm.trans (List.Perm.append hinner (List.Perm.of_eq ?_))
    unfold nodeInj
    rw [if_neg hl, injTimes_flatMap, List.map_flatMap, List.flatMap_assoc]
    refine List.flatMap_congr fun p hp => ?_
    obtain ⟨u, j⟩ := p
    have hp' := List.mem_zipIdx_iff_getElem?.mp hp
    have hu : u ∈ h.prev v := List.mem_of_getElem? hp'
    have hun : u ∈ L.nodes := (F.nodes _).mpr (((F.nodes _).mp hv).tail hu)
    have hj : j < (h.prev v).length := (List.getElem?_eq_some_iff.mp hp').1
    obtain ⟨i1, -, -⟩ := inp_at F hv (hg v hv) hj
    have hfu := spawnFacts r (hg u hun).1
    obtain ⟨o1, o2, -, -⟩ := hfu.out
    have t1 := hLS u hun _ (hfu.ok.own_bd _ o1).2
    have t2 := hLS u hun _ (hfu.ok.own_bd _ o2).2
    obtain ⟨r1, r2⟩ := hO u hun
    rw [r1] at t1
    rw [r2] at t2
    have ho := F.outCopy u hun
    simp only [wire, i1, ho, Header.shift]
    generalize (portNo (spawnEmpty (h.op v) r).1 j).plus = pp
    generalize (portNo (spawnEmpty (h.op v) r).1 j).minus = pm
    by_cases c1 : pp = k <;> by_cases c2 : pm = k <;> cases hneg : (O u).1 <;>
      simp [railInj, injTimes, c1, c2, hneg, t1, t2, off, List.filter_cons] <;> rfl

end
end Axon
