import Verif.Proofs.Multiplier
import Verif.Props.LogExp

/-! # C49: the multiplier -/
set_option linter.unusedSectionVars false
namespace Axon
open Spec

section field
variable {K : Type*} [Field K] [LinearOrder K] [IsStrictOrderedRing K] [FloorRing K]

theorem arrInj_mono {dt τ D D' : K} (hdt : 0 < dt) (h : D ≤ D') : arrInj dt τ D ≤ arrInj dt τ D' :=
  max_le_max le_rfl (Nat.ceil_mono (div_le_div_of_nonneg_right (by linarith) hdt.le))

theorem arrInj_mono' {dt τ τ' D : K} (hdt : 0 < dt) (h : τ ≤ τ') : arrInj dt τ D ≤ arrInj dt τ' D :=
  max_le_max le_rfl (Nat.ceil_mono (div_le_div_of_nonneg_right (by linarith) hdt.le))

/-- The session of C49 in terms of the naive run. -/
theorem mul_setup (H : EventHeap K) {ord : ℕ → List ℕ → List ℕ} (hord : SetOrder ord) {enc : Encoder K}
    {dt : K} (hdt : 0 < dt) (h2 : 0 < enc.Tcod) (hd : 1 + dt ≤ enc.Tmin) (name : Option String) {v1 v2 t1 t2 : K} (T : K)
    (hv1 : 0 ≤ v1) (hv1' : v1 ≤ 1) (hv2 : 0 ≤ v2) (hv2' : v2 ≤ 1) (ht1 : 0 ≤ t1) (ht2 : 0 ≤ t2) :
    ∃ ns S F st, session H ord enc dt T (multiplierNetwork enc name World.empty).2 0 [.value v1 0 t1, .value v2 1 t2] = .ok st ∧
      SessionRun enc dt T (multiplierNetwork enc name World.empty).2 12
        [(0, t1), (0, t1 + enc.Tmin + v1 * enc.Tcod), (1, t2), (1, t2 + enc.Tmin + v2 * enc.Tcod)] ns S F st ∧
      MulIn ((multiplierNetwork enc name World.empty).2.net ns) fresh dt
        [(0, t1), (0, t1 + enc.Tmin + v1 * enc.Tcod), (1, t2), (1, t2 + enc.Tmin + v2 * enc.Tcod)] F enc 0
        (arrInj dt t1 1) (arrInj dt (t1 + enc.Tmin + v1 * enc.Tcod) 1) (arrInj dt t2 1) (arrInj dt (t2 + enc.Tmin + v2 * enc.Tcod) 1)
        (arrInj dt t1 350) (arrInj dt (t1 + enc.Tmin + v1 * enc.Tcod) 350) (arrInj dt t2 350) (arrInj dt (t2 + enc.Tmin + v2 * enc.Tcod) 350) := by
  have h1 : 0 < enc.Tmin := by linarith
  obtain ⟨ns, S, F, st, hses, R⟩ := (multiplier_lib enc name).run H hord enc hdt T
    (cs := [.value v1 0 t1, .value v2 1 t2]) (by simp [CallOK, hv1, hv1', hv2, hv2'])
  refine ⟨ns, S, F, st, hses, R, ?_⟩
  have m1 : 0 ≤ v1 * enc.Tcod := by positivity
  have m2 : 0 ≤ v2 * enc.Tcod := by positivity
  have E := R.embeds [2, 3, 4, 5, 6, 7, 8, 9, 10, 11] (by simp) (by simp [injTimes, callSpikes])
  have i0 := R.input hdt (k := 0) (by norm_num) rfl (A := [t1, t1 + enc.Tmin + v1 * enc.Tcod]) (by simp [injTimes, callSpikes])
  have i1 := R.input hdt (k := 1) (by norm_num) rfl (A := [t2, t2 + enc.Tmin + v2 * enc.Tcod]) (by simp [injTimes, callSpikes])
  simp only [List.map_cons, List.map_nil] at i0 i1
  obtain ⟨c1, -⟩ := value_arr hdt h1 h2 (v := v1) (t0 := t1) (by linarith) hv1 ht1
  obtain ⟨c2, -⟩ := value_arr hdt h1 h2 (v := v2) (t0 := t2) (by linarith) hv2 ht2
  exact ⟨E, i0 1, i1 1, i0 350, i1 350, c1, c2, (value_gap hdt h1 h2 hd hv1 hv1' ht1).1, (value_gap hdt h1 h2 hd hv2 hv2' ht2).1,
    arrInj_pos _ _ _, arrInj_pos _ _ _, arrInj_mono' hdt (by linarith), arrInj_mono' hdt (by linarith)⟩

/-- What the accumulator is charged with. -/
theorem charge {dt : K} (hdt : 0 < dt) {enc : Encoder K} (h1 : 0 < enc.Tmin) (h2 : 0 < enc.Tcod) (hd : dt ≤ enc.Tmin) {v t0 : K} (hv : 2 * dt / enc.Tcod < v)
    (ht : 0 ≤ t0) {a b : ℕ} (ha : a = arrInj dt t0 1) (hb : b = arrInj dt (t0 + enc.Tmin + v * enc.Tcod) 1) :
    a + dly dt (1 + enc.Tmin) < b + dly dt 1 ∧
    |((b + dly dt 1 - (a + dly dt (1 + enc.Tmin)) : ℕ) : K) * dt / enc.Tcod - v| < 2 * dt / enc.Tcod := by
  have hε : 0 < 2 * dt / enc.Tcod := by positivity
  have hvT : 2 * dt < v * enc.Tcod := by rwa [div_lt_iff₀ h2] at hv
  obtain ⟨-, c2, c3, c4, c5⟩ := value_arr hdt h1 h2 hd (v := v) (by linarith) ht
  rw [← ha, ← hb] at c3
  obtain ⟨d1, d2⟩ := dly_bd hdt (one_pos (α := K))
  obtain ⟨f1, f2⟩ := dly_bd hdt (show 0 < 1 + enc.Tmin by linarith)
  rw [abs_lt] at c3
  have hlt : a + dly dt (1 + enc.Tmin) < b + dly dt 1 := by
    refine step_lt hdt ?_
    push_cast; linarith
  refine ⟨hlt, ?_⟩
  rw [Nat.cast_sub hlt.le, abs_lt]
  push_cast
  constructor
  · rw [lt_sub_iff_add_lt, lt_div_iff₀ h2, add_mul, neg_mul, div_mul_cancel₀ _ h2.ne']; linarith
  · rw [sub_lt_iff_lt_add, div_lt_iff₀ h2, add_mul, div_mul_cancel₀ _ h2.ne']; linarith

theorem charge_lt {dt : K} (hdt : 0 < dt) {enc : Encoder K} (h1 : 0 < enc.Tmin) (h2 : 0 < enc.Tcod) (hd : dt ≤ enc.Tmin) {v t0 : K}
    (hv : 0 ≤ v) (hv' : v ≤ 1 - 2 * dt / enc.Tcod) (ht : 0 ≤ t0) :
    ((arrInj dt (t0 + enc.Tmin + v * enc.Tcod) 1 + dly dt 1 - (arrInj dt t0 1 + dly dt (1 + enc.Tmin)) : ℕ) : K) * dt / enc.Tcod < 1 := by
  rw [div_lt_one h2]
  rcases Nat.le_total (arrInj dt (t0 + enc.Tmin + v * enc.Tcod) 1 + dly dt 1) (arrInj dt t0 1 + dly dt (1 + enc.Tmin)) with h | h
  · rw [Nat.sub_eq_zero_of_le h]; simpa using h2
  · rw [Nat.cast_sub h]
    obtain ⟨-, c2, c3, c4, c5⟩ := value_arr hdt h1 h2 hd (v := v) hv ht
    rw [abs_lt] at c3
    obtain ⟨d1, d2⟩ := dly_bd hdt (one_pos (α := K))
    obtain ⟨f1, f2⟩ := dly_bd hdt (show 0 < 1 + enc.Tmin by linarith)
    have := mul_le_mul_of_nonneg_right hv' h2.le
    rw [sub_mul, div_mul_cancel₀ _ h2.ne'] at this
    push_cast; linarith

/-- Products of nearby factors. -/
theorem prod_near {x1 x2 v1 v2 ε : K} (h1 : |x1 - v1| ≤ ε) (h2 : |x2 - v2| ≤ ε) (hx : 0 ≤ x2) (hx' : x2 ≤ 1) (hv : 0 ≤ v1) (hv' : v1 ≤ 1) :
    |x1 * x2 - v1 * v2| ≤ 2 * ε := by
  have e : x1 * x2 - v1 * v2 = (x1 - v1) * x2 + v1 * (x2 - v2) := by ring
  rw [e]
  refine (abs_add_le _ _).trans ?_
  rw [abs_mul, abs_mul, abs_of_nonneg hx, abs_of_nonneg hv]
  have := mul_le_of_le_one_right (abs_nonneg (x1 - v1)) hx'
  have := mul_le_of_le_one_left (abs_nonneg (x2 - v2)) hv'
  linarith

/-- Time budget of the multiplier: nothing is late if the decay takes at most `M` steps and `(M + 5) * dt ≤ 343`. -/
theorem mul_budget {dt : K} (hdt : 0 < dt) {τ1 τ2 : K} (h1 : 0 ≤ τ1) (h2 : 0 ≤ τ2) {M : ℕ} (hM : ((M : K) + 5) * dt ≤ 343) :
    max (arrInj dt τ1 1) (arrInj dt τ2 1) + 4 * dly dt 1 + dly dt 2 + M ≤ max (arrInj dt τ1 350) (arrInj dt τ2 350) + 1 := by
  have key : ∀ τ : K, 0 ≤ τ → arrInj dt τ 1 + 4 * dly dt 1 + dly dt 2 + M ≤ arrInj dt τ 350 + 1 := by
    intro τ hτ
    obtain ⟨d1, d2⟩ := dly_bd hdt (one_pos (α := K))
    obtain ⟨e1, e2⟩ := dly_bd hdt (two_pos (α := K))
    obtain ⟨a1, a2⟩ := arrInj_bd (τ := τ) (D := 1) hdt (by linarith)
    obtain ⟨b1, b2⟩ := arrInj_bd (τ := τ) (D := 350) hdt (by linarith)
    refine step_le hdt ?_
    push_cast; linarith
  have k1 := key τ1 h1
  have k2 := key τ2 h2
  omega

/-- **C49.** A `MultiplierNetwork` that is given `v1` at time `t1` and `v2` at time `t2` emits `v1 * v2`, up to
`6*dt + Tcod*(1/(1-dt/20)^2 - 1)`, provided the decay to the product takes less than 343 ms (`M` steps) and the factors
are not within `2*dt/Tcod` of 0 or 1. -/
theorem C49_product (H : EventHeap K) {ord : ℕ → List ℕ → List ℕ} (hord : SetOrder ord) {enc : Encoder K}
    {dt : K} (hdt : 0 < dt) (hdt' : dt < 20) (h2 : 0 < enc.Tcod) (hd : 1 + dt ≤ enc.Tmin) (hd2 : 2 * dt ≤ enc.Tmin) (name : Option String)
    {v1 v2 t1 t2 T : K} (hv1 : 2 * dt / enc.Tcod < v1) (hv1' : v1 ≤ 1 - 2 * dt / enc.Tcod)
    (hv2 : 2 * dt / enc.Tcod < v2) (hv2' : v2 ≤ 1 - 2 * dt / enc.Tcod) (ht1 : 0 ≤ t1) (ht2 : 0 ≤ t2)
    {M : ℕ} (hM : left dt M ≤ (v1 - 2 * dt / enc.Tcod) * (v2 - 2 * dt / enc.Tcod)) (hM' : ((M : K) + 5) * dt ≤ 343)
    (hT1 : t1 + 2 * enc.Tmin + 2 * enc.Tcod + 6 + (M + 5) * dt ≤ T) (hT2 : t2 + 2 * enc.Tmin + 2 * enc.Tcod + 6 + (M + 5) * dt ≤ T) :
    let p := (multiplierNetwork enc name World.empty).1
    let w := (multiplierNetwork enc name World.empty).2
    ∃ st, session H ord enc dt T w p.mod [.value v1 p.input1 t1, .value v2 p.input2 t2] = .ok st ∧
      Carries enc dt (6 * dt + enc.Tcod * (1 / (1 - dt / 20) ^ 2 - 1)) (st.spikeLog p.output) (v1 * v2) := by
  intro p w
  have h1 : 0 < enc.Tmin := by linarith
  have hε : 0 < 2 * dt / enc.Tcod := by positivity
  obtain ⟨ns, S, F, st, hses, R, hm⟩ := mul_setup H hord hdt h2 hd name T (v1 := v1) (v2 := v2) (by linarith) (by linarith) (by linarith)
    (by linarith) ht1 ht2
  refine ⟨st, hses, ?_⟩
  have hvT1 : v1 * enc.Tcod ≤ enc.Tcod := mul_le_of_le_one_left h2.le (by linarith)
  have hvT2 : v2 * enc.Tcod ≤ enc.Tcod := mul_le_of_le_one_left h2.le (by linarith)
  have hvT1' : 0 ≤ v1 * enc.Tcod := mul_nonneg (by linarith) h2.le
  have hvT2' : 0 ≤ v2 * enc.Tcod := mul_nonneg (by linarith) h2.le
  have hbud := mul_budget hdt (τ1 := t1 + enc.Tmin + v1 * enc.Tcod) (τ2 := t2 + enc.Tmin + v2 * enc.Tcod)
    (by linarith) (by linarith) hM'
  obtain ⟨-, -, -, -, c5⟩ := value_arr hdt h1 h2 (v := v1) (t0 := t1) (by linarith) (by linarith) ht1
  obtain ⟨-, -, -, -, c5'⟩ := value_arr hdt h1 h2 (v := v2) (t0 := t2) (by linarith) (by linarith) ht2
  obtain ⟨k1, k2⟩ := charge hdt h1 h2 (by linarith) hv1 ht1 rfl rfl
  obtain ⟨l1, l2⟩ := charge hdt h1 h2 (by linarith) hv2 ht2 rfl rfl
  obtain ⟨X1, hX1⟩ : ∃ X1, X1 = ((arrInj dt (t1 + enc.Tmin + v1 * enc.Tcod) 1 + dly dt 1 - (arrInj dt t1 1 + dly dt (1 + enc.Tmin)) : ℕ) : K) * dt / enc.Tcod := ⟨_, rfl⟩
  obtain ⟨X2, hX2⟩ : ∃ X2, X2 = ((arrInj dt (t2 + enc.Tmin + v2 * enc.Tcod) 1 + dly dt 1 - (arrInj dt t2 1 + dly dt (1 + enc.Tmin)) : ℕ) : K) * dt / enc.Tcod := ⟨_, rfl⟩
  rw [← hX1] at k2
  rw [← hX2] at l2
  have k3 := abs_lt.mp k2
  have l3 := abs_lt.mp l2
  have hprod : (v1 - 2 * dt / enc.Tcod) * (v2 - 2 * dt / enc.Tcod) ≤ X1 * X2 :=
    mul_le_mul (by linarith) (by linarith) (by linarith) (by linarith)
  obtain ⟨i, j, t11, -, hij, hi, hj, herr⟩ := hm.product R.run hdt hdt' h2 hd2 k1 l1 hX1 hX2 (by linarith) (by linarith) (hM.trans hprod) hbud
  refine ⟨i, j, R.pair (k := 11) (by norm_num) hdt rfl t11 hij ?_, ?_⟩
  · obtain ⟨d1, d2⟩ := dly_bd hdt (one_pos (α := K))
    obtain ⟨f1, f2⟩ := dly_bd hdt (show 0 < 1 + enc.Tmin by linarith)
    have hcl := Nat.ceil_lt_add_one (show 0 ≤ enc.Tcod / dt by positivity)
    have hcl' := mul_lt_mul_of_pos_right hcl hdt
    rw [add_mul, div_mul_cancel₀ _ hdt.ne', one_mul] at hcl'
    have hd1 := one_le_dly dt (1 : K)
    have hdm := one_le_dly dt (1 + enc.Tmin)
    have hj' : j + 2 ≤ max (arrInj dt (t1 + enc.Tmin + v1 * enc.Tcod) 1) (arrInj dt (t2 + enc.Tmin + v2 * enc.Tcod) 1) + 4 * dly dt 1 + M +
      ⌈enc.Tcod / dt⌉₊ + dly dt (1 + enc.Tmin) := by omega
    have hjK : ((j : K) + 2) * dt ≤ ((max (arrInj dt (t1 + enc.Tmin + v1 * enc.Tcod) 1) (arrInj dt (t2 + enc.Tmin + v2 * enc.Tcod) 1) + 4 * dly dt 1 + M +
      ⌈enc.Tcod / dt⌉₊ + dly dt (1 + enc.Tmin) : ℕ) : K) * dt := mul_le_mul_of_nonneg_right (by exact_mod_cast hj') hdt.le
    rcases le_total (arrInj dt (t1 + enc.Tmin + v1 * enc.Tcod) 1) (arrInj dt (t2 + enc.Tmin + v2 * enc.Tcod) 1) with hle | hle
    · rw [max_eq_right hle] at hjK
      push_cast at hjK
      linarith
    · rw [max_eq_left hle] at hjK
      push_cast at hjK
      linarith
  · have hp := prod_near k2.le l2.le (by linarith) (by linarith) (by linarith) (by linarith : v1 ≤ 1)
    rw [abs_le] at herr hp ⊢
    have hp1 := mul_le_mul_of_nonneg_right hp.1 h2.le
    have hp2 := mul_le_mul_of_nonneg_right hp.2 h2.le
    have e : 2 * (2 * dt / enc.Tcod) * enc.Tcod = 4 * dt := by field_simp; ring
    rw [neg_mul, e] at hp1
    rw [e] at hp2
    constructor <;> linarith

/-- A concrete case of C49: 0.5 * 0.4, with `dt = 0.2`; 165 steps reduce the current to at most 0.496*0.396. -/
example : ∃ st, session (sortedHeap _) (fun _ l => l) ⟨10, 100⟩ (1 / 5) 300
      (multiplierNetwork (⟨10, 100⟩ : Encoder ℚ) none World.empty).2 0 [.value (1 / 2) 0 0, .value (2 / 5) 1 3] = .ok st ∧
      Carries ⟨10, 100⟩ (1 / 5) (6 * (1 / 5) + 100 * (1 / (1 - 1 / 5 / 20) ^ 2 - 1)) (st.spikeLog 11) (1 / 2 * (2 / 5)) :=
  C49_product (sortedHeap _) id_setOrder (enc := (⟨10, 100⟩ : Encoder ℚ)) (by norm_num) (by norm_num) (by norm_num)
    (by norm_num) (by norm_num) none (by norm_num) (by norm_num) (by norm_num) (by norm_num) (by norm_num) (by norm_num) (M := 165)
    (by unfold left; norm_num) (by norm_num) (by norm_num) (by norm_num)

/-- Exact delays when `dt` divides them. -/
theorem dly_exact {dt D : K} (hdt : 0 < dt) {n : ℕ} (hD : 0 < D) (hn : (n : K) * dt = D) : dly dt D = n := by
  rw [dly_eq_ceil hdt hD, ← hn, mul_div_cancel_right₀ _ hdt.ne', Nat.ceil_natCast]

theorem arrInj_exact {dt τ D : K} (hdt : 0 < dt) {n : ℕ} (hτ : 0 < τ) (hn : (n : K) * dt = D) : arrInj dt τ D = arrInj dt τ 0 + n := by
  unfold arrInj firstStep
  rw [add_zero, ← hn, add_div, mul_div_cancel_right₀ _ hdt.ne', Nat.ceil_add_natCast (by positivity)]
  have : 1 ≤ ⌈τ / dt⌉₊ := Nat.one_le_iff_ne_zero.mpr (Nat.ceil_pos.mpr (by positivity)).ne'
  omega

/-- **C49** for zero: if one factor is 0 and the other one is not within `2*dt/Tcod` of 1, the zero detector answers with
exactly 0, 350 ms after the later input. The time step is assumed to divide the delays 1 and `Tmin`. -/
theorem C49_zero (H : EventHeap K) {ord : ℕ → List ℕ → List ℕ} (hord : SetOrder ord) {enc : Encoder K}
    {dt : K} (hdt : 0 < dt) (hdt' : dt < 20) (h2 : 0 < enc.Tcod) (hd : 1 + dt ≤ enc.Tmin) (hk : ∃ k : ℕ, (k : K) * dt = 1)
    (hl : ∃ l : ℕ, (l : K) * dt = enc.Tmin) (name : Option String) {v1 v2 t1 t2 T : K}
    (hv1 : 0 ≤ v1) (hv1' : v1 ≤ 1 - 2 * dt / enc.Tcod) (hv2 : 0 ≤ v2) (hv2' : v2 ≤ 1 - 2 * dt / enc.Tcod) (ht1 : 0 ≤ t1) (ht2 : 0 ≤ t2)
    (h0 : v1 = 0 ∨ v2 = 0) (hT1 : t1 + 2 * enc.Tmin + enc.Tcod + 351 + 2 * dt ≤ T) (hT2 : t2 + 2 * enc.Tmin + enc.Tcod + 351 + 2 * dt ≤ T) :
    let p := (multiplierNetwork enc name World.empty).1
    let w := (multiplierNetwork enc name World.empty).2
    ∃ st, session H ord enc dt T w p.mod [.value v1 p.input1 t1, .value v2 p.input2 t2] = .ok st ∧
      Carries enc dt 0 (st.spikeLog p.output) 0 := by
  intro p w
  obtain ⟨k, hk⟩ := hk
  obtain ⟨l, hl⟩ := hl
  have h1 : 0 < enc.Tmin := by linarith
  have hε : 0 < 2 * dt / enc.Tcod := by positivity
  obtain ⟨ns, S, F, st, hses, R, hm⟩ := mul_setup H hord hdt h2 hd name T (v1 := v1) (v2 := v2) (by linarith) (by linarith) (by linarith)
    (by linarith) ht1 ht2
  refine ⟨st, hses, ?_⟩
  have e1 : dly dt (1 : K) = k := dly_exact hdt one_pos hk
  have e2 : dly dt (1 + enc.Tmin) = k + l := dly_exact hdt (by linarith) (by push_cast; linarith)
  have hl1 : 1 ≤ l := by
    rcases Nat.eq_zero_or_pos l with rfl | h
    · push_cast at hl; linarith
    · exact h
  have hw : enc.waccBar = (10 * 100 / enc.Tcod : K) := rfl
  have hw0 : 0 ≤ enc.waccBar := by rw [hw]; positivity
  have hvT1 : v1 * enc.Tcod ≤ enc.Tcod := mul_le_of_le_one_left h2.le (by linarith)
  have hvT2 : v2 * enc.Tcod ≤ enc.Tcod := mul_le_of_le_one_left h2.le (by linarith)
  have hvT1' : 0 ≤ v1 * enc.Tcod := mul_nonneg (by linarith) h2.le
  have hvT2' : 0 ≤ v2 * enc.Tcod := mul_nonneg (by linarith) h2.le
  -- a zero leaves the accumulator uncharged
  have hzero : ∀ t0 : K, 0 ≤ t0 → arrInj dt (t0 + enc.Tmin + 0 * enc.Tcod) 1 = arrInj dt t0 1 + l := by
    intro t0 ht0
    unfold arrInj firstStep
    rw [zero_mul, add_zero, ← hl, show t0 + (l : K) * dt + 1 = (t0 + 1) + (l : K) * dt by ring, add_div, mul_div_cancel_right₀ _ hdt.ne',
      Nat.ceil_add_natCast (by positivity)]
    have : 1 ≤ ⌈(t0 + 1) / dt⌉₊ := Nat.one_le_iff_ne_zero.mpr (Nat.ceil_pos.mpr (by positivity)).ne'
    omega
  have hd1 := one_le_dly dt (1 : K)
  have hdm := one_le_dly dt (1 + enc.Tmin)
  have t8 : Train F (0 + 8) [] := by
    by_cases hz : v2 = 0
    · -- the second logarithm is not charged
      have hb : arrInj dt (t2 + enc.Tmin + v2 * enc.Tcod) 1 + dly dt 1 ≤ arrInj dt t2 1 + dly dt (1 + enc.Tmin) := by
        rw [hz, hzero t2 ht2, e1, e2]; omega
      by_cases h4 : arrInj dt t1 1 + dly dt (1 + enc.Tmin) < arrInj dt (t1 + enc.Tmin + v1 * enc.Tcod) 1 + dly dt 1
      · obtain ⟨X1, hX1⟩ : ∃ X1, X1 = ((arrInj dt (t1 + enc.Tmin + v1 * enc.Tcod) 1 + dly dt 1 - (arrInj dt t1 1 + dly dt (1 + enc.Tmin)) : ℕ) : K) * dt / enc.Tcod := ⟨_, rfl⟩
        have hX1p : 0 < X1 := by
          rw [hX1]
          have : (0 : K) < ((arrInj dt (t1 + enc.Tmin + v1 * enc.Tcod) 1 + dly dt 1 - (arrInj dt t1 1 + dly dt (1 + enc.Tmin)) : ℕ) : K) := by
            exact_mod_cast (by omega)
          positivity
        obtain ⟨n1, hn1⟩ := decay_exists hdt hdt' hX1p
        have t4 := log_acc R.run hdt hdt' (R.std 4 (by norm_num)) hw0 (hm.log1 R.run hdt) (by omega) h4.le (by omega)
          (X := X1) (by rw [hX1, hw]; ring) (by rw [hX1]; exact charge_lt hdt h1 h2 (by linarith) hv1 hv1' ht1) hn1
        exact log_acc_none R.run hdt hdt' (R.std 8 (by norm_num)) hw0 (hm.log2 R.run hdt t4) (by omega) hb
      · have t4 := log_acc_none R.run hdt hdt' (R.std 4 (by norm_num)) hw0 (hm.log1 R.run hdt) (by omega) (by omega)
        refine hm.log2_none R.run hdt t4 hw0 ?_
        rw [show ∀ n : ℕ, enc.waccBar * dt / 100 * (n : K) = 10 * ((n : K) * dt / enc.Tcod) by intro n; rw [hw]; ring]
        linarith [charge_lt hdt h1 h2 (by linarith) hv2 hv2' ht2]
    · have hz1 : v1 = 0 := h0.resolve_right hz
      have t4 := log_acc_none R.run hdt hdt' (R.std 4 (by norm_num)) hw0 (hm.log1 R.run hdt) (by omega) (by
        rw [hz1, hzero t1 ht1, e1, e2]; omega)
      refine hm.log2_none R.run hdt t4 hw0 ?_
      rw [show ∀ n : ℕ, enc.waccBar * dt / 100 * (n : K) = 10 * ((n : K) * dt / enc.Tcod) by intro n; rw [hw]; ring]
      linarith [charge_lt hdt h1 h2 (by linarith) hv2 hv2' ht2]
  obtain ⟨t11, -⟩ := hm.zero R.run hdt t8 (hm.exp_none R.run hdt hdt' t8) (by rw [e1, e2]; omega)
  refine ⟨_, _, R.pair (k := 11) (by norm_num) hdt rfl t11 (by rw [e1, e2]; omega) ?_, ?_⟩
  · rw [e2]
    obtain ⟨-, z1⟩ := arrInj_bd (τ := t1 + enc.Tmin + v1 * enc.Tcod) (D := 350) hdt (by linarith)
    obtain ⟨-, z2⟩ := arrInj_bd (τ := t2 + enc.Tmin + v2 * enc.Tcod) (D := 350) hdt (by linarith)
    rcases le_total (arrInj dt (t1 + enc.Tmin + v1 * enc.Tcod) 350) (arrInj dt (t2 + enc.Tmin + v2 * enc.Tcod) 350) with hle | hle
    · rw [max_eq_right hle]; push_cast; linarith
    · rw [max_eq_left hle]; push_cast; linarith
  · rw [e1, e2, zero_mul, add_zero]
    push_cast
    rw [show ∀ m : K, (m + (k + l)) * dt - (m + k) * dt - enc.Tmin = l * dt - enc.Tmin by intro m; ring, hl, sub_self, abs_zero]

/-- A concrete case of C49 for zero. -/
example : ∃ st, session (sortedHeap _) (fun _ l => l) ⟨10, 100⟩ (1 / 10) 600
      (multiplierNetwork (⟨10, 100⟩ : Encoder ℚ) none World.empty).2 0 [.value (1 / 2) 0 0, .value 0 1 3] = .ok st ∧
      Carries ⟨10, 100⟩ (1 / 10) 0 (st.spikeLog 11) 0 :=
  C49_zero (sortedHeap _) id_setOrder (enc := (⟨10, 100⟩ : Encoder ℚ)) (by norm_num) (by norm_num) (by norm_num)
    (by norm_num) ⟨10, by norm_num⟩ ⟨100, by norm_num⟩ none (by norm_num) (by norm_num) (by norm_num) (by norm_num) (by norm_num) (by norm_num)
    (.inr rfl) (by norm_num) (by norm_num)

/-- **C49 fails for a second factor of 1** (in exact arithmetic): the accumulator of the second logarithm is charged up to its
threshold and fires at once, so that the network answers 1 whatever the first factor is - even 0. -/
theorem C49_times_one (H : EventHeap K) {ord : ℕ → List ℕ → List ℕ} (hord : SetOrder ord) {enc : Encoder K}
    {dt : K} (hdt : 0 < dt) (hdt' : dt < 20) (h2 : 2 + 2 * dt ≤ enc.Tcod) (hd : 1 + dt ≤ enc.Tmin) (hk : ∃ k : ℕ, (k : K) * dt = 1)
    (hl : ∃ l : ℕ, (l : K) * dt = enc.Tmin) (hc : ∃ c : ℕ, (c : K) * dt = enc.Tcod) (name : Option String) {v1 t0 T : K}
    (hv1 : 0 ≤ v1) (hv1' : v1 ≤ 1 - 2 * dt / enc.Tcod) (ht : 0 ≤ t0) (hT : t0 + 2 * enc.Tmin + 2 * enc.Tcod + 4 + dt ≤ T) :
    let p := (multiplierNetwork enc name World.empty).1
    let w := (multiplierNetwork enc name World.empty).2
    ∃ st, session H ord enc dt T w p.mod [.value v1 p.input1 t0, .value 1 p.input2 t0] = .ok st ∧
      Carries enc dt dt (st.spikeLog p.output) 1 := by
  intro p w
  obtain ⟨k, hk⟩ := hk
  obtain ⟨l, hl⟩ := hl
  obtain ⟨c, hc⟩ := hc
  have h1 : 0 < enc.Tmin := by linarith
  have h2' : 0 < enc.Tcod := by linarith
  have hε : 0 < 2 * dt / enc.Tcod := by positivity
  obtain ⟨ns, S, F, st, hses, R, hm⟩ := mul_setup H hord hdt h2' hd name T (v1 := v1) (v2 := 1) (by linarith) (by linarith) (by linarith)
    (by linarith) ht ht
  refine ⟨st, hses, ?_⟩
  have e1 : dly dt (1 : K) = k := dly_exact hdt one_pos hk
  have e2 : dly dt (1 + enc.Tmin) = k + l := dly_exact hdt (by linarith) (by push_cast; linarith)
  have e3 : dly dt (3 : K) = 3 * k := dly_exact hdt three_pos (by push_cast; linarith)
  have e4 : dly dt (2 : K) = 2 * k := dly_exact hdt two_pos (by push_cast; linarith)
  have hk1 : 1 ≤ k := by rw [← e1]; exact one_le_dly dt 1
  have hc1 : 2 * k + 2 ≤ c := by
    refine step_le hdt ?_
    push_cast; linarith
  have hw : enc.waccBar = (10 * 100 / enc.Tcod : K) := rfl
  have hw0 : 0 ≤ enc.waccBar := by rw [hw]; positivity
  have hvT1 : v1 * enc.Tcod ≤ enc.Tcod := mul_le_of_le_one_left h2'.le (by linarith)
  have hvT1' : 0 ≤ v1 * enc.Tcod := mul_nonneg (by linarith) h2'.le
  have hceil : ⌈enc.Tcod / dt⌉₊ = c := by rw [← hc, mul_div_cancel_right₀ _ hdt.ne', Nat.ceil_natCast]
  have hb2 : arrInj dt (t0 + enc.Tmin + 1 * enc.Tcod) 1 = arrInj dt t0 1 + l + c := by
    unfold arrInj firstStep
    rw [one_mul, ← hl, ← hc, show t0 + (l : K) * dt + (c : K) * dt + 1 = (t0 + 1) + ((l + c : ℕ) : K) * dt by push_cast; ring, add_div,
      mul_div_cancel_right₀ _ hdt.ne', Nat.ceil_add_natCast (by positivity)]
    have : 1 ≤ ⌈(t0 + 1) / dt⌉₊ := Nat.one_le_iff_ne_zero.mpr (Nat.ceil_pos.mpr (by positivity)).ne'
    omega
  have hz2 : arrInj dt (t0 + enc.Tmin + 1 * enc.Tcod) 350 = arrInj dt t0 1 + l + c + 349 * k := by
    rw [← hb2]
    unfold arrInj firstStep
    rw [show t0 + enc.Tmin + 1 * enc.Tcod + 350 = (t0 + enc.Tmin + 1 * enc.Tcod + 1) + ((349 * k : ℕ) : K) * dt by
        push_cast; rw [mul_assoc, hk]; ring, add_div, mul_div_cancel_right₀ _ hdt.ne', Nat.ceil_add_natCast (by positivity)]
    have : 1 ≤ ⌈(t0 + enc.Tmin + 1 * enc.Tcod + 1) / dt⌉₊ := Nat.one_le_iff_ne_zero.mpr (Nat.ceil_pos.mpr (by positivity)).ne'
    omega
  have hb1 : arrInj dt (t0 + enc.Tmin + v1 * enc.Tcod) 1 ≤ arrInj dt (t0 + enc.Tmin + 1 * enc.Tcod) 1 := arrInj_mono' hdt (by linarith)
  have ha := arrInj_pos dt t0 (1 : K)
  have ha' := (arrInj_bd (τ := t0) (D := 1) hdt (by linarith)).2
  have hd1 := one_le_dly dt (1 : K)
  have hdm := one_le_dly dt (1 + enc.Tmin)
  have t4 : Train F (0 + 4) [] ∨ ∃ P1, Train F (0 + 4) [P1] ∧ arrInj dt (t0 + enc.Tmin + 1 * enc.Tcod) 1 ≤ P1 := by
    by_cases h4 : arrInj dt t0 1 + dly dt (1 + enc.Tmin) < arrInj dt (t0 + enc.Tmin + v1 * enc.Tcod) 1 + dly dt 1
    · obtain ⟨X1, hX1⟩ : ∃ X1, X1 = ((arrInj dt (t0 + enc.Tmin + v1 * enc.Tcod) 1 + dly dt 1 - (arrInj dt t0 1 + dly dt (1 + enc.Tmin)) : ℕ) : K) * dt / enc.Tcod := ⟨_, rfl⟩
      have hX1p : 0 < X1 := by
        rw [hX1]
        have : (0 : K) < ((arrInj dt (t0 + enc.Tmin + v1 * enc.Tcod) 1 + dly dt 1 - (arrInj dt t0 1 + dly dt (1 + enc.Tmin)) : ℕ) : K) := by
          exact_mod_cast (by omega)
        positivity
      obtain ⟨n1, hn1⟩ := decay_exists hdt hdt' hX1p
      exact .inr ⟨_, log_acc R.run hdt hdt' (R.std 4 (by norm_num)) hw0 (hm.log1 R.run hdt) (by omega) h4.le (by omega)
        (X := X1) (by rw [hX1, hw]; ring) (by rw [hX1]; exact charge_lt hdt h1 h2' (by linarith) hv1 hv1' ht) hn1, by omega⟩
    · exact .inl (log_acc_none R.run hdt hdt' (R.std 4 (by norm_num)) hw0 (hm.log1 R.run hdt) (by omega) (by omega))
  have t8 := hm.log2_full R.run hdt hdt' hw0 (reach_waccBar h2' hdt) (by rw [hceil]; omega) (by rw [hceil, hb2, e1, e2]; omega) t4
  rw [hceil, e2] at t8
  obtain ⟨t10, -⟩ := hm.exp R.run hdt hdt' h2' t8 rfl rfl rfl (by
    rw [max_eq_right hb1, e1, e3, hb2, show arrInj dt t0 1 + (k + l) + c - 1 + k - (arrInj dt t0 1 + l + c + k + 3 * k) = 0 by omega, pow_zero, one_mul, hceil]
    omega)
  rw [max_eq_right hb1, e1, e3, hb2, show arrInj dt t0 1 + (k + l) + c - 1 + k - (arrInj dt t0 1 + l + c + k + 3 * k) = 0 by omega, pow_zero, one_mul, hceil] at t10
  obtain ⟨t11, -⟩ := hm.out R.run hdt t8 t10 (by rw [e4, e2]; omega) (by rw [e4, e1, hz2]; omega)
  rw [e4, e2] at t11
  refine ⟨_, _, R.pair (k := 11) (by norm_num) hdt rfl t11 (by omega) ?_, ?_⟩
  · have e : arrInj dt t0 1 + (k + l) + c - 1 + k + c - 1 + (k + l) = arrInj dt t0 1 + 3 * k + 2 * l + 2 * c - 2 := by omega
    rw [e]
    push_cast [Nat.cast_sub (show 2 ≤ arrInj dt t0 1 + 3 * k + 2 * l + 2 * c by omega)]
    linarith
  · have e : arrInj dt t0 1 + (k + l) + c - 1 + k + c - 1 + (k + l) = (arrInj dt t0 1 + (k + l) + c - 1 + 2 * k) + (l + c - 1) := by omega
    rw [e, Nat.cast_add, add_mul, add_sub_cancel_left]
    push_cast [Nat.cast_sub (show 1 ≤ l + c by omega)]
    rw [sub_mul, add_mul, hl, hc, one_mul, one_mul, show enc.Tmin + enc.Tcod - dt - (enc.Tmin + enc.Tcod) = -dt by ring, abs_neg, abs_of_pos hdt]

/-- 0 * 1 = 1. -/
example : ∃ st, session (sortedHeap _) (fun _ l => l) ⟨10, 100⟩ (1 / 10) 600
      (multiplierNetwork (⟨10, 100⟩ : Encoder ℚ) none World.empty).2 0 [.value 0 0 0, .value 1 1 0] = .ok st ∧
      Carries ⟨10, 100⟩ (1 / 10) (1 / 10) (st.spikeLog 11) 1 :=
  C49_times_one (sortedHeap _) id_setOrder (enc := (⟨10, 100⟩ : Encoder ℚ)) (by norm_num) (by norm_num) (by norm_num)
    (by norm_num) ⟨10, by norm_num⟩ ⟨100, by norm_num⟩ ⟨1000, by norm_num⟩ none (by norm_num) (by norm_num) (by norm_num) (by norm_num)

/-- **C49 fails for products that are too small**: if the decay to the product takes longer than about 345 + Tmin ms, the zero
detector answers first and the network emits four spikes. -/
theorem C49_too_small (H : EventHeap K) {ord : ℕ → List ℕ → List ℕ} (hord : SetOrder ord) {enc : Encoder K}
    {dt : K} (hdt : 0 < dt) (hdt' : dt < 20) (h2 : 0 < enc.Tcod) (hd : 1 + dt ≤ enc.Tmin) (hd2 : 2 * dt ≤ enc.Tmin) (name : Option String)
    {v1 v2 t1 t2 T : K} (hv1 : 2 * dt / enc.Tcod < v1) (hv1' : v1 ≤ 1 - 2 * dt / enc.Tcod)
    (hv2 : 2 * dt / enc.Tcod < v2) (hv2' : v2 ≤ 1 - 2 * dt / enc.Tcod) (ht1 : 0 ≤ t1) (ht2 : 0 ≤ t2)
    {L M : ℕ} (hL : (v1 + 2 * dt / enc.Tcod) * (v2 + 2 * dt / enc.Tcod) < left dt L) (hL' : 345 + enc.Tmin + 3 * dt ≤ (L : K) * dt)
    (hM : left dt M ≤ (v1 - 2 * dt / enc.Tcod) * (v2 - 2 * dt / enc.Tcod))
    (hT1 : t1 + 2 * enc.Tmin + 2 * enc.Tcod + 6 + (M + 5) * dt ≤ T) (hT2 : t2 + 2 * enc.Tmin + 2 * enc.Tcod + 6 + (M + 5) * dt ≤ T) :
    let p := (multiplierNetwork enc name World.empty).1
    let w := (multiplierNetwork enc name World.empty).2
    ∃ st, session H ord enc dt T w p.mod [.value v1 p.input1 t1, .value v2 p.input2 t2] = .ok st ∧
      ∃ i j k l : ℕ, i < j ∧ j < k ∧ k < l ∧
        st.spikeLog p.output = some [(i : K) * dt, (j : K) * dt, (k : K) * dt, (l : K) * dt] := by
  intro p w
  have h1 : 0 < enc.Tmin := by linarith
  have hε : 0 < 2 * dt / enc.Tcod := by positivity
  obtain ⟨ns, S, F, st, hses, R, hm⟩ := mul_setup H hord hdt h2 hd name T (v1 := v1) (v2 := v2) (by linarith) (by linarith) (by linarith)
    (by linarith) ht1 ht2
  refine ⟨st, hses, ?_⟩
  have hvT1 : v1 * enc.Tcod ≤ enc.Tcod := mul_le_of_le_one_left h2.le (by linarith)
  have hvT2 : v2 * enc.Tcod ≤ enc.Tcod := mul_le_of_le_one_left h2.le (by linarith)
  have hvT1' : 0 ≤ v1 * enc.Tcod := mul_nonneg (by linarith) h2.le
  have hvT2' : 0 ≤ v2 * enc.Tcod := mul_nonneg (by linarith) h2.le
  obtain ⟨-, -, -, -, c5⟩ := value_arr hdt h1 h2 (v := v1) (t0 := t1) (by linarith) (by linarith) ht1
  obtain ⟨-, -, -, -, c5'⟩ := value_arr hdt h1 h2 (v := v2) (t0 := t2) (by linarith) (by linarith) ht2
  obtain ⟨k1, k2⟩ := charge hdt h1 h2 (by linarith) hv1 ht1 rfl rfl
  obtain ⟨l1, l2⟩ := charge hdt h1 h2 (by linarith) hv2 ht2 rfl rfl
  obtain ⟨X1, hX1⟩ : ∃ X1, X1 = ((arrInj dt (t1 + enc.Tmin + v1 * enc.Tcod) 1 + dly dt 1 - (arrInj dt t1 1 + dly dt (1 + enc.Tmin)) : ℕ) : K) * dt / enc.Tcod := ⟨_, rfl⟩
  obtain ⟨X2, hX2⟩ : ∃ X2, X2 = ((arrInj dt (t2 + enc.Tmin + v2 * enc.Tcod) 1 + dly dt 1 - (arrInj dt t2 1 + dly dt (1 + enc.Tmin)) : ℕ) : K) * dt / enc.Tcod := ⟨_, rfl⟩
  rw [← hX1] at k2
  rw [← hX2] at l2
  have k3 := abs_lt.mp k2
  have l3 := abs_lt.mp l2
  obtain ⟨N, P2, j, hN, hP2, hup, hlow, t8, t10, hj0, hjT, hj1, hj2⟩ := hm.answers R.run hdt hdt' h2 k1 l1 hX1 hX2 (by linarith) (by linarith)
  have hNL : L < N := by
    by_contra hc
    have h5 : rho dt ^ L ≤ rho dt ^ N := pow_le_pow_of_le_one (rho_pos hdt').le (rho_lt hdt).le (by omega)
    have h6 := mul_le_mul (show X1 ≤ v1 + 2 * dt / enc.Tcod by linarith) (show X2 ≤ v2 + 2 * dt / enc.Tcod by linarith)
      (by linarith) (by linarith)
    have : left dt L = rho dt ^ L := rfl
    linarith
  have hNM : N ≤ M + 1 := by
    by_contra hc
    have h5 : rho dt ^ (N - 2) ≤ rho dt ^ M := pow_le_pow_of_le_one (rho_pos hdt').le (rho_lt hdt).le (by omega)
    have h6 := mul_le_mul (show v1 - 2 * dt / enc.Tcod ≤ X1 by linarith) (show v2 - 2 * dt / enc.Tcod ≤ X2 by linarith)
      (by linarith) (by linarith)
    have : left dt M = rho dt ^ M := rfl
    linarith
  obtain ⟨d1, d2⟩ := dly_bd hdt (one_pos (α := K))
  obtain ⟨e1, e2⟩ := dly_bd hdt (two_pos (α := K))
  obtain ⟨f1, f2⟩ := dly_bd hdt (show 0 < 1 + enc.Tmin by linarith)
  have hd1 := one_le_dly dt (1 : K)
  have hdm := one_le_dly dt (1 + enc.Tmin)
  have hlt0 : dly dt 2 < dly dt 1 + dly dt (1 + enc.Tmin) := by
    refine step_lt hdt ?_
    push_cast; linarith
  have hlt1 : dly dt 1 < dly dt (1 + enc.Tmin) := by
    refine step_lt hdt ?_
    linarith
  have hkey : ∀ τ : K, 0 ≤ τ → arrInj dt τ 350 + dly dt (1 + enc.Tmin) + 2 < arrInj dt τ 1 + 3 * dly dt 1 + (L + 1) + dly dt 2 := by
    intro τ hτ
    obtain ⟨a1, a2⟩ := arrInj_bd (τ := τ) (D := 1) hdt (by linarith)
    obtain ⟨b1, b2⟩ := arrInj_bd (τ := τ) (D := 350) hdt (by linarith)
    refine step_lt hdt ?_
    push_cast; linarith
  have q1 := hkey (t1 + enc.Tmin + v1 * enc.Tcod) (by linarith)
  have q2 := hkey (t2 + enc.Tmin + v2 * enc.Tcod) (by linarith)
  have t11 := hm.late R.run hdt t8 t10 rfl hlt1 (by omega) (by omega)
  have hjK : ((P2 + dly dt 1 + j - 1 + dly dt (1 + enc.Tmin) : ℕ) : K) * dt ≤ T := by
    have hcl := Nat.ceil_lt_add_one (show 0 ≤ enc.Tcod / dt by positivity)
    have hcl' := mul_lt_mul_of_pos_right hcl hdt
    rw [add_mul, div_mul_cancel₀ _ hdt.ne', one_mul] at hcl'
    have hj' : P2 + dly dt 1 + j - 1 + dly dt (1 + enc.Tmin) + 2 ≤ max (arrInj dt (t1 + enc.Tmin + v1 * enc.Tcod) 1) (arrInj dt (t2 + enc.Tmin + v2 * enc.Tcod) 1) + 4 * dly dt 1 + M +
      ⌈enc.Tcod / dt⌉₊ + dly dt (1 + enc.Tmin) := by omega
    have hjK : (((P2 + dly dt 1 + j - 1 + dly dt (1 + enc.Tmin) : ℕ) : K) + 2) * dt ≤ ((max (arrInj dt (t1 + enc.Tmin + v1 * enc.Tcod) 1) (arrInj dt (t2 + enc.Tmin + v2 * enc.Tcod) 1) + 4 * dly dt 1 + M +
      ⌈enc.Tcod / dt⌉₊ + dly dt (1 + enc.Tmin) : ℕ) : K) * dt := mul_le_mul_of_nonneg_right (by exact_mod_cast hj') hdt.le
    rcases le_total (arrInj dt (t1 + enc.Tmin + v1 * enc.Tcod) 1) (arrInj dt (t2 + enc.Tmin + v2 * enc.Tcod) 1) with hle | hle
    · rw [max_eq_right hle] at hjK
      push_cast at hjK ⊢
      linarith
    · rw [max_eq_left hle] at hjK
      push_cast at hjK ⊢
      linarith
  have hlog := R.log 11 (by norm_num) _ t11 (by simp; omega) (by
    intro i hi
    refine le_trans (mul_le_mul_of_nonneg_right (Nat.cast_le.mpr ?_) hdt.le) hjK
    simp only [List.mem_cons, List.not_mem_nil, or_false] at hi
    omega)
  refine ⟨_, _, _, _, ?_, ?_, ?_, hlog⟩
  · omega
  · omega
  · omega

/-- A concrete case of C49_too_small (a coarse time step keeps the powers small): 0.00005 * 0.00005. -/
example : ∃ st, session (sortedHeap _) (fun _ l => l) ⟨10, 1000000⟩ 2 2001000
      (multiplierNetwork (⟨10, 1000000⟩ : Encoder ℚ) none World.empty).2 0 [.value (5 / 100000) 0 0, .value (5 / 100000) 1 0] = .ok st ∧
      ∃ i j k l : ℕ, i < j ∧ j < k ∧ k < l ∧
        st.spikeLog 11 = some [(i : ℚ) * 2, (j : ℚ) * 2, (k : ℚ) * 2, (l : ℚ) * 2] :=
  C49_too_small (sortedHeap _) id_setOrder (enc := (⟨10, 1000000⟩ : Encoder ℚ)) (by norm_num) (by norm_num) (by norm_num)
    (by norm_num) (by norm_num) none (by norm_num) (by norm_num) (by norm_num) (by norm_num) (by norm_num) (by norm_num) (L := 181) (M := 191)
    (by unfold left; norm_num) (by norm_num) (by unfold left; norm_num) (by norm_num) (by norm_num)

end field

/-- **C49** over the real numbers: it suffices that `20*ln` of the inverse product is at most `343 - 6*dt` (ms), which is the
case for all products above `3.6e-8`. -/
theorem C49_product_real (H : EventHeap ℝ) {ord : ℕ → List ℕ → List ℕ} (hord : SetOrder ord) {enc : Encoder ℝ}
    {dt : ℝ} (hdt : 0 < dt) (hdt' : dt < 20) (h2 : 0 < enc.Tcod) (hd : 1 + dt ≤ enc.Tmin) (hd2 : 2 * dt ≤ enc.Tmin) (name : Option String)
    {v1 v2 t1 t2 T : ℝ} (hv1 : 2 * dt / enc.Tcod < v1) (hv1' : v1 ≤ 1 - 2 * dt / enc.Tcod)
    (hv2 : 2 * dt / enc.Tcod < v2) (hv2' : v2 ≤ 1 - 2 * dt / enc.Tcod) (ht1 : 0 ≤ t1) (ht2 : 0 ≤ t2)
    (hM : 20 * Real.log (1 / ((v1 - 2 * dt / enc.Tcod) * (v2 - 2 * dt / enc.Tcod))) ≤ 343 - 6 * dt)
    (hT1 : t1 + 2 * enc.Tmin + 2 * enc.Tcod + 349 ≤ T) (hT2 : t2 + 2 * enc.Tmin + 2 * enc.Tcod + 349 ≤ T) :
    let p := (multiplierNetwork enc name World.empty).1
    let w := (multiplierNetwork enc name World.empty).2
    ∃ st, session H ord enc dt T w p.mod [.value v1 p.input1 t1, .value v2 p.input2 t2] = .ok st ∧
      Carries enc dt (6 * dt + enc.Tcod * (1 / (1 - dt / 20) ^ 2 - 1)) (st.spikeLog p.output) (v1 * v2) := by
  have hε : 0 < 2 * dt / enc.Tcod := by positivity
  obtain ⟨X, hX⟩ : ∃ X, X = (v1 - 2 * dt / enc.Tcod) * (v2 - 2 * dt / enc.Tcod) := ⟨_, rfl⟩
  have hX0 : 0 < X := by rw [hX]; exact mul_pos (by linarith) (by linarith)
  have hX1 : X ≤ 1 := by rw [hX]; exact mul_le_one₀ (by linarith) (by linarith) (by linarith)
  rw [← hX] at hM
  have hL : 0 ≤ Real.log (1 / X) := Real.log_nonneg (by rw [le_div_iff₀ hX0]; linarith)
  obtain ⟨M, hMd⟩ : ∃ M, M = ⌈20 * Real.log (1 / X) / dt⌉₊ := ⟨_, rfl⟩
  have hN1 : 20 * Real.log (1 / X) ≤ M * dt := by
    have := Nat.le_ceil (20 * Real.log (1 / X) / dt)
    rwa [← hMd, div_le_iff₀ hdt] at this
  have hN2 : M * dt ≤ 20 * Real.log (1 / X) + dt := by
    have := Nat.ceil_lt_add_one (show 0 ≤ 20 * Real.log (1 / X) / dt by positivity)
    rw [← hMd] at this
    have := mul_le_mul_of_nonneg_right this.le hdt.le
    rwa [add_mul, div_mul_cancel₀ _ hdt.ne', one_mul] at this
  have hNl : left dt M ≤ X := by
    rw [left_exp hdt', ← Real.le_log_iff_exp_le hX0]
    rw [one_div, Real.log_inv] at hN1
    have : (M : ℝ) * (dt / 20) ≤ M * -Real.log (rho dt) := mul_le_mul_of_nonneg_left (log_rho hdt hdt').1 (Nat.cast_nonneg _)
    linarith
  rw [hX] at hNl
  exact C49_product H hord hdt hdt' h2 hd hd2 name hv1 hv1' hv2 hv2' ht1 ht2 hNl (by linarith) (by linarith) (by linarith)

/-- A concrete case of C49_product_real: 1/2 * 1/2 with a time step of 1/1000. -/
example : ∃ st, session (sortedHeap _) (fun _ l => l) ⟨10, 100⟩ (1 / 1000) 600
      (multiplierNetwork (⟨10, 100⟩ : Encoder ℝ) none World.empty).2 (multiplierNetwork (⟨10, 100⟩ : Encoder ℝ) none World.empty).1.mod
      [.value (1 / 2) (multiplierNetwork (⟨10, 100⟩ : Encoder ℝ) none World.empty).1.input1 0,
        .value (1 / 2) (multiplierNetwork (⟨10, 100⟩ : Encoder ℝ) none World.empty).1.input2 0] = .ok st ∧
      Carries (⟨10, 100⟩ : Encoder ℝ) (1 / 1000) (6 * (1 / 1000) + 100 * (1 / (1 - 1 / 1000 / 20) ^ 2 - 1))
        (st.spikeLog (multiplierNetwork (⟨10, 100⟩ : Encoder ℝ) none World.empty).1.output) (1 / 2 * (1 / 2)) := by
  refine C49_product_real (sortedHeap _) (fun _ _ => List.Perm.refl _) (enc := (⟨10, 100⟩ : Encoder ℝ)) (by norm_num) (by norm_num) (by norm_num)
    (by norm_num) (by norm_num) none (by norm_num) (by norm_num) (by norm_num) (by norm_num) (by norm_num) (by norm_num) ?_ (by norm_num) (by norm_num)
  have := Real.log_le_sub_one_of_pos (x := 1 / (((1 : ℝ) / 2 - 2 * (1 / 1000) / 100) * (1 / 2 - 2 * (1 / 1000) / 100))) (by norm_num)
  norm_num at this ⊢
  linarith

end Axon
