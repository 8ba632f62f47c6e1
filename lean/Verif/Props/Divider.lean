import Verif.Proofs.Divider
import Verif.Props.Multiplier

/-! # C53: the divider -/
set_option linter.unusedSectionVars false
namespace Axon
open Spec

section field
variable {K : Type*} [Field K] [LinearOrder K] [IsStrictOrderedRing K] [FloorRing K]

/-- The session of C53 in terms of the naive run. -/
theorem div_setup (H : EventHeap K) {ord : ℕ → List ℕ → List ℕ} (hord : SetOrder ord) {enc : Encoder K}
    {dt : K} (hdt : 0 < dt) (h2 : 0 < enc.Tcod) (hd : 1 + dt ≤ enc.Tmin) (name : Option String) {v1 v2 t1 t2 : K} (T : K)
    (hv1 : 0 ≤ v1) (hv1' : v1 ≤ 1) (hv2 : 0 ≤ v2) (hv2' : v2 ≤ 1) (ht1 : 0 ≤ t1) (ht2 : 0 ≤ t2) :
    ∃ ns S F st, session H ord enc dt T (divNetwork enc name World.empty).2 0 [.value v1 0 t1, .value v2 5 t2] = .ok st ∧
      SessionRun enc dt T (divNetwork enc name World.empty).2 25
        [(0, t1), (0, t1 + enc.Tmin + v1 * enc.Tcod), (5, t2), (5, t2 + enc.Tmin + v2 * enc.Tcod)] ns S F st ∧
      DivIn ((divNetwork enc name World.empty).2.net ns) fresh dt
        [(0, t1), (0, t1 + enc.Tmin + v1 * enc.Tcod), (5, t2), (5, t2 + enc.Tmin + v2 * enc.Tcod)] F enc 0
        (arrInj dt t1 1) (arrInj dt (t1 + enc.Tmin + v1 * enc.Tcod) 1) (arrInj dt t2 1) (arrInj dt (t2 + enc.Tmin + v2 * enc.Tcod) 1) := by
  have h1 : 0 < enc.Tmin := by linarith
  obtain ⟨ns, S, F, st, hses, R⟩ := (div_lib enc name).run H hord enc hdt T
    (cs := [.value v1 0 t1, .value v2 5 t2]) (by simp [CallOK, hv1, hv1', hv2, hv2'])
  refine ⟨ns, S, F, st, hses, R, ?_⟩
  have E := R.embeds divInner (by simp [divInner]) (by simp [divInner, injTimes, callSpikes])
  have i0 := R.input hdt (k := 0) (by norm_num) rfl (A := [t1, t1 + enc.Tmin + v1 * enc.Tcod]) (by simp [injTimes, callSpikes])
  have i5 := R.input hdt (k := 5) (by norm_num) rfl (A := [t2, t2 + enc.Tmin + v2 * enc.Tcod]) (by simp [injTimes, callSpikes])
  simp only [List.map_cons, List.map_nil] at i0 i5
  obtain ⟨c1, -⟩ := value_arr hdt h1 h2 (v := v1) (t0 := t1) (by linarith) hv1 ht1
  obtain ⟨c2, -⟩ := value_arr hdt h1 h2 (v := v2) (t0 := t2) (by linarith) hv2 ht2
  exact ⟨E, i0 1, i5 1, c1, c2, (value_gap hdt h1 h2 hd hv1 hv1' ht1).1, (value_gap hdt h1 h2 hd hv2 hv2' ht2).1⟩

/-- Quotients of nearby numbers. -/
theorem quot_near {x1 x2 v1 v2 ε : K} (h1 : |x1 - v1| ≤ ε) (h2 : |x2 - v2| ≤ ε) (hε : ε < v2) (hv : 0 ≤ v1) (hv' : v1 ≤ v2) :
    |x1 / x2 - v1 / v2| ≤ 2 * ε / (v2 - ε) := by
  have hε0 : 0 ≤ ε := (abs_nonneg _).trans h1
  have hv2 : 0 < v2 := by linarith
  have hx : v2 - ε ≤ x2 := by linarith [(abs_le.mp h2).1]
  have hx2 : 0 < x2 := by linarith
  have e : x1 / x2 - v1 / v2 = ((x1 - v1) * v2 + v1 * (v2 - x2)) / (v2 * x2) := by field_simp; ring
  rw [e, abs_div, abs_of_pos (mul_pos hv2 hx2), div_le_div_iff₀ (mul_pos hv2 hx2) (by linarith)]
  have hn : |(x1 - v1) * v2 + v1 * (v2 - x2)| ≤ 2 * ε * v2 := by
    refine (abs_add_le _ _).trans ?_
    rw [abs_mul, abs_mul, abs_of_pos hv2, abs_of_nonneg hv, abs_sub_comm v2]
    have := mul_le_mul_of_nonneg_right h1 hv2.le
    have := mul_le_mul hv' h2 (abs_nonneg _) hv2.le
    linarith
  calc _ ≤ 2 * ε * v2 * (v2 - ε) := mul_le_mul_of_nonneg_right hn (by linarith)
    _ ≤ 2 * ε * v2 * x2 := mul_le_mul_of_nonneg_left hx (by positivity)
    _ = _ := by ring

/-- Time budget of the divider. -/
theorem div_time {dt : K} (hdt : 0 < dt) (hdt' : dt < 1 / 50) {enc : Encoder K} (h1 : 0 < enc.Tmin) (h2 : 0 < enc.Tcod) {v1 v2 t1 t2 T : K}
    (hv1 : 0 ≤ v1) (hv1' : v1 ≤ 1) (hv2 : 0 ≤ v2) (hv2' : v2 ≤ 1) (ht1 : 0 ≤ t1) (ht2 : 0 ≤ t2) {M q : ℕ}
    (hT1 : t1 + 4 * enc.Tmin + 2 * enc.Tcod + 14 + M * dt ≤ T) (hT2 : t2 + 4 * enc.Tmin + 2 * enc.Tcod + 14 + M * dt ≤ T)
    (hq : q + 2 ≤ max (arrInj dt (t1 + enc.Tmin + v1 * enc.Tcod) 1) (arrInj dt (t2 + enc.Tmin + v2 * enc.Tcod) 1) + 7 * dly dt 1 + M +
      2 * dly dt (1 + enc.Tmin) + dly dt (enc.Tmin + (3 * 1 + 2 * (1 / 100))) + ⌈enc.Tcod / dt⌉₊) : (q : K) * dt ≤ T := by
  have hvT1 : v1 * enc.Tcod ≤ enc.Tcod := mul_le_of_le_one_left h2.le hv1'
  have hvT2 : v2 * enc.Tcod ≤ enc.Tcod := mul_le_of_le_one_left h2.le hv2'
  have hvT1' : 0 ≤ v1 * enc.Tcod := mul_nonneg hv1 h2.le
  have hvT2' : 0 ≤ v2 * enc.Tcod := mul_nonneg hv2 h2.le
  obtain ⟨-, c5⟩ := arrInj_bd (τ := t1 + enc.Tmin + v1 * enc.Tcod) (D := 1) hdt (by linarith)
  obtain ⟨-, c5'⟩ := arrInj_bd (τ := t2 + enc.Tmin + v2 * enc.Tcod) (D := 1) hdt (by linarith)
  obtain ⟨d1, d2⟩ := dly_bd hdt (one_pos (α := K))
  obtain ⟨f1, f2⟩ := dly_bd hdt (show 0 < 1 + enc.Tmin by linarith)
  obtain ⟨k1, k2⟩ := dly_bd hdt (show (0 : K) < enc.Tmin + (3 * 1 + 2 * (1 / 100)) by linarith)
  have hcl := Nat.ceil_lt_add_one (show 0 ≤ enc.Tcod / dt by positivity)
  have hcl' := mul_lt_mul_of_pos_right hcl hdt
  rw [add_mul, div_mul_cancel₀ _ hdt.ne', one_mul] at hcl'
  have hqK := mul_le_mul_of_nonneg_right (Nat.cast_le (α := K).mpr hq) hdt.le
  rcases le_total (arrInj dt (t1 + enc.Tmin + v1 * enc.Tcod) 1) (arrInj dt (t2 + enc.Tmin + v2 * enc.Tcod) 1) with hle | hle
  · rw [max_eq_right hle] at hqK
    push_cast at hqK
    linarith
  · rw [max_eq_left hle] at hqK
    push_cast at hqK
    linarith

/-- **C53.** A `DivNetwork` that is given `v1` at time `t1` and `v2` at time `t2` emits `v1 / v2`, up to
`2*dt + Tcod*(1/(1-dt/20)^2 - 1) + 4*dt/(v2 - 2*dt/Tcod)`, provided `v1 < v2` by at least `4*dt/Tcod` - or `v1 ≤ v2` if
the values are given at the same time -, and neither value is within `2*dt/Tcod` of 0 or 1. `M` steps are enough for the
decay to the smaller value. -/
theorem C53_quotient (H : EventHeap K) {ord : ℕ → List ℕ → List ℕ} (hord : SetOrder ord) {enc : Encoder K}
    {dt : K} (hdt : 0 < dt) (hdt' : dt < 1 / 50) (h2 : dt < enc.Tcod) (hd : 1 + dt ≤ enc.Tmin) (name : Option String)
    {v1 v2 t1 t2 T : K} (hv1 : 2 * dt / enc.Tcod < v1) (hv2' : v2 ≤ 1 - 2 * dt / enc.Tcod) (ht1 : 0 ≤ t1) (ht2 : 0 ≤ t2)
    (h12 : v1 + 4 * dt / enc.Tcod ≤ v2 ∨ t1 = t2 ∧ v1 ≤ v2) {M : ℕ} (hM : left dt M ≤ v1 - 2 * dt / enc.Tcod)
    (hT1 : t1 + 4 * enc.Tmin + 2 * enc.Tcod + 14 + M * dt ≤ T) (hT2 : t2 + 4 * enc.Tmin + 2 * enc.Tcod + 14 + M * dt ≤ T) :
    let p := (divNetwork enc name World.empty).1
    let w := (divNetwork enc name World.empty).2
    ∃ st, session H ord enc dt T w p.mod [.value v1 p.input1 t1, .value v2 p.input2 t2] = .ok st ∧
      Carries enc dt (2 * dt + enc.Tcod * (1 / (1 - dt / 20) ^ 2 - 1) + 4 * dt / (v2 - 2 * dt / enc.Tcod))
        (st.spikeLog p.output) (v1 / v2) := by
  intro p w
  have h1 : 0 < enc.Tmin := by linarith
  have h2' : 0 < enc.Tcod := hdt.trans h2
  have hε : 0 < 2 * dt / enc.Tcod := by positivity
  have h4 : 4 * dt / enc.Tcod = 2 * (2 * dt / enc.Tcod) := by ring
  have hle : v1 ≤ v2 := by rcases h12 with h | h; · rw [h4] at h; linarith
                           · exact h.2
  obtain ⟨ns, S, F, st, hses, R, hm⟩ := div_setup H hord hdt h2' hd name T (v1 := v1) (v2 := v2) (by linarith) (by linarith) (by linarith)
    (by linarith) ht1 ht2
  refine ⟨st, hses, ?_⟩
  obtain ⟨k1, k2⟩ := charge hdt h1 h2' (by linarith) hv1 ht1 rfl rfl
  obtain ⟨l1, l2⟩ := charge hdt h1 h2' (by linarith) (v := v2) (by linarith) ht2 rfl rfl
  obtain ⟨X1, hX1⟩ : ∃ X1, X1 = ((arrInj dt (t1 + enc.Tmin + v1 * enc.Tcod) 1 + dly dt 1 - (arrInj dt t1 1 + dly dt (1 + enc.Tmin)) : ℕ) : K) * dt / enc.Tcod := ⟨_, rfl⟩
  obtain ⟨X2, hX2⟩ : ∃ X2, X2 = ((arrInj dt (t2 + enc.Tmin + v2 * enc.Tcod) 1 + dly dt 1 - (arrInj dt t2 1 + dly dt (1 + enc.Tmin)) : ℕ) : K) * dt / enc.Tcod := ⟨_, rfl⟩
  rw [← hX1] at k2
  rw [← hX2] at l2
  have k3 := abs_lt.mp k2
  have l3 := abs_lt.mp l2
  have hX12 : X1 ≤ X2 := by
    rcases h12 with h | ⟨rfl, h⟩
    · rw [h4] at h; linarith
    · rw [hX1, hX2]
      have hb : arrInj dt (t1 + enc.Tmin + v1 * enc.Tcod) 1 ≤ arrInj dt (t1 + enc.Tmin + v2 * enc.Tcod) 1 :=
        arrInj_mono' hdt (by have := mul_le_mul_of_nonneg_right h h2'.le; linarith)
      have hn : arrInj dt (t1 + enc.Tmin + v1 * enc.Tcod) 1 + dly dt 1 - (arrInj dt t1 1 + dly dt (1 + enc.Tmin)) ≤
        arrInj dt (t1 + enc.Tmin + v2 * enc.Tcod) 1 + dly dt 1 - (arrInj dt t1 1 + dly dt (1 + enc.Tmin)) := by omega
      exact div_le_div_of_nonneg_right (mul_le_mul_of_nonneg_right (Nat.cast_le.mpr hn) hdt.le) h2'.le
  obtain ⟨i, j, t24, hij, hj, herr⟩ := hm.quotient R.run hdt hdt' h2 hd k1 l1 hX1 hX2 hX12 (by linarith) (hM.trans (by linarith))
  refine ⟨i, j, R.pair (k := 24) (by norm_num) hdt rfl t24 hij ?_, ?_⟩
  · exact div_time hdt hdt' h1 h2' (by linarith) (by linarith) (by linarith) (by linarith) ht1 ht2 hT1 hT2 hj
  · have hp := quot_near k2.le l2.le (by linarith) (by linarith) hle
    have hp' := mul_le_mul_of_nonneg_right hp h2'.le
    rw [show 2 * (2 * dt / enc.Tcod) / (v2 - 2 * dt / enc.Tcod) * enc.Tcod = 4 * dt / (v2 - 2 * dt / enc.Tcod) by
      rw [div_mul_eq_mul_div]; congr 1; field_simp; ring, ← abs_of_pos h2', ← abs_mul, abs_of_pos h2', abs_le] at hp'
    rw [abs_le] at herr ⊢
    constructor <;> linarith [hp'.1, hp'.2, herr.1, herr.2]

/-- **C53, wrong order.** If `v1` exceeds `v2` (by a little more than the precision of the network), nothing is emitted. -/
theorem C53_reversed_silent (H : EventHeap K) {ord : ℕ → List ℕ → List ℕ} (hord : SetOrder ord) {enc : Encoder K}
    {dt : K} (hdt : 0 < dt) (hdt' : dt < 1 / 50) (h2 : 0 < enc.Tcod) (hd : 1 + dt ≤ enc.Tmin) (name : Option String)
    {v1 v2 t1 t2 : K} (T : K) (hv2 : 2 * dt / enc.Tcod < v2) (hv1' : v1 ≤ 1 - 2 * dt / enc.Tcod) (ht1 : 0 ≤ t1) (ht2 : 0 ≤ t2)
    (h12 : v2 + 2 * dt / enc.Tcod ≤ (1 - dt / 20) * (v1 - 2 * dt / enc.Tcod)) :
    let p := (divNetwork enc name World.empty).1
    let w := (divNetwork enc name World.empty).2
    ∃ st, session H ord enc dt T w p.mod [.value v1 p.input1 t1, .value v2 p.input2 t2] = .ok st ∧ Quiet (st.spikeLog p.output) := by
  intro p w
  have h1 : 0 < enc.Tmin := by linarith
  have hε : 0 < 2 * dt / enc.Tcod := by positivity
  have hle : v2 < v1 := by
    have hr : (1 - dt / 20) * (v1 - 2 * dt / enc.Tcod) < 1 * (v1 - 2 * dt / enc.Tcod) ∨ v1 - 2 * dt / enc.Tcod ≤ 0 := by
      rcases lt_or_ge 0 (v1 - 2 * dt / enc.Tcod) with h | h
      · left; exact mul_lt_mul_of_pos_right (by linarith) h
      · right; exact h
    rcases hr with h | h
    · linarith
    · have := mul_nonpos_of_nonneg_of_nonpos (show 0 ≤ 1 - dt / 20 by linarith) h
      linarith
  obtain ⟨ns, S, F, st, hses, R, hm⟩ := div_setup H hord hdt h2 hd name T (v1 := v1) (v2 := v2) (by linarith) (by linarith) (by linarith)
    (by linarith) ht1 ht2
  refine ⟨st, hses, ?_⟩
  obtain ⟨k1, k2⟩ := charge hdt h1 h2 (by linarith) (v := v1) (by linarith) ht1 rfl rfl
  obtain ⟨l1, l2⟩ := charge hdt h1 h2 (by linarith) (v := v2) (by linarith) ht2 rfl rfl
  have k3 := abs_lt.mp k2
  have l3 := abs_lt.mp l2
  refine R.quiet (k := 24) (by norm_num) rfl (hm.reversed R.run hdt hdt' h2 hd k1 l1 rfl rfl (by linarith) ?_ (by linarith))
  refine le_trans (by linarith [l3.2]) (h12.trans (mul_le_mul_of_nonneg_left ?_ (rho_pos (by linarith)).le))
  linarith [k3.1]

set_option maxHeartbeats 2000000 in
/-- **C53 fails for a divisor of 1** (in exact arithmetic, with a time step that divides the delays): the accumulator of the
divisor is charged up to its threshold and fires without waiting for the sync neuron, one synaptic delay (`k` steps, 1 ms)
early. The network answers `v1 * (1-dt/20)^k`, about 5% less than `v1 / 1`. -/
theorem C53_divisor_one (H : EventHeap K) {ord : ℕ → List ℕ → List ℕ} (hord : SetOrder ord) {enc : Encoder K}
    {dt : K} (hdt : 0 < dt) (hdt' : dt < 1 / 50) (h2 : dt < enc.Tcod) (hd : 1 + 2 * dt ≤ enc.Tmin) {k l c : ℕ} (hk : (k : K) * dt = 1)
    (hl : (l : K) * dt = enc.Tmin) (hc : (c : K) * dt = enc.Tcod) (name : Option String) {v1 t0 T : K}
    (hv1 : 2 * dt / enc.Tcod < v1) (hv1' : v1 ≤ 1 - 2 * dt / enc.Tcod) (ht : 0 ≤ t0) {M : ℕ} (hM : left dt M ≤ v1 - 2 * dt / enc.Tcod)
    (hT : t0 + 4 * enc.Tmin + 2 * enc.Tcod + 14 + M * dt ≤ T) :
    let p := (divNetwork enc name World.empty).1
    let w := (divNetwork enc name World.empty).2
    ∃ st, session H ord enc dt T w p.mod [.value v1 p.input1 t0, .value 1 p.input2 t0] = .ok st ∧
      Carries enc dt (4 * dt + enc.Tcod * (1 / (1 - dt / 20) ^ 2 - 1)) (st.spikeLog p.output) (v1 * left dt k) := by
  intro p w
  have h1 : 0 < enc.Tmin := by linarith
  have h2' : 0 < enc.Tcod := hdt.trans h2
  have hd20 : dt < 20 := by linarith
  have hε : 0 < 2 * dt / enc.Tcod := by positivity
  obtain ⟨ns, S, F, st, hses, R, hm⟩ := div_setup H hord hdt h2' (by linarith) name T (v1 := v1) (v2 := 1) (by linarith) (by linarith) (by linarith)
    (by linarith) ht ht
  refine ⟨st, hses, ?_⟩
  have e1 : dly dt (1 : K) = k := dly_exact hdt one_pos hk
  have e1' : dly dt (2 * 1 : K) = 2 * k := dly_exact hdt (by norm_num) (by push_cast; linarith)
  have e2 : dly dt (1 + enc.Tmin) = k + l := dly_exact hdt (by linarith) (by push_cast; linarith)
  have hk1 : 1 ≤ k := by rw [← e1]; exact one_le_dly dt 1
  have hkl : k + 2 ≤ l := by
    refine step_le hdt ?_
    push_cast; linarith
  have hc1 : 1 ≤ c := by
    rcases Nat.eq_zero_or_pos c with rfl | h
    · push_cast at hc; linarith
    · exact h
  have hw : enc.waccBar = (10 * 100 / enc.Tcod : K) := rfl
  have hw0 : 0 ≤ enc.waccBar := by rw [hw]; positivity
  have hvT1 : v1 * enc.Tcod ≤ enc.Tcod := mul_le_of_le_one_left h2'.le (by linarith)
  have hb2 : arrInj dt (t0 + enc.Tmin + 1 * enc.Tcod) 1 = arrInj dt t0 1 + l + c := by
    unfold arrInj firstStep
    rw [one_mul, ← hl, ← hc, show t0 + (l : K) * dt + (c : K) * dt + 1 = (t0 + 1) + ((l + c : ℕ) : K) * dt by push_cast; ring, add_div,
      mul_div_cancel_right₀ _ hdt.ne', Nat.ceil_add_natCast (by positivity)]
    have : 1 ≤ ⌈(t0 + 1) / dt⌉₊ := Nat.one_le_iff_ne_zero.mpr (Nat.ceil_pos.mpr (by positivity)).ne'
    omega
  have hb1 : arrInj dt (t0 + enc.Tmin + v1 * enc.Tcod) 1 ≤ arrInj dt (t0 + enc.Tmin + 1 * enc.Tcod) 1 := arrInj_mono' hdt (by linarith)
  have ha := arrInj_pos dt t0 (1 : K)
  obtain ⟨q1, q2⟩ := charge hdt h1 h2' (by linarith) hv1 ht rfl rfl
  obtain ⟨X1, hX1⟩ : ∃ X1, X1 = ((arrInj dt (t0 + enc.Tmin + v1 * enc.Tcod) 1 + dly dt 1 - (arrInj dt t0 1 + dly dt (1 + enc.Tmin)) : ℕ) : K) * dt / enc.Tcod := ⟨_, rfl⟩
  rw [← hX1] at q2
  have q3 := abs_lt.mp q2
  have hX1p : 0 < X1 := by linarith
  obtain ⟨n1, hn1⟩ := decay_exists hdt hd20 hX1p
  have hp1 := hn1.pos (show X1 < 1 by linarith)
  obtain ⟨L1, L2, -⟩ := hm.front R.run hdt
  have t3 := log_acc R.run hdt hd20 (R.std 3 (by norm_num)) hw0 L1 (by omega) q1.le (by omega) (X := X1) (by rw [hX1, hw]; ring)
    (by linarith) hn1
  have hre : Reach enc.waccBar dt c := by
    have := reach_waccBar (enc := enc) h2' hdt
    rwa [show ⌈enc.Tcod / dt⌉₊ = c by rw [← hc, mul_div_cancel_right₀ _ hdt.ne', Nat.ceil_natCast]] at this
  have t8 := log_acc_early R.run hdt hd20 (R.std 8 (by norm_num)) hw0 hre L2 (by omega) hc1 (by rw [hb2, e1, e2]; omega) (by omega)
  have t8 : Train F (0 + 8) _ := t8
  have t3 : Train F (0 + 3) _ := t3
  have hnM : n1 ≤ M := (hn1 M).mp (hM.trans (by linarith))
  rw [max_eq_right hb1] at t3
  obtain ⟨i, j, n, t24, hij, ⟨hna, hnb⟩, hj, herr⟩ := hm.back R.run hdt hdt' h2 (by linarith) t3 t8
    (by rw [max_eq_right hb1, hb2, e1, e1', e2]; omega) (by rw [hb2, e1, e2]; omega)
  have hQ : arrInj dt (t0 + enc.Tmin + 1 * enc.Tcod) 1 + dly dt 1 + dly dt 1 - 1 + n1 - (arrInj dt t0 1 + dly dt (1 + enc.Tmin) + c - 1) = n1 + k := by
    rw [hb2, e1, e2]; omega
  rw [hQ] at hna hnb
  refine ⟨i, j, R.pair (k := 24) (by norm_num) hdt rfl t24 hij ?_, ?_⟩
  · refine div_time hdt hdt' h1 h2' (v1 := v1) (v2 := 1) (by linarith) (by linarith) (by linarith) (by linarith) ht ht hT hT ?_
    rw [max_eq_right hb1]
    have := one_le_dly dt (1 : K)
    omega
  · -- `rho ^ n` is close to `X1 * rho ^ k`
    have hr0 := rho_pos hd20
    have hr1 := rho_lt hdt
    have a1 := (hn1 n1).mpr le_rfl
    have b1 := (hn1 (n1 - 1)).not.mpr (by omega)
    rw [not_le] at b1
    have hrk : rho dt ^ k ≤ 1 := pow_le_one₀ hr0.le hr1.le
    have hrk0 : 0 < rho dt ^ k := pow_pos hr0 k
    have hr2 : 0 < rho dt ^ 2 := by positivity
    have hr3 : rho dt ^ 2 ≤ 1 := pow_le_one₀ hr0.le hr1.le
    have u : rho dt ^ 2 * rho dt ^ n ≤ X1 * rho dt ^ k := by
      calc _ = rho dt ^ (2 + n) := (pow_add _ _ _).symm
        _ ≤ rho dt ^ (n1 + k) := pow_le_pow_of_le_one hr0.le hr1.le (by omega)
        _ = rho dt ^ n1 * rho dt ^ k := pow_add _ _ _
        _ ≤ _ := mul_le_mul_of_nonneg_right a1 hrk0.le
    have lw : rho dt ^ 2 * (X1 * rho dt ^ k) ≤ rho dt ^ n := by
      calc _ ≤ rho dt ^ 2 * (rho dt ^ (n1 - 1) * rho dt ^ k) :=
            mul_le_mul_of_nonneg_left (mul_le_mul_of_nonneg_right b1.le hrk0.le) hr2.le
        _ = rho dt ^ (2 + (n1 - 1 + k)) := by rw [pow_add, pow_add]
        _ ≤ _ := pow_le_pow_of_le_one hr0.le hr1.le (by omega)
    obtain ⟨Y, hY⟩ : ∃ Y, Y = X1 * rho dt ^ k := ⟨_, rfl⟩
    rw [← hY] at u lw
    have hY0 : 0 < Y := by rw [hY]; positivity
    have hY1 : Y ≤ 1 := by rw [hY]; exact mul_le_one₀ (by linarith) hrk0.le hrk
    have hYv : |Y - v1 * left dt k| ≤ 2 * dt / enc.Tcod := by
      rw [hY, show left dt k = rho dt ^ k from rfl, ← sub_mul, abs_mul, abs_of_pos hrk0]
      exact (mul_le_of_le_one_right (abs_nonneg _) hrk).trans q2.le
    have hqt : |rho dt ^ n - Y| ≤ 1 / rho dt ^ 2 - 1 := by
      rw [abs_le]
      constructor
      · have h5 : 1 - rho dt ^ 2 ≤ 1 / rho dt ^ 2 - 1 := by
          rw [div_sub_one hr2.ne', le_div_iff₀ hr2]
          exact mul_le_of_le_one_right (by linarith) hr3
        have h6 : (1 - rho dt ^ 2) * Y ≤ 1 - rho dt ^ 2 := mul_le_of_le_one_right (by linarith) hY1
        linarith
      · have h5 : rho dt ^ n ≤ Y / rho dt ^ 2 := by rw [le_div_iff₀ hr2]; linarith
        have h6 : Y / rho dt ^ 2 - Y = Y * (1 / rho dt ^ 2 - 1) := by ring
        have h7 : 0 ≤ 1 / rho dt ^ 2 - 1 := by rw [sub_nonneg, le_div_iff₀ hr2]; linarith
        have h8 : Y * (1 / rho dt ^ 2 - 1) ≤ 1 / rho dt ^ 2 - 1 := mul_le_of_le_one_left h7 hY1
        linarith
    have hp : |rho dt ^ n - v1 * left dt k| ≤ (1 / rho dt ^ 2 - 1) + 2 * dt / enc.Tcod := by
      rw [abs_le] at hqt hYv ⊢
      constructor <;> linarith [hqt.1, hqt.2, hYv.1, hYv.2]
    have hp' := mul_le_mul_of_nonneg_right hp h2'.le
    rw [add_mul, div_mul_cancel₀ _ h2'.ne', ← abs_of_pos h2', ← abs_mul, abs_of_pos h2', abs_le] at hp'
    have hrr : (1 / rho dt ^ 2 - 1) = (1 / (1 - dt / 20) ^ 2 - 1) := rfl
    rw [hrr] at hp'
    rw [abs_le] at herr ⊢
    constructor <;> linarith [hp'.1, hp'.2, herr.1, herr.2]

/-- Bernoulli: a simple sufficient number of steps of decay. -/
theorem left_le {dt : K} (h0 : 0 < dt) (h1 : dt < 20) (n : ℕ) : left dt n ≤ 1 / (1 + n * (dt / 20)) := by
  have h : 1 + (n : K) * (dt / 20) ≤ (1 + dt / 20) ^ n := one_add_mul_le_pow (by linarith) n
  have hp : (0 : K) < 1 + n * (dt / 20) := by positivity
  rw [le_div_iff₀ hp]
  have h2 : left dt n * (1 + dt / 20) ^ n ≤ 1 := by
    unfold left
    rw [← mul_pow]
    exact pow_le_one₀ (mul_nonneg (by linarith) (by linarith)) (by nlinarith)
  have h3 : 0 ≤ left dt n := by unfold left; exact pow_nonneg (by linarith) n
  exact (mul_le_mul_of_nonneg_left h h3).trans h2

/-- Concrete cases of C53 with the default encoder and `dt = 0.01`: 0.3 / 0.6, given at different times; 0.6 / 0.6, given at the
same time; 0.6 / 0.3; 0.3 / 1. -/
example : (∃ st, session (sortedHeap _) (fun _ l => l) ⟨10, 100⟩ (1 / 100) 400
      (divNetwork (⟨10, 100⟩ : Encoder ℚ) none World.empty).2 0 [.value (3 / 10) 0 0, .value (6 / 10) 5 4] = .ok st ∧
      Carries ⟨10, 100⟩ (1 / 100) (2 * (1 / 100) + 100 * (1 / (1 - 1 / 100 / 20) ^ 2 - 1) + 4 * (1 / 100) / (6 / 10 - 2 * (1 / 100) / 100))
        (st.spikeLog 24) (3 / 10 / (6 / 10))) ∧
    (∃ st, session (sortedHeap _) (fun _ l => l) ⟨10, 100⟩ (1 / 100) 400
      (divNetwork (⟨10, 100⟩ : Encoder ℚ) none World.empty).2 0 [.value (6 / 10) 0 2, .value (6 / 10) 5 2] = .ok st ∧
      Carries ⟨10, 100⟩ (1 / 100) (2 * (1 / 100) + 100 * (1 / (1 - 1 / 100 / 20) ^ 2 - 1) + 4 * (1 / 100) / (6 / 10 - 2 * (1 / 100) / 100))
        (st.spikeLog 24) (6 / 10 / (6 / 10))) ∧
    (∃ st, session (sortedHeap _) (fun _ l => l) ⟨10, 100⟩ (1 / 100) 400
      (divNetwork (⟨10, 100⟩ : Encoder ℚ) none World.empty).2 0 [.value (6 / 10) 0 0, .value (3 / 10) 5 4] = .ok st ∧ Quiet (st.spikeLog 24)) ∧
    (∃ st, session (sortedHeap _) (fun _ l => l) ⟨10, 100⟩ (1 / 100) 400
      (divNetwork (⟨10, 100⟩ : Encoder ℚ) none World.empty).2 0 [.value (3 / 10) 0 0, .value 1 5 0] = .ok st ∧
      Carries ⟨10, 100⟩ (1 / 100) (4 * (1 / 100) + 100 * (1 / (1 - 1 / 100 / 20) ^ 2 - 1)) (st.spikeLog 24) (3 / 10 * left (1 / 100) 100)) :=
  ⟨C53_quotient (sortedHeap _) id_setOrder (enc := (⟨10, 100⟩ : Encoder ℚ)) (by norm_num) (by norm_num) (by norm_num)
    (by norm_num) none (by norm_num) (by norm_num) (by norm_num) (by norm_num) (.inl (by norm_num)) (M := 5000)
    ((left_le (by norm_num) (by norm_num) _).trans (by norm_num)) (by norm_num) (by norm_num),
   C53_quotient (sortedHeap _) id_setOrder (enc := (⟨10, 100⟩ : Encoder ℚ)) (by norm_num) (by norm_num) (by norm_num)
    (by norm_num) none (by norm_num) (by norm_num) (by norm_num) (by norm_num) (.inr ⟨rfl, le_rfl⟩) (M := 5000)
    ((left_le (by norm_num) (by norm_num) _).trans (by norm_num)) (by norm_num) (by norm_num),
   C53_reversed_silent (sortedHeap _) id_setOrder (enc := (⟨10, 100⟩ : Encoder ℚ)) (by norm_num) (by norm_num) (by norm_num)
    (by norm_num) none 400 (by norm_num) (by norm_num) (by norm_num) (by norm_num) (by norm_num),
   C53_divisor_one (sortedHeap _) id_setOrder (enc := (⟨10, 100⟩ : Encoder ℚ)) (by norm_num) (by norm_num) (by norm_num)
    (by norm_num) (k := 100) (l := 1000) (c := 10000) (by norm_num) (by norm_num) (by norm_num) none (by norm_num) (by norm_num) (by norm_num) (M := 5000)
    ((left_le (by norm_num) (by norm_num) _).trans (by norm_num)) (by norm_num)⟩

end field

/-- **C53** over the real numbers, with the time bound in closed form. -/
theorem C53_quotient_real (H : EventHeap ℝ) {ord : ℕ → List ℕ → List ℕ} (hord : SetOrder ord) {enc : Encoder ℝ}
    {dt : ℝ} (hdt : 0 < dt) (hdt' : dt < 1 / 50) (h2 : dt < enc.Tcod) (hd : 1 + dt ≤ enc.Tmin) (name : Option String)
    {v1 v2 t1 t2 T : ℝ} (hv1 : 2 * dt / enc.Tcod < v1) (hv2' : v2 ≤ 1 - 2 * dt / enc.Tcod) (ht1 : 0 ≤ t1) (ht2 : 0 ≤ t2)
    (h12 : v1 + 4 * dt / enc.Tcod ≤ v2 ∨ t1 = t2 ∧ v1 ≤ v2)
    (hT : max t1 t2 + 4 * enc.Tmin + 2 * enc.Tcod + 15 + 20 * Real.log (1 / (v1 - 2 * dt / enc.Tcod)) ≤ T) :
    let p := (divNetwork enc name World.empty).1
    let w := (divNetwork enc name World.empty).2
    ∃ st, session H ord enc dt T w p.mod [.value v1 p.input1 t1, .value v2 p.input2 t2] = .ok st ∧
      Carries enc dt (2 * dt + enc.Tcod * (1 / (1 - dt / 20) ^ 2 - 1) + 4 * dt / (v2 - 2 * dt / enc.Tcod))
        (st.spikeLog p.output) (v1 / v2) := by
  have h2' : 0 < enc.Tcod := hdt.trans h2
  have hd20 : dt < 20 := by linarith
  have hε : 0 < 2 * dt / enc.Tcod := by positivity
  have hle : v1 ≤ v2 := by
    rcases h12 with h | h
    · have : 0 < 4 * dt / enc.Tcod := by positivity
      linarith
    · exact h.2
  obtain ⟨X, hX⟩ : ∃ X, X = v1 - 2 * dt / enc.Tcod := ⟨_, rfl⟩
  have hX0 : 0 < X := by rw [hX]; linarith
  rw [← hX] at hT
  have hL : 0 ≤ Real.log (1 / X) := Real.log_nonneg (by rw [le_div_iff₀ hX0]; linarith)
  obtain ⟨M, hMd⟩ : ∃ M, M = ⌈20 * Real.log (1 / X) / dt⌉₊ := ⟨_, rfl⟩
  have hN1 : 20 * Real.log (1 / X) ≤ M * dt := by
    have := Nat.le_ceil (20 * Real.log (1 / X) / dt)
    rwa [← hMd, div_le_iff₀ hdt] at this
  have hN2 : M * dt ≤ 20 * Real.log (1 / X) + dt := by
    have := Nat.ceil_lt_add_one (show 0 ≤ 20 * Real.log (1 / X) / dt by positivity)
    rw [← hMd] at this
    have := mul_le_mul_of_nonneg_right this.le hdt.le
    rwa [add_mul, div_mul_cancel₀ _ hdt.ne', one_mul] at this
  have hNl : left dt M ≤ X := by
    rw [left_exp hd20, ← Real.le_log_iff_exp_le hX0]
    rw [one_div, Real.log_inv] at hN1
    have : (M : ℝ) * (dt / 20) ≤ M * -Real.log (rho dt) := mul_le_mul_of_nonneg_left (log_rho hdt hd20).1 (Nat.cast_nonneg _)
    linarith
  rw [hX] at hNl
  have m1 := le_max_left t1 t2
  have m2 := le_max_right t1 t2
  exact C53_quotient H hord hdt hdt' h2 hd name hv1 hv2' ht1 ht2 h12 hNl (by linarith) (by linarith)

end Axon
