import Verif.Props.FloatDiv

/-! # C112: the divider in Python floats, in steps -/
set_option linter.unusedSectionVars false
namespace Axon
open Spec

/-- The same operand at the same time takes the same steps. -/
theorem Front.same {enc : Encoder Double} {dt t τ : Double} {a b c A B a' b' c' A' B' : ℕ} (h : Front enc dt t τ a b c A B) (h' : Front enc dt t τ a' b' c' A' B') :
    A = A' ∧ B = B' := by
  have e1 : a = a' := (h'.ai a).mp ((h.ai a).mpr rfl)
  have e2 : b = b' := (h'.bi b).mp ((h.bi b).mpr rfl)
  subst e1 e2
  exact ⟨(h'.Ai A).mp ((h.Ai A).mpr rfl), (h'.Bi B).mp ((h.Bi B).mpr rfl)⟩

theorem gp {a b : ℕ} (h : a < b) : 0 < b := by omega

theorem none_fires : VFires [] 0 [] := fun i _ => by show vZ [] 0 i < 4; vz_omega

theorem inSteps_one (A B : ℕ) (w : Double) (i : ℕ) : inSteps .gf d50 [A] i ++ (inSteps .gate 1 [A] i ++ (inSteps .gate (-1) [B] i ++ inSteps .ge w [B] i)) = expHits w A B i := by
  by_cases h1 : A = i <;> by_cases h2 : B = i <;> simp [inSteps, expHits, h1, h2, eq_comm]

set_option maxHeartbeats 16000000 in
/-- The divider in steps, in both orders of the operands. -/
theorem div_steps (H : EventHeap Double) {ord : ℕ → List ℕ → List ℕ} (hord : SetOrder ord) {enc : Encoder Double} {dt : Double}
    (hdt : 0 < dt.val) (hdt1 : dt.val ≤ 1 / 20) (hC25 : 25 * dt.val ≤ enc.Tcod.val) (hmin : 1 + 12 * dt.val ≤ enc.Tmin.val) (hmax : enc.Tmax.val ≤ 2 ^ 24 * dt.val)
    (name : Option String) {v1 v2 t1 t2 T : Double} (hv1 : 6 * dt.val / enc.Tcod.val < v1.val) (hv1' : v1.val ≤ 1 - 7 * dt.val / enc.Tcod.val)
    (hv2 : 6 * dt.val / enc.Tcod.val < v2.val) (hv2' : v2.val ≤ 1 - 7 * dt.val / enc.Tcod.val) (ht1 : 0 ≤ t1.val) (ht1' : t1.val ≤ 2 ^ 48 * dt.val)
    (ht2 : 0 ≤ t2.val) (ht2' : t2.val ≤ 2 ^ 48 * dt.val) {M : ℕ} (hMa : rhoQ dt ^ M ≤ v1.val - 6 * dt.val / enc.Tcod.val) (hMb : rhoQ dt ^ M ≤ v2.val - 6 * dt.val / enc.Tcod.val)
    (hM1 : ((M : ℚ) + 22) * dt.val ≤ 343) (hM2 : M + 22 ≤ 2 ^ 23)
    (hT1 : t1.val + 4 * enc.Tmin.val + 2 * enc.Tcod.val + 15 + (M + 36) * dt.val ≤ T.val) (hT2 : t2.val + 4 * enc.Tmin.val + 2 * enc.Tcod.val + 15 + (M + 36) * dt.val ≤ T.val)
    {g : ℕ} (hg : dt.val ≤ 1 / 800 ∨ 1 / 100 + 14 * dt.val ≤ g * dt.val) :
    let p := (divFl enc name World.empty).1
    let w := (divFl enc name World.empty).2
    (v1.val + 6 * dt.val / enc.Tcod.val ≤ rhoQ dt ^ g * (v2.val - 6 * dt.val / enc.Tcod.val) ∨ (v1 = v2 ∧ t1 = t2 ∧ g = 0) →
      ∃ st, sessionFl H ord enc dt T w p.1 [.value v1 p.2.1 t1, .value v2 p.2.2.1 t2] = .ok st ∧
        ∃ (x y : Double) (n : ℕ), st.spikeLog p.2.2.2 = some [x, y] ∧ |(enc.decodeInterval (y - x)).val - rhoQ dt ^ n| ≤ 8 * dt.val / enc.Tcod.val ∧
          rhoQ dt ^ 22 * (v1.val - 6 * dt.val / enc.Tcod.val) ≤ rhoQ dt ^ n * (v2.val + 6 * dt.val / enc.Tcod.val) ∧
          rhoQ dt ^ 22 * (rhoQ dt ^ n * (v2.val - 6 * dt.val / enc.Tcod.val)) ≤ v1.val + 6 * dt.val / enc.Tcod.val) ∧
    (1 / 100 + 14 * dt.val ≤ g * dt.val → v2.val + 6 * dt.val / enc.Tcod.val ≤ rhoQ dt ^ g * (v1.val - 6 * dt.val / enc.Tcod.val) →
      ∃ st, sessionFl H ord enc dt T w p.1 [.value v1 p.2.1 t1, .value v2 p.2.2.1 t2] = .ok st ∧ st.spikeLog p.2.2.2 = some []) := by
  intro p w
  have hC : 13 * dt.val ≤ enc.Tcod.val := by linarith
  have hT0 : 0 ≤ enc.Tmin.val := by linarith
  have hC0 : 0 < enc.Tcod.val := by linarith
  have hdt1' : dt.val ≤ 1 := by linarith
  have hr := rho_bounds hdt hdt1'
  have hr0 : 0 < rhoQ dt := by linarith [hr.1]
  have hr1 : rhoQ dt ≤ 1 := by linarith [hr.2]
  have hrlt : rhoQ dt < 1 := by show 1 - dt.val / 20 < 1; linarith
  obtain ⟨q, hq⟩ : ∃ q, q = 1 / dt.val := ⟨_, rfl⟩
  obtain ⟨N, hN⟩ : ∃ N, N = enc.Tcod.val / dt.val := ⟨_, rfl⟩
  obtain ⟨m, hm⟩ : ∃ m, m = enc.Tmin.val / dt.val := ⟨_, rfl⟩
  obtain ⟨x1, hx1⟩ : ∃ x, x = t1.val / dt.val := ⟨_, rfl⟩
  obtain ⟨x2, hx2⟩ : ∃ x, x = t2.val / dt.val := ⟨_, rfl⟩
  obtain ⟨τ1, hτ1⟩ : ∃ τ, τ = t1 + (enc.Tmin + v1 * enc.Tcod) := ⟨_, rfl⟩
  obtain ⟨τ2, hτ2⟩ : ∃ τ, τ = t2 + (enc.Tmin + v2 * enc.Tcod) := ⟨_, rfl⟩
  obtain ⟨y1, hy1⟩ : ∃ y, y = τ1.val / dt.val := ⟨_, rfl⟩
  obtain ⟨y2, hy2⟩ : ∃ y, y = τ2.val / dt.val := ⟨_, rfl⟩
  obtain ⟨p1, hp1⟩ : ∃ x, x = v1.val * enc.Tcod.val / dt.val := ⟨_, rfl⟩
  obtain ⟨p2, hp2⟩ : ∃ x, x = v2.val * enc.Tcod.val / dt.val := ⟨_, rfl⟩
  have cv : ∀ v : ℚ, 6 * dt.val / enc.Tcod.val < v → 6 * dt.val < v * enc.Tcod.val := fun v h => by rwa [div_lt_iff₀ hC0] at h
  have cv' : ∀ v : ℚ, v ≤ 1 - 7 * dt.val / enc.Tcod.val → v * enc.Tcod.val + 7 * dt.val ≤ enc.Tcod.val := fun v h => by
    have := mul_le_mul_of_nonneg_right h hC0.le
    rw [sub_mul, div_mul_cancel₀ _ hC0.ne', one_mul] at this
    linarith
  obtain ⟨vb1, a1, b1, c1, A1, B1, F1, A10, AB1, X1, BY1, yx1, y10, x148, mp1⟩ := mulFl_front hdt hdt1' hC hmin hmax (cv _ hv1) (cv' _ hv1') ht1 ht1' hq hN hm hx1 (hτ1 ▸ hy1) hp1
  obtain ⟨vb2, a2, b2, c2, A2, B2, F2, A20, AB2, X2, BY2, yx2, y20, x248, mp2⟩ := mulFl_front hdt hdt1' hC hmin hmax (cv _ hv2) (cv' _ hv2') ht2 ht2' hq hN hm hx2 (hτ2 ▸ hy2) hp2
  rw [← hτ1] at F1
  rw [← hτ2] at F2
  obtain ⟨X1a, X1b⟩ := abs_le.mp X1
  obtain ⟨X2a, X2b⟩ := abs_le.mp X2
  have u0 : ∀ a : ℚ, a / dt.val * dt.val = a := fun a => div_mul_cancel₀ _ hdt.ne'
  have mv : ∀ a b : ℚ, a * dt.val ≤ b * dt.val → a ≤ b := fun a b h => le_of_mul_le_mul_right h hdt
  have qm : q * dt.val = 1 := by rw [hq, u0]
  have xm1 : x1 * dt.val = t1.val := by rw [hx1, u0]
  have xm2 : x2 * dt.val = t2.val := by rw [hx2, u0]
  have Nm : N * dt.val = enc.Tcod.val := by rw [hN, u0]
  have mm : m * dt.val = enc.Tmin.val := by rw [hm, u0]
  have pm1 : p1 * dt.val = v1.val * enc.Tcod.val := by rw [hp1, u0]
  have pm2 : p2 * dt.val = v2.val * enc.Tcod.val := by rw [hp2, u0]
  have q1 : 20 ≤ q := mv _ _ (by linarith)
  have B1' : q + 12 ≤ m := mv _ _ (by linarith)
  have B4 : 25 ≤ N := mv _ _ (by linarith)
  have P1 : p1 + 7 ≤ N := mv _ _ (by have := cv' _ hv1'; linarith)
  have P2 : p2 + 7 ≤ N := mv _ _ (by have := cv' _ hv2'; linarith)
  have P10 : 6 ≤ p1 := mv _ _ (by have := cv _ hv1; linarith)
  have P20 : 6 ≤ p2 := mv _ _ (by have := cv _ hv2; linarith)
  have hN24 : N ≤ 2 ^ 24 := by
    obtain ⟨q', x', y', nn, m', pp, hq', hx', hy', hnn, hm', hpp, q1, x0, x1, nn1, mn, m0, p0, A4, A2, A1, A5⟩ := units (v := v1) (t0 := t1) hdt hdt1' hC0 hT0 hmax vb1.1 vb1.2 ht1 ht1'
    rw [← hN] at A5
    rw [← hm] at hm'
    have := (abs_le.mp A5).1
    linarith
  have G := waccBar_slope (enc := enc) hdt hC (by rw [← Nm]; refine mul_le_mul_of_nonneg_right hN24 hdt.le)
  rw [← hN] at G
  have hN0 : 0 < N := by linarith
  have vN1 : v1.val = p1 / N := by rw [eq_div_iff hN0.ne', hp1, hN, mul_div_assoc]
  have vN2 : v2.val = p2 / N := by rw [eq_div_iff hN0.ne', hp2, hN, mul_div_assoc]
  have eN : 6 * dt.val / enc.Tcod.val = 6 / N := by rw [hN, div_div_eq_mul_div]
  obtain ⟨ε, hε⟩ : ∃ ε, ε = 6 * dt.val / enc.Tcod.val := ⟨_, rfl⟩
  rw [← hε] at hv1 hv2 hMa hMb ⊢
  rw [hε.symm] at eN
  have hε0 : 0 < ε := by rw [eN]; positivity
  have eh : 1 / (2 * N) = 1 / 2 / N := by rw [div_div]
  have e6 : ε = 11 / 2 / N + 1 / 2 / N := by rw [eN, ← add_div]; norm_num
  have hK1a : ((B1 : ℚ) - A1) / N + 1 / (2 * N) ≤ v1.val + ε := by
    have : ((B1 : ℚ) - A1) / N ≤ (p1 + 11 / 2) / N := div_le_div_of_nonneg_right (by linarith) hN0.le
    rw [add_div] at this; rw [vN1, eh]; linarith
  have hK1b : v1.val - ε ≤ ((B1 : ℚ) - A1) / N - 1 / (2 * N) := by
    have : (p1 - 11 / 2) / N ≤ ((B1 : ℚ) - A1) / N := div_le_div_of_nonneg_right (by linarith) hN0.le
    rw [sub_div] at this; rw [vN1, eh]; linarith
  have hK2a : ((B2 : ℚ) - A2) / N + 1 / (2 * N) ≤ v2.val + ε := by
    have : ((B2 : ℚ) - A2) / N ≤ (p2 + 11 / 2) / N := div_le_div_of_nonneg_right (by linarith) hN0.le
    rw [add_div] at this; rw [vN2, eh]; linarith
  have hK2b : v2.val - ε ≤ ((B2 : ℚ) - A2) / N - 1 / (2 * N) := by
    have : (p2 - 11 / 2) / N ≤ ((B2 : ℚ) - A2) / N := div_le_div_of_nonneg_right (by linarith) hN0.le
    rw [sub_div] at this; rw [vN2, eh]; linarith
  have hm24 : m ≤ 2 ^ 24 + 1 / 16 := by linarith
  obtain ⟨dpos3, d3a, d3b⟩ := tsyn_tmin (enc := enc) (dt := dt) hdt hT0 (by
    rw [← qm, ← mm, ← add_mul]; exact mul_le_mul_of_nonneg_right (by linarith) hdt.le)
  have d3 : (1 + enc.Tmin.val) / dt.val = q + m := by rw [add_div, hq, hm]
  rw [d3] at d3a d3b
  obtain ⟨D3, hD3⟩ : ∃ D, D = (tsynFl + enc.Tmin).val / dt.val := ⟨_, rfl⟩
  rw [← hD3] at d3a d3b
  obtain ⟨u, hu⟩ : ∃ u, u = (tneuFl : Double).val / dt.val := ⟨_, rfl⟩
  obtain ⟨D, hD⟩ : ∃ u, u = (dirFl : Double).val / dt.val := ⟨_, rfl⟩
  obtain ⟨DM, hDM⟩ : ∃ u, u = (enc.Tmin + dirFl : Double).val / dt.val := ⟨_, rfl⟩
  obtain ⟨kk1, kk2, kk3, kk4, kk5⟩ := tneu_bd
  have um : u * dt.val = (tneuFl : Double).val := by rw [hu, u0]
  have Dm : D * dt.val = (dirFl : Double).val := by rw [hD, u0]
  have DMm : DM * dt.val = (enc.Tmin + dirFl : Double).val := by rw [hDM, u0]
  have hdtl : 1 ≤ 2 ^ 24 * dt.val := by linarith [tmin_le (e := enc) hC0.le]
  have c40 : (1 : ℚ) / 2 ^ 40 ≤ 1 / 2 ^ 16 * dt.val := by linarith
  have eDM : |(enc.Tmin + dirFl : Double).val - (enc.Tmin.val + (dirFl : Double).val)| ≤ dt.val / 16 := by
    rw [Fl.val_add]
    refine fl_small ?_
    rw [abs_of_nonneg (by linarith)]
    have := tmin_le (e := enc) hC0.le
    have : (2 : ℚ) ^ 49 * dt.val = 2 ^ 24 * dt.val * 2 ^ 25 := by ring
    linarith
  obtain ⟨eD1, eD2⟩ := abs_le.mp eDM
  have u1 : q / 100 - 1 / 2 ^ 16 ≤ u := mv _ _ (by linarith)
  have u2 : u ≤ q / 100 + 1 / 2 ^ 16 := mv _ _ (by linarith)
  have D1 : 3 * q + q / 50 - 1 / 2 ^ 16 ≤ D := mv _ _ (by linarith)
  have D2 : D ≤ 3 * q + q / 50 + 1 / 2 ^ 16 := mv _ _ (by linarith)
  have DM1 : m + D - 1 / 16 ≤ DM := mv _ _ (by linarith)
  have DM2 : DM ≤ m + D + 1 / 16 := mv _ _ (by linarith)
  have fine : 800 ≤ q ∨ q / 100 + 14 ≤ (g : ℚ) := by
    rcases hg with h | h
    · exact .inl (mv _ _ (by linarith))
    · exact .inr (mv _ _ (by linarith))
  have clearG : 1 / 100 + 14 * dt.val ≤ g * dt.val → q / 100 + 14 ≤ (g : ℚ) := fun h => mv _ _ (by linarith)
  have big : (2 : ℚ) ^ 48 + 1000 * 2 ^ 24 + 1000 ≤ 2 ^ 49 := by norm_num
  have hqm : q ≤ 2 ^ 24 := by linarith
  have d1 : (tsynFl : Double).val / dt.val = q := by rw [tsyn_val, hq]
  have d2 : (Fl.of 2 * tsynFl : Double).val / dt.val = 2 * q := by rw [two_tsyn, hq]; ring
  have d2u : (Fl.of 2 * tneuFl : Double).val / dt.val = 2 * u := by rw [kk3, hu]; ring
  have dpos : 0 ≤ (tsynFl : Double).val := by rw [tsyn_val]; norm_num
  have dpos2 : 0 ≤ (Fl.of 2 * tsynFl : Double).val := by rw [two_tsyn]; norm_num
  have dpu : 0 ≤ (tneuFl : Double).val := by linarith
  have dp2u : 0 ≤ (Fl.of 2 * tneuFl : Double).val := by linarith
  have dpD : 0 ≤ (dirFl : Double).val := by linarith
  have dpM : 0 ≤ (enc.Tmin + dirFl : Double).val := by linarith
  have Ar : ∀ j : ℕ, (j : ℚ) ≤ 2 ^ 48 + 100 * 2 ^ 24 + 500 → ∃ i, AtStep dt tsynFl j i ∧ j < i ∧ (j : ℚ) + q - 1 ≤ i ∧ (i : ℚ) ≤ j + q + 2 := fun j hj => by
    have := arrives (j := j) hdt dpos (by rw [d1]; linarith)
    rwa [d1] at this
  have Ar2 : ∀ j : ℕ, (j : ℚ) ≤ 2 ^ 48 + 100 * 2 ^ 24 + 500 → ∃ i, AtStep dt (Fl.of 2 * tsynFl) j i ∧ j < i ∧ (j : ℚ) + 2 * q - 1 ≤ i ∧ (i : ℚ) ≤ j + 2 * q + 2 := fun j hj => by
    have := arrives (j := j) hdt dpos2 (by rw [d2]; linarith)
    rwa [d2] at this
  have Ar3 : ∀ j : ℕ, (j : ℚ) ≤ 2 ^ 48 + 100 * 2 ^ 24 + 500 → ∃ i, AtStep dt (tsynFl + enc.Tmin) j i ∧ j < i ∧ (j : ℚ) + D3 - 1 ≤ i ∧ (i : ℚ) ≤ j + D3 + 2 := fun j hj => by
    have := arrives (j := j) hdt dpos3 (by rw [← hD3]; linarith)
    rwa [← hD3] at this
  have AN : ∀ j : ℕ, (j : ℚ) ≤ 2 ^ 48 + 100 * 2 ^ 24 + 500 → ∃ i, AtStep dt tneuFl j i ∧ j < i ∧ (j : ℚ) + u - 1 ≤ i ∧ (i : ℚ) ≤ j + u + 2 := fun j hj => by
    have := arrives (j := j) hdt dpu (by rw [← hu]; linarith)
    rwa [← hu] at this
  have AN2 : ∀ j : ℕ, (j : ℚ) ≤ 2 ^ 48 + 100 * 2 ^ 24 + 500 → ∃ i, AtStep dt (Fl.of 2 * tneuFl) j i ∧ j < i ∧ (j : ℚ) + 2 * u - 1 ≤ i ∧ (i : ℚ) ≤ j + 2 * u + 2 := fun j hj => by
    have := arrives (j := j) hdt dp2u (by rw [d2u]; linarith)
    rwa [d2u] at this
  have AD : ∀ j : ℕ, (j : ℚ) ≤ 2 ^ 48 + 100 * 2 ^ 24 + 500 → ∃ i, AtStep dt dirFl j i ∧ j < i ∧ (j : ℚ) + D - 1 ≤ i ∧ (i : ℚ) ≤ j + D + 2 := fun j hj => by
    have := arrives (j := j) hdt dpD (by rw [← hD]; linarith)
    rwa [← hD] at this
  have AM : ∀ j : ℕ, (j : ℚ) ≤ 2 ^ 48 + 100 * 2 ^ 24 + 500 → ∃ i, AtStep dt (enc.Tmin + dirFl) j i ∧ j < i ∧ (j : ℚ) + DM - 1 ≤ i ∧ (i : ℚ) ≤ j + DM + 2 := fun j hj => by
    have := arrives (j := j) hdt dpM (by rw [← hDM]; linarith)
    rwa [← hDM] at this
  have hM24 : (M : ℚ) + 22 ≤ 2 ^ 23 := by exact_mod_cast hM2
  have pw : (2 : ℚ) ^ 24 = 2 * 2 ^ 23 := by norm_num
  have hM24' : M ≤ 2 ^ 24 := by
    have : (2 : ℕ) ^ 24 = 2 * 2 ^ 23 := by norm_num
    omega
  -- the synchronising neuron
  obtain ⟨S, hS⟩ : ∃ S, S = max B1 B2 := ⟨_, rfl⟩
  obtain ⟨Y, hY, hYx, hSY⟩ : ∃ Y : ℚ, (Y ≤ x1 + m + p1 + 3 / 16 ∨ Y ≤ x2 + m + p2 + 3 / 16) ∧ Y ≤ 2 ^ 48 + 2 ^ 24 + 1 ∧ (S : ℚ) ≤ Y + 2 * q + 3 := by
    rcases le_total y1 y2 with h | h
    · refine ⟨y2, Or.inr yx2, by linarith, ?_⟩
      rw [hS]; push_cast; exact max_le (by linarith) BY2
    · refine ⟨y1, Or.inl yx1, by linarith, ?_⟩
      rw [hS]; push_cast; exact max_le BY1 (by linarith)
  have hS1 : B1 ≤ S := by rw [hS]; exact le_max_left _ _
  have hS2 : B2 ≤ S := by rw [hS]; exact le_max_right _ _
  have steps : ∀ i : ℕ, (i : ℚ) ≤ Y + 3 * m + N + 14 * q + M + 35 → i ≤ numStepsFl T dt := fun i hi => by
    refine enough_steps (by
      have : (i : ℚ) ≤ 2 ^ 53 := by linarith
      exact_mod_cast this) ?_
    rw [le_div_iff₀ hdt]
    have := mul_le_mul_of_nonneg_right hi hdt.le
    have hvT1 : v1.val * enc.Tcod.val ≤ enc.Tcod.val := mul_le_of_le_one_left hC0.le vb1.2
    have hvT2 : v2.val * enc.Tcod.val ≤ enc.Tcod.val := mul_le_of_le_one_left hC0.le vb2.2
    rcases hY with h | h
    · have := mul_le_mul_of_nonneg_right h hdt.le
      linarith
    · have := mul_le_mul_of_nonneg_right h hdt.le
      linarith
  have hAB1 : (B1 : ℚ) - A1 ≤ N - 3 / 2 := by linarith
  have hAB2 : (B2 : ℚ) - A2 ≤ N - 3 / 2 := by linarith
  have hmMa := hMa.trans hK1b
  have hmMb := hMb.trans hK2b
  have hdM : ∀ n : ℕ, (n : ℚ) ≤ M + 22 → (n : ℚ) * dt.val ≤ 343 := fun n h => (mul_le_mul_of_nonneg_right h hdt.le).trans hM1
  clear hT1 hT2 hv1' hv2' hmin ht1 ht1' ht2 ht2' hY yx1 yx2 y10 y20 x148 x248 mp1 mp2 X1 X1a X1b X2 X2a X2b pm1 pm2 xm1 xm2 P1 P2 P10 P20 BY1 BY2 eD1 eD2 eDM Dm DMm um c40 hdtl kk1 kk2 kk4 kk5
  clear hv1 hv2 hMa hMb hM1 hg qm vN1 vN2 eN eh e6 hε
  obtain ⟨C, Ci, Cj, Cl, Cu⟩ := Ar S (by linarith)
  -- the two logarithms
  obtain ⟨k1, k2, g1, g12, g13, g14, g2, g22, g23, g24, ksame⟩ : ∃ k1 k2 : ℕ, FitsR stdFl dt (logHits enc.waccBarFl A1 B1 C) [C + k1] ∧ k1 + 1 ≤ M ∧
      rhoQ dt ^ (k1 + 1) ≤ ((B1 : ℚ) - A1) / N + 1 / (2 * N) ∧ ((B1 : ℚ) - A1) / N - 1 / (2 * N) < rhoQ dt ^ k1 ∧
      FitsR stdFl dt (logHits enc.waccBarFl A2 B2 C) [C + k2] ∧ k2 + 1 ≤ M ∧
      rhoQ dt ^ (k2 + 1) ≤ ((B2 : ℚ) - A2) / N + 1 / (2 * N) ∧ ((B2 : ℚ) - A2) / N - 1 / (2 * N) < rhoQ dt ^ k2 ∧ (v1 = v2 ∧ t1 = t2 → k1 = k2) := by
    obtain ⟨k1, g1, g12, g13, g14⟩ := log_fits (dt := dt) (w := enc.waccBarFl) (A := A1) (B := B1) (C := C) (n := N) (M := M)
      (hits := logHits enc.waccBarFl A1 B1 C) hdt hdt1' G A10 AB1 (by omega) hAB1 hmMa hM24' (fun _ => rfl)
    by_cases hs : v1 = v2 ∧ t1 = t2
    · obtain ⟨rfl, rfl⟩ := hs
      have : τ1 = τ2 := by rw [hτ1, hτ2]
      subst this
      obtain ⟨eA, eB⟩ := F1.same F2
      subst eA eB
      exact ⟨k1, k1, g1, g12, g13, g14, g1, g12, g13, g14, fun _ => rfl⟩
    · obtain ⟨k2, g2, g22, g23, g24⟩ := log_fits (dt := dt) (w := enc.waccBarFl) (A := A2) (B := B2) (C := C) (n := N) (M := M)
        (hits := logHits enc.waccBarFl A2 B2 C) hdt hdt1' G A20 AB2 (by omega) hAB2 hmMb hM24' (fun _ => rfl)
      exact ⟨k1, k2, g1, g12, g13, g14, g2, g22, g23, g24, fun h => absurd h hs⟩
  have hk1 : (k1 : ℚ) + 1 ≤ M := by exact_mod_cast g12
  have hk2 : (k2 : ℚ) + 1 ≤ M := by exact_mod_cast g22
  have k10 : (0 : ℚ) ≤ k1 := Nat.cast_nonneg _
  have k20 : (0 : ℚ) ≤ k2 := Nat.cast_nonneg _
  obtain ⟨o, oi, oj, ol, ou⟩ := Ar2 S (by linarith)
  obtain ⟨l1, l1i, l1j, l1l, l1u⟩ := Ar3 (C + k1) (by push_cast; linarith)
  obtain ⟨l2, l2i, l2j, l2l, l2u⟩ := Ar3 (C + k2) (by push_cast; linarith)
  push_cast at l1l l1u l2l l2u
  obtain ⟨r, ri, rj, rl, ru⟩ := Ar o (by linarith)
  obtain ⟨r1, r1i, r1j, r1l, r1u⟩ := Ar l1 (by linarith)
  obtain ⟨r2, r2i, r2j, r2l, r2u⟩ := Ar l2 (by linarith)
  obtain ⟨z, zi, zj, zl, zu⟩ := Ar r (by linarith)
  obtain ⟨s1, s1i, s1j, s1l, s1u⟩ := Ar r1 (by linarith)
  obtain ⟨s2, s2i, s2j, s2l, s2u⟩ := Ar r2 (by linarith)
  have lt_of : ∀ {a b : ℕ}, (a : ℚ) < b → a < b := fun h => by exact_mod_cast h
  have ol1 : o < l1 := lt_of (by linarith)
  have ol2 : o < l2 := lt_of (by linarith)
  have rr1 : r < r1 := lt_of (by linarith)
  have rr2 : r < r2 := lt_of (by linarith)
  have zs1 : z < s1 := lt_of (by linarith)
  have zs2 : z < s2 := lt_of (by linarith)
  have cast_le : ∀ {a b : ℕ}, a ≤ b → (a : ℚ) ≤ b := fun h => by exact_mod_cast h
  have W1 : (s1 : ℚ) ≤ Y + m + 6 * q + M + 17 := by linarith
  have W2 : (s2 : ℚ) ≤ Y + m + 6 * q + M + 17 := by linarith
  have tS : C + k1 ≤ numStepsFl T dt ∧ C + k2 ≤ numStepsFl T dt ∧ l1 ≤ numStepsFl T dt ∧ l2 ≤ numStepsFl T dt ∧ r1 ≤ numStepsFl T dt ∧ r2 ≤ numStepsFl T dt ∧
      s1 ≤ numStepsFl T dt ∧ s2 ≤ numStepsFl T dt :=
    ⟨steps _ (by push_cast; linarith), steps _ (by push_cast; linarith), steps _ (by linarith), steps _ (by linarith), steps _ (by linarith), steps _ (by linarith),
      steps _ (by linarith), steps _ (by linarith)⟩
  have tB : B1 ≤ numStepsFl T dt ∧ B2 ≤ numStepsFl T dt := ⟨steps _ (by have := cast_le hS1; linarith), steps _ (by have := cast_le hS2; linarith)⟩
  have SS1 : (s1 : ℚ) - s2 ≤ (k1 : ℚ) - k2 + 9 := by linarith
  have SS2 : (k1 : ℚ) - k2 - 9 ≤ (s1 : ℚ) - s2 := by linarith
  clear Cl Cu ol ou l1l l1u l2l l2u rl ru r1l r1u r2l r2u zl zu s1l s1u s2l s2u hSY
  obtain ⟨e1, e1i, e1j, e1l, e1u⟩ := AN s1 (by linarith)
  obtain ⟨e2, e2i, e2j, e2l, e2u⟩ := AN s2 (by linarith)
  obtain ⟨f1, f1i, f1j, f1l, f1u⟩ := AN2 s1 (by linarith)
  obtain ⟨f2, f2i, f2j, f2l, f2u⟩ := AN2 s2 (by linarith)
  obtain ⟨d1, d1i, d1j, d1l, d1u⟩ := Ar s1 (by linarith)
  obtain ⟨d2, d2i, d2j, d2l, d2u⟩ := Ar s2 (by linarith)
  obtain ⟨c1', c1i, c1j, c1l, c1u⟩ := AD s1 (by linarith)
  obtain ⟨c2', c2i, c2j, c2l, c2u⟩ := AD s2 (by linarith)
  obtain ⟨h1, h1i, h1j, h1l, h1u⟩ := AM s1 (by linarith)
  obtain ⟨h2, h2i, h2j, h2l, h2u⟩ := AM s2 (by linarith)
  have mono : ∀ {D : Double} {j j' a a' : ℕ}, AtStep dt D j a → AtStep dt D j' a' → j ≤ j' → a ≤ a' := fun h h' hj =>
    arrives_mono hdt hj ((h _).mpr rfl) ((h' _).mpr rfl)
  have hmono2 : ∀ {j a a' : ℕ}, AtStep dt tneuFl j a → AtStep dt (Fl.of 2 * tneuFl) j a' → a ≤ a' := fun {j a a'} h h' => by
    have h := (h _).mpr rfl
    have h' := (h' _).mpr rfl
    by_contra hlt
    refine h.2.2 a' (not_le.mp hlt) h'.1 (le_trans ?_ h'.2.1)
    rw [Fl.le_iff, Fl.val_add, Fl.val_add]
    apply fl_mono
    rw [kk3]; linarith
  have nil : ∀ D, AL dt D [] [] := fun D => List.Forall₂.nil
  have cast_lt : ∀ {a b : ℕ}, a < b → (a : ℚ) + 1 ≤ b := fun h => by exact_mod_cast h
  subst hτ1 hτ2
  have run := @div_run H ord hord enc dt hdt name v1 v2 t1 t2 T vb1 vb2 a1 b1 c1 A1 B1 a2 b2 c2 A2 B2 C (C + k1) (C + k2) o l1 l2 r r1 r2 z s1 s2 e1 e2 f1 f2 d1 d2 c1' c2' h1 h2
  clear hAB1 hAB2 hmMa hmMb dpos dpos2 dpos3 dpD dpM
  constructor
  · intro hgap
    have hkk : k2 + g ≤ k1 := by
      rcases hgap with h | ⟨h, h', h0⟩
      · by_contra hc
        push Not at hc
        have h1 : rhoQ dt ^ (k2 + g) ≤ rhoQ dt ^ (k1 + 1) := pow_le_pow_of_le_one hr0.le hr1 hc
        have h2 : rhoQ dt ^ g * (v2.val - ε) < rhoQ dt ^ g * rhoQ dt ^ k2 := mul_lt_mul_of_pos_left (lt_of_le_of_lt hK2b g24) (pow_pos hr0 _)
        rw [pow_add, mul_comm] at h1
        linarith
      · rw [h0, ksame ⟨h, h'⟩]; rfl
    have hkq : (k2 : ℚ) + g ≤ k1 := by exact_mod_cast hkk
    have hs : s2 ≤ s1 := mono s2i s1i (mono r2i r1i (mono l2i l1i (by omega)))
    have hsq := cast_le hs
    have dd := mono d2i d1i hs
    have ee := mono e2i e1i hs
    have ff := mono f2i f1i hs
    have g20 : 0 < c2' := gp c2j
    obtain ⟨i1, i1i, i1j, i1l, i1u⟩ := Ar c2' (by linarith)
    obtain ⟨i2, i2i, i2j, i2l, i2u⟩ := Ar h1 (by linarith)
    have gh : c2' < h1 := lt_of (by linarith)
    have dr : d1 < i2 := lt_of (by linarith)
    have key : ∃ Z Zn I2 I2d : List ℕ, AL dt tneuFl Z Zn ∧ AL dt tsynFl I2 I2d ∧ Z.length ≤ 10 ∧ I2.length ≤ 10 ∧
        VFires (evl [(4, [d2]), (-4, [d1]), (2, [i1, i2]), (-4, Zn)]) 0 I2 ∧ VFires (evl [(4, [h2]), (4, [c1']), (-8, I2d), (-8, Zn)]) 0 [] ∧
        VFires (evl [(4, Zn), (-2, [f1]), (-2, [f2]), (2, [e1]), (2, [e2])]) 0 Z ∧ (∀ i ∈ Z, i ≤ numStepsFl T dt) ∧ ∀ i ∈ I2, i ≤ numStepsFl T dt := by
      by_cases hfe : f2 ≤ e1
      · have hfeq := cast_le hfe
        obtain ⟨b, bi, bj, bl, bu⟩ := Ar d2 (by linarith)
        have gap : (s2 : ℚ) + 4 ≤ s1 := by
          have : (s2 : ℚ) + 3 < s1 := by rcases fine with h | h <;> linarith
          have : s2 + 3 < s1 := by exact_mod_cast this
          exact_mod_cast this
        have dlt : d2 < d1 := lt_of (by linarith)
        refine ⟨[], [], [d2], [b], nil _, .cons bi .nil, by simp, by simp, vk_on' (gp d2j) dlt (lt_of (by linarith)) dr,
          vk_inh (lt_of (by linarith)) (lt_of (by linarith)) (gp bj), vk_zero0 (.inl hfe) (hmono2 e1i f1i) (hmono2 e2i f2i) (gp f1j) (gp f2j), by simp, ?_⟩
        simp only [List.mem_cons, List.not_mem_nil, or_false, forall_eq]
        exact steps _ (by linarith)
      · have hfe := not_le.mp hfe
        have hfeq := cast_lt hfe
        have q8 : 800 ≤ q := by
          rcases fine with h | h
          · exact h
          · exfalso; linarith
        obtain ⟨z, zi, zj, zl, zu⟩ := AN e1 (by linarith)
        obtain ⟨z', zi', zj', zl', zu'⟩ := AN z (by linarith)
        have zd : z < d2 := lt_of (by linarith)
        have zg : z < c1' := lt_of (by linarith)
        have zh : z < h2 := lt_of (by linarith)
        have zf : f1 < z' := lt_of (by linarith)
        have zr : z < i1 := lt_of (by linarith)
        have ef : e1 < f1 := lt_of (by linarith)
        by_cases hz : z < f2
        · refine ⟨[e1, z], [z, z'], [], [], .cons zi (.cons zi' .nil), nil _, by simp, by simp, vk_b2' zd zr dr (gp zj) (gp d1j), vk_inh2 zh zg (gp zj),
            vk_zero2 (gp e1j) le_rfl ee (.inl rfl) ef hfe zj (lt_of_lt_of_le hz ff) hz (.inl zf) zj' (gp e1j) (gp e2j), ?_, by simp⟩
          simp only [List.mem_cons, List.not_mem_nil, or_false, forall_eq_or_imp, forall_eq]
          exact ⟨steps _ (by linarith), steps _ (by linarith)⟩
        · refine ⟨[e1], [z], [], [], .cons zi .nil, nil _, by simp, by simp, vk_b2 zd zr dr (gp zj) (gp d1j), vk_inh zh zg (gp zj),
            vk_zero1 (gp e1j) le_rfl ee (.inl rfl) ef hfe zj (.inr (not_lt.mp hz)) (gp e1j) (gp e2j), ?_, by simp⟩
          simp only [List.mem_cons, List.not_mem_nil, or_false, forall_eq]
          exact steps _ (by linarith)
    obtain ⟨Z, Zn, I2, I2d, hZ, hI2, lZ, lI2, c5, c7, c8, tZ, tI2⟩ := key
    have ii : i1 < i2 := lt_of (by linarith)
    obtain ⟨j1, j1i, j1j, j1l, j1u⟩ := Ar i1 (by linarith)
    obtain ⟨j2, j2i, j2j, j2l, j2u⟩ := Ar i2 (by linarith)
    obtain ⟨cc, ci, cj, cl, cu⟩ := Ar j1 (by linarith)
    have cj2 : cc < j2 := lt_of (by linarith)
    obtain ⟨fa, fi, fj, fl, fu⟩ := Ar3 j1 (by linarith)
    obtain ⟨lb, bi, bj, bl, bu⟩ := Ar j2 (by linarith)
    obtain ⟨o1, o1i, o1j, o1l, o1u⟩ := Ar2 j2 (by linarith)
    clear e1l e1u e2l e2u f1l f1u f2l f2u d1l d1u d2l d2u c1l c1u h2l h2u
    have n1 : lb - fa + k2 ≤ k1 + 21 := by
      have : (lb : ℚ) + k2 < fa + (k1 + 22) := by linarith
      have : lb + k2 < fa + (k1 + 22) := by exact_mod_cast this
      omega
    have n2 : k1 ≤ lb - fa + k2 + 21 := by
      have : (fa : ℚ) + k1 < lb + k2 + 22 := by linarith
      have : fa + k1 < lb + k2 + 22 := by exact_mod_cast this
      omega
    obtain ⟨n, hn⟩ : ∃ n, n = lb - fa := ⟨_, rfl⟩
    rw [← hn] at n1 n2
    have hn23 : n ≤ 2 ^ 23 := by omega
    have n1q : (n : ℚ) + k2 ≤ k1 + 21 := by exact_mod_cast n1
    have hlow : 7 * ((lb - fa : ℕ) : ℚ) * uu ≤ rhoQ dt ^ (lb - fa) := by
      rw [← hn]
      refine le_trans ?_ (rho_low' hdt hdt1' (k := n) ?_)
      · have : (n : ℚ) ≤ 2 ^ 23 := by exact_mod_cast hn23
        have := mul_le_mul_of_nonneg_right (mul_le_mul_of_nonneg_left this (show (0 : ℚ) ≤ 7 by norm_num)) (show (0 : ℚ) ≤ uu by unfold uu; positivity)
        refine this.trans ?_
        unfold uu; norm_num
      · exact hdM n (by linarith)
    have gm : (0 : ℚ) ≤ g := Nat.cast_nonneg _
    have h24 : lb - fa ≤ 2 ^ 24 := by rw [← hn]; exact hn23.trans (by norm_num)
    obtain ⟨k, g3, g32, g33⟩ := exp_any (dt := dt) (w := enc.waccBarFl) (A := fa) (B := lb) (n := N) (hits := expHits enc.waccBarFl fa lb)
      hdt hdt1' G (gp fj) (gp bj) h24 (by linarith) hlow (fun _ => rfl)
    rw [← hn] at g32 g33
    obtain ⟨ρ, hρ⟩ : ∃ r, r = rhoQ dt ^ n := ⟨_, rfl⟩
    rw [← hρ] at g32 g33
    have ρ0 : 0 ≤ ρ := by rw [hρ]; exact pow_nonneg hr0.le _
    have ρ1 : ρ ≤ 1 := by rw [hρ]; exact pow_le_one₀ hr0.le hr1
    have rN : N * ρ ≤ N := mul_le_of_le_one_right hN0.le ρ1
    have rN0 : 0 ≤ N * ρ := mul_nonneg hN0.le ρ0
    obtain ⟨o2, o2i, o2j, o2l, o2u⟩ := Ar3 (lb + k) (by push_cast; linarith)
    push_cast at o2l o2u
    have V1 : (o2 : ℚ) - o1 ≤ m + N * ρ + 7 := by linarith
    have V2 : m + N * ρ - 7 ≤ (o2 : ℚ) - o1 := by linarith
    have oo : o1 < o2 := lt_of (by linarith)
    have o2q : (o2 : ℚ) ≤ Y + 3 * m + N + 14 * q + M + 35 := by linarith
    have W4 : o2 ≤ 2 ^ 49 := by
      have : (o2 : ℚ) ≤ 2 ^ 49 := by linarith
      exact_mod_cast this
    have lq : (lb : ℚ) ≤ Y + 3 * m + N + 14 * q + M + 34 - N - q - m := by linarith
    obtain ⟨st, q1', q2'⟩ := run (Z := Z) (P := [c2', h1]) (M := []) (I1 := []) (I2 := I2) (Zn := Zn) (Pd := [i1, i2]) (Md := []) (I1d := []) (I2d := I2d) (I := [i1, i2]) (J := [j1, j2])
      (F := [j1]) (Fc := [cc]) (La := [j2]) (FA := [fa]) (LB := [lb]) (X := [lb + k]) (O1 := [o2]) (O2 := [o1]) (O := [o1, o2]) F1 F2 (hS ▸ Ci) g1 g2 (Nat.add_pos_left (gp Cj) _) (Nat.add_pos_left (gp Cj) _)
      (hS ▸ oi) l1i l2i (gp oj) ol1 ol2 ri r1i r2i (gp rj) rr1 rr2 zi s1i s2i (gp zj) zs1 zs2 e1i e2i f1i f2i d1i d2i c1i c2i h1i h2i
      hZ (.cons i1i (.cons i2i .nil)) (nil _) (nil _) hI2 lZ (by simp) (by simp) (by simp) lI2 (by simp) (by simp) (by simp) (by simp)
      (vk_off dd (gp d2j)) c5 (vk_pair g20 gh) c7 c8 (relay_fires (gp i1j) ii) (.cons j1i (.cons j2i .nil)) ci.al (first_fires (gp j1j) cj cj2) (second_fires (gp j1j) (cj.trans cj2))
      fi.al bi.al (FitsR.of_eq g3 fun i => inSteps_one _ _ _ _) ⟨List.pairwise_singleton _ _, fun i hi => by rw [List.mem_singleton.mp hi]; exact Nat.add_pos_left (gp bj) _⟩ o2i.al o1i.al (join_fires' (gp o1j) oo) (by
        simp only [List.mem_cons, List.mem_append, List.not_mem_nil, or_false, false_or, or_assoc]
        obtain ⟨m1, m2, m3, m4, m5, m6, m7, m8⟩ := tS
        have n1 : c2' ≤ numStepsFl T dt := steps _ (by linarith)
        have n2 : h1 ≤ numStepsFl T dt := steps _ (by linarith)
        have n3 : i2 ≤ numStepsFl T dt := steps _ (by linarith)
        have n4 : j2 ≤ numStepsFl T dt := steps _ (by linarith)
        have n5 : o2 ≤ numStepsFl T dt := steps _ o2q
        rintro i (rfl | rfl | rfl | rfl | rfl | rfl | rfl | rfl | h | rfl | rfl | h | rfl | rfl | rfl | rfl | rfl | rfl | rfl)
        exacts [m1, m2, m3, m4, m5, m6, m7, m8, tI2 i h, n1, n2, tZ i h, ii.le.trans n3, n3, (cj.trans cj2).le.trans n4, n4, o2j.le.trans n5, oo.le.trans n5, n5]) tB
    have rT : ρ * enc.Tcod.val = N * ρ * dt.val := by rw [← Nm]; ring
    have Nd := mul_le_mul_of_nonneg_right rN hdt.le
    have N24 := mul_le_mul_of_nonneg_right hN24 hdt.le
    have hd := decoded (e := enc) (dt := dt) (v := ρ) (a := o1) (b := o2) (δ := 7) hT0 hC0 hmax hdt
      (by have := mul_nonneg ρ0 hC0.le; have : (0 : ℚ) ≤ 2 ^ 24 * dt.val := by positivity
          linarith) (by rw [rT]; linarith) (by omega) W4 (by norm_num) (by
        rw [rT, ← mm, ← add_mul, ← sub_mul, abs_mul, abs_of_pos hdt]
        refine mul_le_mul_of_nonneg_right ?_ hdt.le
        rw [abs_le]; constructor <;> linarith)
    refine ⟨st, q1', (o1 : Double) * dt, (o2 : Double) * dt, n, q2', ?_, ?_, ?_⟩
    · rw [← hρ]
      exact hd.trans (div_le_div_of_nonneg_right (by linarith) hC0.le)
    · have h1 : rhoQ dt ^ (k1 + 22) ≤ rhoQ dt ^ (n + (k2 + 1)) := pow_le_pow_of_le_one hr0.le hr1 (by omega)
      have h2 : rhoQ dt ^ n * rhoQ dt ^ (k2 + 1) ≤ rhoQ dt ^ n * (v2.val + ε) := mul_le_mul_of_nonneg_left (g23.trans hK2a) (pow_nonneg hr0.le _)
      have h3 : rhoQ dt ^ 22 * (v1.val - ε) ≤ rhoQ dt ^ 22 * rhoQ dt ^ k1 := mul_le_mul_of_nonneg_left (hK1b.trans g14.le) (pow_nonneg hr0.le _)
      rw [pow_add, pow_add, mul_comm] at h1
      exact h3.trans (h1.trans h2)
    · have h1 : rhoQ dt ^ (22 + (n + k2)) ≤ rhoQ dt ^ (k1 + 1) := pow_le_pow_of_le_one hr0.le hr1 (by omega)
      have h2 : rhoQ dt ^ 22 * (rhoQ dt ^ n * (v2.val - ε)) ≤ rhoQ dt ^ 22 * (rhoQ dt ^ n * rhoQ dt ^ k2) :=
        mul_le_mul_of_nonneg_left (mul_le_mul_of_nonneg_left (hK2b.trans g24.le) (pow_nonneg hr0.le _)) (pow_nonneg hr0.le _)
      rw [← pow_add, ← pow_add] at h2
      exact h2.trans (h1.trans (g13.trans hK1a))
  · intro hcl hgap
    have hcl := clearG hcl
    have hkk : k1 + g ≤ k2 := by
      by_contra hc
      push Not at hc
      have h1 : rhoQ dt ^ (k1 + g) ≤ rhoQ dt ^ (k2 + 1) := pow_le_pow_of_le_one hr0.le hr1 hc
      have h2 : rhoQ dt ^ g * (v1.val - ε) < rhoQ dt ^ g * rhoQ dt ^ k1 := mul_lt_mul_of_pos_left (lt_of_le_of_lt hK1b g14) (pow_pos hr0 _)
      rw [pow_add, mul_comm] at h1
      linarith
    have hkq : (k1 : ℚ) + g ≤ k2 := by exact_mod_cast hkk
    have hs : s1 ≤ s2 := mono s1i s2i (mono r1i r2i (mono l1i l2i (by omega)))
    have hsq := cast_le hs
    have dd := mono d1i d2i hs
    have hfe : f1 ≤ e2 := by
      have : (f1 : ℚ) ≤ e2 := by linarith
      exact_mod_cast this
    obtain ⟨i1, i1i, i1j, i1l, i1u⟩ := Ar c1' (by linarith)
    obtain ⟨i2, i2i, i2j, i2l, i2u⟩ := Ar h2 (by linarith)
    obtain ⟨b, bi, bj, bl, bu⟩ := Ar d1 (by linarith)
    have gh : c1' < h2 := lt_of (by linarith)
    have dr : d2 < i2 := lt_of (by linarith)
    have dlt : d1 < d2 := lt_of (by linarith)
    have b1 : b < c2' := lt_of (by linarith)
    have b2 : b < h1 := lt_of (by linarith)
    have r1d : d1 < i1 := lt_of (by linarith)
    obtain ⟨st, q1', q2'⟩ := run (Z := []) (P := []) (M := [c1', h2]) (I1 := [d1]) (I2 := []) (Zn := []) (Pd := []) (Md := [i1, i2]) (I1d := [b]) (I2d := []) (I := []) (J := [])
      (F := []) (Fc := []) (La := []) (FA := []) (LB := []) (X := []) (O1 := []) (O2 := []) (O := []) F1 F2 (hS ▸ Ci) g1 g2 (Nat.add_pos_left (gp Cj) _) (Nat.add_pos_left (gp Cj) _)
      (hS ▸ oi) l1i l2i (gp oj) ol1 ol2 ri r1i r2i (gp rj) rr1 rr2 zi s1i s2i (gp zj) zs1 zs2 e1i e2i f1i f2i d1i d2i c1i c2i h1i h2i
      (nil _) (nil _) (.cons i1i (.cons i2i .nil)) (.cons bi .nil) (nil _) (by simp) (by simp) (by simp) (by simp) (by simp) (by simp) (by simp) (by simp) (by simp)
      (vk_on' (gp d1j) dlt r1d dr) (vk_off dd (gp d1j)) (vk_inh b2 b1 (gp bj)) (vk_pair (gp c1j) gh) (vk_zero0 (.inr hfe) (hmono2 e1i f1i) (hmono2 e2i f2i) (gp f1j) (gp f2j))
      none_fires (nil _) (nil _) none_fires none_fires
      (nil _) (nil _) (FitsR.silent fun i => rfl) ⟨.nil, by simp⟩ (nil _) (nil _) none_fires (by
        simp only [List.mem_cons, List.mem_append, List.not_mem_nil, or_false, false_or, or_assoc]
        obtain ⟨m1, m2, m3, m4, m5, m6, m7, m8⟩ := tS
        have n1 : d1 ≤ numStepsFl T dt := steps _ (by linarith)
        have n2 : h2 ≤ numStepsFl T dt := steps _ (by linarith)
        rintro i (rfl | rfl | rfl | rfl | rfl | rfl | rfl | rfl | rfl | rfl | rfl)
        exacts [m1, m2, m3, m4, m5, m6, m7, m8, n1, gh.le.trans n2, n2]) tB
    exact ⟨st, q1', q2'⟩

end Axon
