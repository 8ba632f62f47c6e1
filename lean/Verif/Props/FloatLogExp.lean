import Verif.Proofs.FloatLog
import Verif.Props.FloatMem
import Verif.Props.LogExp
import Mathlib.Analysis.Complex.ExponentialBounds

/-! # C109: the logarithm and the exponential network in Python floats -/
set_option linter.unusedSectionVars false
namespace Axon
open Spec

theorem logFl_neurons (enc : Encoder Double) (name) : (logFl enc name World.empty).2.neurons 0 = .ok (List.range 5) := rfl
theorem expFl_neurons (enc : Encoder Double) (name) : (exponentialFl enc name World.empty).2.neurons 0 = .ok (List.range 5) := rfl

theorem logFl_net (enc : Encoder Double) (name) : ((logFl enc name World.empty).2.net (List.range 5)).syns =
    [⟨0, 1, weFl, tsynFl, .V⟩, ⟨0, 2, Fl.of (1 / 2) * weFl, tsynFl, .V⟩, ⟨1, 1, wiFl, tsynFl, .V⟩, ⟨1, 3, enc.waccBarFl, tsynFl + enc.Tmin, .ge⟩,
     ⟨2, 3, Fl.of 1, tsynFl, .gate⟩, ⟨2, 3, -enc.waccBarFl, tsynFl, .ge⟩, ⟨2, 3, gmultFl, tsynFl, .gf⟩, ⟨3, 4, weFl, tsynFl + enc.Tmin, .V⟩, ⟨2, 4, weFl, Fl.of 2 * tsynFl, .V⟩] := rfl

theorem expFl_net (enc : Encoder Double) (name) : ((exponentialFl enc name World.empty).2.net (List.range 5)).syns =
    [⟨0, 1, weFl, tsynFl, .V⟩, ⟨0, 2, Fl.of (1 / 2) * weFl, tsynFl, .V⟩, ⟨1, 1, wiFl, tsynFl, .V⟩, ⟨1, 3, gmultFl, tsynFl + enc.Tmin, .gf⟩,
     ⟨1, 3, Fl.of 1, tsynFl + enc.Tmin, .gate⟩, ⟨2, 3, -Fl.of 1, tsynFl, .gate⟩, ⟨2, 3, enc.waccBarFl, tsynFl, .ge⟩, ⟨3, 4, weFl, tsynFl + enc.Tmin, .V⟩,
     ⟨2, 4, weFl, Fl.of 2 * tsynFl, .V⟩] := rfl

theorem gmult_d50 : (gmultFl : Double) = d50 := by decide +kernel
theorem of_one : (Fl.of 1 : Double) = 1 := by decide +kernel

theorem waccBar_slope {enc : Encoder Double} {dt : Double} (hdt : 0 < dt.val) (h1 : 13 * dt.val ≤ enc.Tcod.val) (h2 : enc.Tcod.val ≤ 2 ^ 24 * dt.val) :
    GoodSlope (slopeR stdFl dt (0 + enc.waccBarFl)) (enc.Tcod.val / dt.val) := by
  have e : (⟨0, enc.Tcod⟩ : Encoder Double).Tmax = enc.Tcod := zero_addD _
  have e' : (⟨0, enc.Tcod⟩ : Encoder Double).waccFl = enc.waccBarFl := by unfold Encoder.waccFl Encoder.waccBarFl; rw [e]
  have := wacc_slope (enc := ⟨0, enc.Tcod⟩) hdt (by rw [e]; exact h1) (by rw [e]; exact h2)
  rwa [e, e'] at this

/-- The delay `Tsyn + Tmin`, in steps. -/
theorem tsyn_tmin {enc : Encoder Double} {dt : Double} (hdt : 0 < dt.val) (hT0 : 0 ≤ enc.Tmin.val) (hb : 1 + enc.Tmin.val ≤ 2 ^ 49 * dt.val) :
    0 ≤ (tsynFl + enc.Tmin).val ∧ (1 + enc.Tmin.val) / dt.val - 1 / 16 ≤ (tsynFl + enc.Tmin).val / dt.val ∧
      (tsynFl + enc.Tmin).val / dt.val ≤ (1 + enc.Tmin.val) / dt.val + 1 / 16 := by
  have h := fl_small (x := 1 + enc.Tmin.val) (t := dt.val) (by rw [abs_of_nonneg (by linarith)]; exact hb)
  obtain ⟨h1, h2⟩ := abs_le.mp h
  have e : (tsynFl + enc.Tmin).val = fl 53 (1 + enc.Tmin.val) := by rw [Fl.val_add, tsyn_val]
  have h3 : 0 ≤ fl 53 (1 + enc.Tmin.val) := (fl_pos (by linarith)).le
  rw [e]
  refine ⟨h3, ?_, ?_⟩
  · rw [sub_le_iff_le_add, div_add' _ _ _ hdt.ne']
    exact div_le_div_of_nonneg_right (by linarith) hdt.le
  · rw [div_add' _ _ _ hdt.ne']
    exact div_le_div_of_nonneg_right (by linarith) hdt.le

/-- The difference of two stamps `b * dt - a * dt`, in floats. -/
theorem stamp_diff {dt : Double} (hdt : 0 < dt.val) {a b : ℕ} (ha : a ≤ 2 ^ 49) (hb : b ≤ 2 ^ 49) (hab : a ≤ b) (h : (b : ℚ) - a ≤ 2 ^ 48) :
    |((b : Double) * dt - (a : Double) * dt).val - ((b : ℚ) - a) * dt.val| ≤ dt.val / 4 := by
  have ha' : (a : ℚ) ≤ 2 ^ 49 := by exact_mod_cast ha
  have hb' : (b : ℚ) ≤ 2 ^ 49 := by exact_mod_cast hb
  have hab' : (a : ℚ) * dt.val ≤ b * dt.val := mul_le_mul_of_nonneg_right (by exact_mod_cast hab) hdt.le
  have h' := mul_le_mul_of_nonneg_right h hdt.le
  have ra := abs_le.mp (fl_small (x := a * dt.val) (t := dt.val) (by rw [abs_of_nonneg (by positivity)]; exact mul_le_mul_of_nonneg_right ha' hdt.le))
  have rb := abs_le.mp (fl_small (x := b * dt.val) (t := dt.val) (by rw [abs_of_nonneg (by positivity)]; exact mul_le_mul_of_nonneg_right hb' hdt.le))
  rw [sub_mul] at h' ⊢
  rw [Fl.val_sub, tick_val (by omega), tick_val (by omega)]
  generalize fl 53 (a * dt.val) = A at *
  generalize fl 53 (b * dt.val) = B at *
  have r2 := abs_le.mp (fl_small (x := B - A) (t := dt.val) (by rw [abs_le]; constructor <;> linarith))
  rw [abs_le]
  constructor <;> linarith

theorem perm_rot {α : Type*} (x y z : α) : [x, y, z].Perm [y, z, x] := (List.perm_append_comm (l₁ := [x]) (l₂ := [y, z]))

set_option maxHeartbeats 4000000 in
/-- The logarithm in steps: the interval of the output is `Tmin + n * dt`, where `n` is the number of steps in which `(1 - dt/20)^n` decays to `v`. -/
theorem C109_log_steps (H : EventHeap Double) {ord : ℕ → List ℕ → List ℕ} (hord : SetOrder ord) {enc : Encoder Double} {dt : Double}
    (hdt : 0 < dt.val) (hdt1 : dt.val ≤ 1) (hC : 13 * dt.val ≤ enc.Tcod.val) (hmin : 1 + 12 * dt.val ≤ enc.Tmin.val) (hmax : enc.Tmax.val ≤ 2 ^ 24 * dt.val)
    (name : Option String) {v t0 T : Double} (hv1 : v.val * enc.Tcod.val + 7 * dt.val ≤ enc.Tcod.val) (ht : 0 ≤ t0.val)
    (ht' : t0.val ≤ 2 ^ 48 * dt.val) {M : ℕ} (hM : rhoQ dt ^ M ≤ v.val - 6 * dt.val / enc.Tcod.val) (hM' : M ≤ 2 ^ 24)
    (hT : t0.val + 2 * enc.Tmin.val + v.val * enc.Tcod.val + 3 + (M + 12) * dt.val ≤ T.val) :
    let p := (logFl enc name World.empty).1
    let w := (logFl enc name World.empty).2
    ∃ st, sessionFl H ord enc dt T w p.1 [.value v p.2.1 t0] = .ok st ∧
      ∃ (x y : Double) (n : ℕ), st.spikeLog p.2.2 = some [x, y] ∧ |(y - x).val - (enc.Tmin.val + n * dt.val)| ≤ 6 * dt.val ∧ 1 ≤ n ∧ n ≤ M ∧
        rhoQ dt ^ n ≤ v.val + 6 * dt.val / enc.Tcod.val ∧ v.val - 6 * dt.val / enc.Tcod.val < rhoQ dt ^ (n - 1) := by
  intro p w
  have hT0 : 0 ≤ enc.Tmin.val := by linarith
  have hC0 : 0 < enc.Tcod.val := by linarith
  have hr := rho_bounds hdt hdt1
  have hrp : 0 < rhoQ dt ^ M := pow_pos (by linarith [hr.1]) M
  have hvp : 6 * dt.val < v.val * enc.Tcod.val := by
    have : 6 * dt.val / enc.Tcod.val < v.val := by linarith
    rwa [div_lt_iff₀ hC0] at this
  have hv0 : 0 ≤ v.val := by
    by_contra hc
    push Not at hc
    have := mul_neg_of_neg_of_pos hc hC0
    linarith
  have hv1' : v.val ≤ 1 := by
    by_contra hc
    push Not at hc
    have : 1 * enc.Tcod.val ≤ v.val * enc.Tcod.val := mul_le_mul_of_nonneg_right hc.le hC0.le
    linarith
  obtain ⟨q, x, y, nn, m, pp, hq, hx, hy, hnn, hm, hpp, q1, x0, x1, nn1, mn, m0, p0, A4, A2, A1, A5⟩ := units (v := v) (t0 := t0) hdt hdt1 hC0 hT0 hmax hv0 hv1' ht ht'
  set τ := t0 + (enc.Tmin + v * enc.Tcod) with hτ
  obtain ⟨N, hN⟩ : ∃ N, N = enc.Tcod.val / dt.val := ⟨_, rfl⟩
  rw [← hN] at A5
  obtain ⟨A5a, A5b⟩ := abs_le.mp A5
  have u0 : ∀ a : ℚ, a / dt.val * dt.val = a := fun a => div_mul_cancel₀ _ hdt.ne'
  have mv : ∀ a b : ℚ, a * dt.val ≤ b * dt.val → a ≤ b := fun a b h => le_of_mul_le_mul_right h hdt
  have qm : q * dt.val = 1 := by rw [hq, u0]
  have xm : x * dt.val = t0.val := by rw [hx, u0]
  have Nm : N * dt.val = enc.Tcod.val := by rw [hN, u0]
  have mm : m * dt.val = enc.Tmin.val := by rw [hm, u0]
  have pm : pp * dt.val = v.val * enc.Tcod.val := by rw [hpp, u0]
  have B1 : q + 12 ≤ m := mv _ _ (by linarith)
  have B2 : 6 < pp := by
    by_contra hc
    push Not at hc
    have := mul_le_mul_of_nonneg_right hc hdt.le
    linarith
  have B3 : pp + 7 ≤ N := mv _ _ (by linarith)
  have B4 : 13 ≤ N := mv _ _ (by linarith)
  have vN : v.val = pp / N := by
    rw [eq_div_iff (by linarith), hpp, hN, mul_div_assoc]
  have eN : 6 * dt.val / enc.Tcod.val = 6 / N := by
    rw [hN, div_div_eq_mul_div]
  have G := waccBar_slope (enc := enc) hdt hC (by rw [← Nm]; refine mul_le_mul_of_nonneg_right (by linarith) hdt.le)
  rw [← hN] at G
  rw [eN] at hM ⊢
  rw [vN] at hM ⊢
  have hN0 : 0 < N := by linarith
  have d1 : (tsynFl : Double).val / dt.val = q := by rw [tsyn_val, hq]
  have d2 : (Fl.of 2 * tsynFl : Double).val / dt.val = 2 * q := by rw [two_tsyn, hq]; ring
  obtain ⟨dpos3, d3a, d3b⟩ := tsyn_tmin (enc := enc) (dt := dt) hdt hT0 (by
    rw [← qm, ← mm, ← add_mul]; exact mul_le_mul_of_nonneg_right (by linarith) hdt.le)
  have d3 : (1 + enc.Tmin.val) / dt.val = q + m := by rw [add_div, hq, hm]
  rw [d3] at d3a d3b
  obtain ⟨D3, hD3⟩ : ∃ D, D = (tsynFl + enc.Tmin).val / dt.val := ⟨_, rfl⟩
  rw [← hD3] at d3a d3b
  have big : (2 : ℚ) ^ 48 + 10 * 2 ^ 24 + 100 ≤ 2 ^ 49 := by norm_num
  have hM2 : (M : ℚ) ≤ 2 ^ 24 := by exact_mod_cast hM'
  have hqm : q ≤ 2 ^ 24 := by linarith
  have dpos : 0 ≤ (tsynFl : Double).val := by rw [tsyn_val]; norm_num
  have dpos2 : 0 ≤ (Fl.of 2 * tsynFl : Double).val := by rw [two_tsyn]; norm_num
  have τ0 : 0 ≤ τ.val := by
    have : 0 ≤ y * dt.val := mul_nonneg (by linarith) hdt.le
    rwa [hy, u0] at this
  -- the steps of all arrivals
  obtain ⟨a1, a1i, a1p, a1l, a1u⟩ := arrives_inj (τ := t0) (D := tsynFl) hdt ht dpos (by rw [d1, ← hx]; linarith)
  obtain ⟨b1, b1i, b1p, b1l, b1u⟩ := arrives_inj (τ := τ) (D := tsynFl) hdt τ0 dpos (by rw [d1, ← hy]; linarith)
  rw [d1, ← hx] at a1l a1u
  rw [d1, ← hy] at b1l b1u
  obtain ⟨c, ci, cj, cl, cu⟩ := arrives (j := a1) (D := tsynFl) hdt dpos (by rw [d1]; linarith)
  rw [d1] at cl cu
  obtain ⟨A, Ai, Aj, Al, Au⟩ := arrives (j := a1) (D := tsynFl + enc.Tmin) hdt dpos3 (by rw [← hD3]; linarith)
  rw [← hD3] at Al Au
  obtain ⟨B, Bi, Bj, Bl, Bu⟩ := arrives (j := b1) (D := tsynFl) hdt dpos (by rw [d1]; linarith)
  rw [d1] at Bl Bu
  obtain ⟨o1, o1i, o1j, o1l, o1u⟩ := arrives (j := b1) (D := Fl.of 2 * tsynFl) hdt dpos2 (by rw [d2]; linarith)
  rw [d2] at o1l o1u
  have lt_of : ∀ {a b : ℕ}, (a : ℚ) < b → a < b := fun h => by exact_mod_cast h
  have cb1 : c < b1 := lt_of (by linarith)
  have AB : A < B := lt_of (by linarith)
  have hX1 : ((B : ℚ) - A) / N ≤ pp / N + 11 / 2 / N := by rw [← add_div]; exact div_le_div_of_nonneg_right (by linarith) hN0.le
  have hX2 : pp / N - 11 / 2 / N ≤ ((B : ℚ) - A) / N := by rw [← sub_div]; exact div_le_div_of_nonneg_right (by linarith) hN0.le
  have eh : 1 / (2 * N) = 1 / 2 / N := by rw [div_div]
  have e6 : 6 / N = 11 / 2 / N + 1 / 2 / N := by rw [← add_div]; norm_num
  obtain ⟨k, g1, g2, g3, g4⟩ := log_fits (dt := dt) (w := enc.waccBarFl) (A := A) (B := B) (C := B) (n := N) (M := M)
    (hits := fun i => (if i = A then [(SynKind.ge, enc.waccBarFl)] else []) ++ (if i = B then [(SynKind.ge, -enc.waccBarFl)] else []) ++
      (if i = B then [(SynKind.gf, d50), (SynKind.gate, 1)] else []))
    hdt hdt1 G (by omega) AB le_rfl (by linarith) (by rw [eh]; linarith) hM' (fun _ => rfl)
  rw [eh] at g3 g4
  have hkM : (k : ℚ) + 1 ≤ M := by exact_mod_cast g2
  obtain ⟨o2, o2i, o2j, o2l, o2u⟩ := arrives (j := B + k) (D := tsynFl + enc.Tmin) hdt dpos3 (by rw [← hD3]; push_cast; linarith)
  rw [← hD3] at o2l o2u
  push_cast at o2l o2u
  have W1 : (o2 : ℚ) - o1 ≤ m + (k + 1) + 11 / 2 := by linarith
  have W2 : m + (k + 1) - 11 / 2 ≤ (o2 : ℚ) - o1 := by linarith
  have oo : o1 < o2 := lt_of (by linarith)
  have W3 : (o2 : ℚ) ≤ x + 2 * m + pp + 3 * q + M + 12 := by linarith
  have W4 : o2 ≤ 2 ^ 49 := by
    have : (o2 : ℚ) ≤ 2 ^ 49 := by linarith
    exact_mod_cast this
  have W5 : o2 ≤ numStepsFl T dt := by
    refine enough_steps (by omega) ?_
    rw [le_div_iff₀ hdt]
    have := mul_le_mul_of_nonneg_right W3 hdt.le
    linarith
  have hB2 : B + k ≤ o2 := o2j.le
  have I0 : (([(0, t0), (0, τ)] : List (ℕ × Double)).filter fun q => q.1 = 0) = [(0, t0), (0, τ)] := rfl
  obtain ⟨st, s1, s2⟩ := lib_run H hord (enc := enc) hdt (logFl_neurons enc name)
    (fun n hn => by interval_cases n <;> rfl) (by rw [logFl_net]; simp) (cs := [.value v 0 t0])
    (by simp only [List.mem_singleton, forall_eq, CallOK]; exact ⟨hv0, hv1'⟩)
    (Ls := [[], [a1], [b1], [B + k], [o1, o2]]) rfl (by simp [oo]) T (by simp; omega) (by
    intro n hn
    show FitsR stdFl dt (hitsR (w.net (List.range 5)) dt [(0, t0), (0, τ)] _ n) _
    interval_cases n
    · exact FitsR.silent fun i => hits_eq rfl i
    · refine FitsR.first (a := a1) (b := b1) (c := c) a1p cj cb1 fun i => ?_
      rw [hits_eq (l := [⟨0, 1, weFl, tsynFl, .V⟩, ⟨1, 1, wiFl, tsynFl, .V⟩]) rfl i]
      rw [List.flatMap_cons, List.flatMap_cons, List.flatMap_nil, contrib_inj2 I0 rfl a1i b1i (by omega), contrib_one rfl rfl ci, List.append_nil]
      by_cases e1 : i = a1 ∨ i = b1
      · rw [if_pos e1, if_pos e1, if_neg (by omega)]; rfl
      · rw [if_neg e1, if_neg e1]; rfl
    · refine FitsR.second (a := a1) (b := b1) a1p (by omega) fun i => ?_
      rw [hits_eq (l := [⟨0, 2, Fl.of (1 / 2) * weFl, tsynFl, .V⟩]) rfl i, half_we]
      rw [List.flatMap_cons, List.flatMap_nil, contrib_inj2 I0 rfl a1i b1i (by omega), List.append_nil]
    · refine g1.perm fun i => ?_
      rw [hits_eq (l := [⟨1, 3, enc.waccBarFl, tsynFl + enc.Tmin, .ge⟩, ⟨2, 3, Fl.of 1, tsynFl, .gate⟩, ⟨2, 3, -enc.waccBarFl, tsynFl, .ge⟩, ⟨2, 3, gmultFl, tsynFl, .gf⟩]) rfl i]
      rw [List.flatMap_cons, List.flatMap_cons, List.flatMap_cons, List.flatMap_cons, List.flatMap_nil, contrib_one rfl rfl Ai, contrib_one rfl rfl Bi, contrib_one rfl rfl Bi,
        contrib_one rfl rfl Bi, List.append_nil, List.append_assoc, gmult_d50, of_one]
      refine List.Perm.append_left _ ?_
      by_cases e1 : i = B
      · simp only [if_pos e1]; exact perm_rot _ _ _
      · simp only [if_neg e1]; exact List.Perm.refl _
    · refine FitsR.relay (by show 0 ∉ [o1, o2]; simp; omega) fun i => ?_
      rw [hits_eq (l := [⟨3, 4, weFl, tsynFl + enc.Tmin, .V⟩, ⟨2, 4, weFl, Fl.of 2 * tsynFl, .V⟩]) rfl i]
      rw [List.flatMap_cons, List.flatMap_cons, List.flatMap_nil, contrib_one rfl rfl o2i, contrib_one rfl rfl o1i, List.append_nil]
      show _ = if i ∈ [o1, o2] then _ else _
      by_cases e1 : i = o1
      · simp [e1, show o1 ≠ o2 by omega]
      · by_cases e2 : i = o2 <;> simp [e1, e2, show o2 ≠ o1 by omega])
  refine ⟨st, s1, (o1 : Double) * dt, (o2 : Double) * dt, k + 1, s2 4 (by norm_num), ?_, by omega, g2, by linarith, ?_⟩
  · have hs := stamp_diff (dt := dt) (a := o1) (b := o2) hdt (by omega) W4 oo.le (by linarith)
    rw [abs_le] at hs ⊢
    have W1' := mul_le_mul_of_nonneg_right W1 hdt.le
    have W2' := mul_le_mul_of_nonneg_right W2 hdt.le
    push_cast
    constructor <;> linarith
  · rw [Nat.add_sub_cancel]; linarith

/-- `rhoQ dt`, in the reals. -/
theorem rhoQ_real (dt : Double) : ((rhoQ dt : ℚ) : ℝ) = rho ((dt.val : ℚ) : ℝ) := by
  unfold rhoQ rho; push_cast; ring

/-- What is left after 306 ms is well above the rounding error. -/
theorem rho_low {dt : Double} (hdt : 0 < dt.val) (hdt1 : dt.val ≤ 1) {k : ℕ} (hk : (k : ℚ) * dt.val ≤ 306) : (1 : ℚ) / 2 ^ 26 ≤ rhoQ dt ^ k := by
  have h0 : (0 : ℝ) < ((dt.val : ℚ) : ℝ) := by exact_mod_cast hdt
  have h1 : ((dt.val : ℚ) : ℝ) ≤ 1 := by exact_mod_cast hdt1
  have hk' : (k : ℝ) * ((dt.val : ℚ) : ℝ) ≤ 306 := by exact_mod_cast hk
  have hl := (log_rho h0 (by linarith)).2
  have hp := rho_pos (dt := ((dt.val : ℚ) : ℝ)) (by linarith)
  have h2 : ((dt.val : ℚ) : ℝ) / (20 - ((dt.val : ℚ) : ℝ)) ≤ ((dt.val : ℚ) : ℝ) / 19 := div_le_div_of_nonneg_left h0.le (by norm_num) (by linarith)
  have h3 : -17 ≤ (k : ℝ) * Real.log (rho ((dt.val : ℚ) : ℝ)) := by
    have h4 : (k : ℝ) * -Real.log (rho ((dt.val : ℚ) : ℝ)) ≤ k * (((dt.val : ℚ) : ℝ) / 19) := mul_le_mul_of_nonneg_left (hl.trans h2) (Nat.cast_nonneg _)
    have h5 : (k : ℝ) * (((dt.val : ℚ) : ℝ) / 19) = k * ((dt.val : ℚ) : ℝ) / 19 := by ring
    rw [h5] at h4
    have h6 : (k : ℝ) * ((dt.val : ℚ) : ℝ) / 19 ≤ 306 / 19 := div_le_div_of_nonneg_right hk' (by norm_num)
    linarith
  have h7 : Real.exp (-17) ≤ (rho ((dt.val : ℚ) : ℝ)) ^ k := by
    rw [← Real.exp_log (pow_pos hp k), Real.exp_le_exp, Real.log_pow]; exact h3
  have h8 : (1 : ℝ) / 2 ^ 26 ≤ Real.exp (-17) := by
    rw [Real.exp_neg, one_div]
    refine inv_anti₀ (Real.exp_pos _) ?_
    have : Real.exp 17 = Real.exp 1 ^ 17 := by rw [← Real.exp_nat_mul]; norm_num
    rw [this]
    refine (pow_le_pow_left₀ (Real.exp_pos _).le Real.exp_one_lt_d9.le 17).trans ?_
    norm_num
  have h9 := h8.trans h7
  rw [← rhoQ_real] at h9
  have h10 : (((1 : ℚ) / 2 ^ 26 : ℚ) : ℝ) ≤ ((rhoQ dt ^ k : ℚ) : ℝ) := by push_cast; exact h9
  exact_mod_cast h10

set_option maxHeartbeats 4000000 in
/-- **C109 (exponential).** The exponential network in Python floats: the output carries `(1 - dt/20)^n`, where `n` is the input interval in steps
(`n * dt` is `v * Tcod` up to six steps), up to `8 * dt / Tcod`. -/
theorem C109_exponential (H : EventHeap Double) {ord : ℕ → List ℕ → List ℕ} (hord : SetOrder ord) {enc : Encoder Double} {dt : Double}
    (hdt : 0 < dt.val) (hdt1 : dt.val ≤ 1) (hC : 13 * dt.val ≤ enc.Tcod.val) (hC' : enc.Tcod.val ≤ 300) (hmin : 1 + 12 * dt.val ≤ enc.Tmin.val)
    (hmax : enc.Tmax.val ≤ 2 ^ 24 * dt.val) (name : Option String) {v t0 T : Double} (hv0 : 0 ≤ v.val) (hv1 : v.val ≤ 1) (ht : 0 ≤ t0.val)
    (ht' : t0.val ≤ 2 ^ 48 * dt.val) (hT : t0.val + 2 * enc.Tmin.val + (1 + v.val) * enc.Tcod.val + 3 + 14 * dt.val ≤ T.val) :
    let p := (exponentialFl enc name World.empty).1
    let w := (exponentialFl enc name World.empty).2
    ∃ st, sessionFl H ord enc dt T w p.1 [.value v p.2.1 t0] = .ok st ∧
      ∃ (x y : Double) (n : ℕ), st.spikeLog p.2.2 = some [x, y] ∧ |n * dt.val - v.val * enc.Tcod.val| ≤ 6 * dt.val ∧
        |(enc.decodeInterval (y - x)).val - rhoQ dt ^ n| ≤ 8 * dt.val / enc.Tcod.val := by
  intro p w
  have hT0 : 0 ≤ enc.Tmin.val := by linarith
  have hC0 : 0 < enc.Tcod.val := by linarith
  have hr := rho_bounds hdt hdt1
  obtain ⟨q, x, y, nn, m, pp, hq, hx, hy, hnn, hm, hpp, q1, x0, x1, nn1, mn, m0, p0, A4, A2, A1, A5⟩ := units (v := v) (t0 := t0) hdt hdt1 hC0 hT0 hmax hv0 hv1 ht ht'
  set τ := t0 + (enc.Tmin + v * enc.Tcod) with hτ
  obtain ⟨N, hN⟩ : ∃ N, N = enc.Tcod.val / dt.val := ⟨_, rfl⟩
  rw [← hN] at A5
  obtain ⟨A5a, A5b⟩ := abs_le.mp A5
  have u0 : ∀ a : ℚ, a / dt.val * dt.val = a := fun a => div_mul_cancel₀ _ hdt.ne'
  have mv : ∀ a b : ℚ, a * dt.val ≤ b * dt.val → a ≤ b := fun a b h => le_of_mul_le_mul_right h hdt
  have qm : q * dt.val = 1 := by rw [hq, u0]
  have xm : x * dt.val = t0.val := by rw [hx, u0]
  have Nm : N * dt.val = enc.Tcod.val := by rw [hN, u0]
  have mm : m * dt.val = enc.Tmin.val := by rw [hm, u0]
  have pm : pp * dt.val = v.val * enc.Tcod.val := by rw [hpp, u0]
  have B1 : q + 12 ≤ m := mv _ _ (by linarith)
  have B3 : pp ≤ N := mv _ _ (by
    rw [pm, Nm]; exact mul_le_of_le_one_left hC0.le hv1)
  have B4 : 13 ≤ N := mv _ _ (by linarith)
  have G := waccBar_slope (enc := enc) hdt hC (by rw [← Nm]; refine mul_le_mul_of_nonneg_right (by linarith) hdt.le)
  rw [← hN] at G
  have hN0 : 0 < N := by linarith
  have d1 : (tsynFl : Double).val / dt.val = q := by rw [tsyn_val, hq]
  have d2 : (Fl.of 2 * tsynFl : Double).val / dt.val = 2 * q := by rw [two_tsyn, hq]; ring
  obtain ⟨dpos3, d3a, d3b⟩ := tsyn_tmin (enc := enc) (dt := dt) hdt hT0 (by
    rw [← qm, ← mm, ← add_mul]; exact mul_le_mul_of_nonneg_right (by linarith) hdt.le)
  have d3 : (1 + enc.Tmin.val) / dt.val = q + m := by rw [add_div, hq, hm]
  rw [d3] at d3a d3b
  obtain ⟨D3, hD3⟩ : ∃ D, D = (tsynFl + enc.Tmin).val / dt.val := ⟨_, rfl⟩
  rw [← hD3] at d3a d3b
  have big : (2 : ℚ) ^ 48 + 10 * 2 ^ 24 + 100 ≤ 2 ^ 49 := by norm_num
  have hqm : q ≤ 2 ^ 24 := by linarith
  have dpos : 0 ≤ (tsynFl : Double).val := by rw [tsyn_val]; norm_num
  have dpos2 : 0 ≤ (Fl.of 2 * tsynFl : Double).val := by rw [two_tsyn]; norm_num
  have τ0 : 0 ≤ τ.val := by
    have : 0 ≤ y * dt.val := mul_nonneg (by linarith) hdt.le
    rwa [hy, u0] at this
  obtain ⟨a1, a1i, a1p, a1l, a1u⟩ := arrives_inj (τ := t0) (D := tsynFl) hdt ht dpos (by rw [d1, ← hx]; linarith)
  obtain ⟨b1, b1i, b1p, b1l, b1u⟩ := arrives_inj (τ := τ) (D := tsynFl) hdt τ0 dpos (by rw [d1, ← hy]; linarith)
  rw [d1, ← hx] at a1l a1u
  rw [d1, ← hy] at b1l b1u
  obtain ⟨c, ci, cj, cl, cu⟩ := arrives (j := a1) (D := tsynFl) hdt dpos (by rw [d1]; linarith)
  rw [d1] at cl cu
  obtain ⟨A, Ai, Aj, Al, Au⟩ := arrives (j := a1) (D := tsynFl + enc.Tmin) hdt dpos3 (by rw [← hD3]; linarith)
  rw [← hD3] at Al Au
  obtain ⟨B, Bi, Bj, Bl, Bu⟩ := arrives (j := b1) (D := tsynFl) hdt dpos (by rw [d1]; linarith)
  rw [d1] at Bl Bu
  obtain ⟨o1, o1i, o1j, o1l, o1u⟩ := arrives (j := b1) (D := Fl.of 2 * tsynFl) hdt dpos2 (by rw [d2]; linarith)
  rw [d2] at o1l o1u
  have lt_of : ∀ {a b : ℕ}, (a : ℚ) < b → a < b := fun h => by exact_mod_cast h
  have cb1 : c < b1 := lt_of (by linarith)
  have C1 : (B : ℚ) - A ≤ pp + 11 / 2 := by linarith
  have C2 : pp - 11 / 2 ≤ (B : ℚ) - A := by linarith
  have C3 : |((B - A : ℕ) : ℚ) - pp| ≤ 11 / 2 := by
    rcases Nat.le_total A B with h | h
    · rw [Nat.cast_sub h, abs_le]; constructor <;> linarith
    · have : (B : ℚ) ≤ A := by exact_mod_cast h
      rw [Nat.sub_eq_zero_of_le h, Nat.cast_zero, abs_le]; constructor <;> linarith
  obtain ⟨C3a, C3b⟩ := abs_le.mp C3
  have hk24 : B - A ≤ 2 ^ 24 := by
    have : ((B - A : ℕ) : ℚ) ≤ 2 ^ 24 := by linarith
    exact_mod_cast this
  have hlow : 7 * ((B - A : ℕ) : ℚ) * uu ≤ rhoQ dt ^ (B - A) := by
    refine le_trans ?_ (rho_low hdt hdt1 (k := B - A) ?_)
    · have : ((B - A : ℕ) : ℚ) ≤ 2 ^ 24 := by exact_mod_cast hk24
      have := mul_le_mul_of_nonneg_right (mul_le_mul_of_nonneg_left this (show (0 : ℚ) ≤ 7 by norm_num)) (show (0 : ℚ) ≤ uu by unfold uu; positivity)
      refine this.trans ?_
      unfold uu; norm_num
    · have := mul_le_mul_of_nonneg_right (show ((B - A : ℕ) : ℚ) ≤ N + 6 by linarith) hdt.le
      linarith
  obtain ⟨k, g1, g2, g3⟩ := exp_any (dt := dt) (w := enc.waccBarFl) (A := A) (B := B) (n := N)
    (hits := fun i => (if i = A then [(SynKind.gf, d50), (SynKind.gate, 1)] else []) ++ (if i = B then [(SynKind.gate, -1), (SynKind.ge, enc.waccBarFl)] else []))
    hdt hdt1 G (by omega) (by omega) hk24 (by linarith) hlow (fun _ => rfl)
  obtain ⟨r, hr'⟩ : ∃ r, r = rhoQ dt ^ (B - A) := ⟨_, rfl⟩
  rw [← hr'] at g2 g3
  have r0 : 0 ≤ r := by rw [hr']; exact pow_nonneg (by linarith [hr.1]) _
  have r1 : r ≤ 1 := by rw [hr']; exact pow_le_one₀ (by linarith [hr.1]) (by linarith [hr.2])
  have rN : N * r ≤ N := mul_le_of_le_one_right hN0.le r1
  have rN0 : 0 ≤ N * r := mul_nonneg hN0.le r0
  obtain ⟨o2, o2i, o2j, o2l, o2u⟩ := arrives (j := B + k) (D := tsynFl + enc.Tmin) hdt dpos3 (by rw [← hD3]; push_cast; linarith)
  rw [← hD3] at o2l o2u
  push_cast at o2l o2u
  have W1 : (o2 : ℚ) - o1 ≤ m + N * r + 7 := by linarith
  have W2 : m + N * r - 7 ≤ (o2 : ℚ) - o1 := by linarith
  have oo : o1 < o2 := lt_of (by linarith)
  have W3 : (o2 : ℚ) ≤ x + 2 * m + pp + N + 3 * q + 14 := by linarith
  have W4 : o2 ≤ 2 ^ 49 := by
    have : (o2 : ℚ) ≤ 2 ^ 49 := by linarith
    exact_mod_cast this
  have W5 : o2 ≤ numStepsFl T dt := by
    refine enough_steps (by omega) ?_
    rw [le_div_iff₀ hdt]
    have := mul_le_mul_of_nonneg_right W3 hdt.le
    linarith
  have hB2 : B + k ≤ o2 := o2j.le
  have I0 : (([(0, t0), (0, τ)] : List (ℕ × Double)).filter fun q => q.1 = 0) = [(0, t0), (0, τ)] := rfl
  obtain ⟨st, s1, s2⟩ := lib_run H hord (enc := enc) hdt (expFl_neurons enc name)
    (fun n hn => by interval_cases n <;> rfl) (by rw [expFl_net]; simp) (cs := [.value v 0 t0])
    (by simp only [List.mem_singleton, forall_eq, CallOK]; exact ⟨hv0, hv1⟩)
    (Ls := [[], [a1], [b1], [B + k], [o1, o2]]) rfl (by simp [oo]) T (by simp; omega) (by
    intro n hn
    show FitsR stdFl dt (hitsR (w.net (List.range 5)) dt [(0, t0), (0, τ)] _ n) _
    interval_cases n
    · exact FitsR.silent fun i => hits_eq rfl i
    · refine FitsR.first (a := a1) (b := b1) (c := c) a1p cj cb1 fun i => ?_
      rw [hits_eq (l := [⟨0, 1, weFl, tsynFl, .V⟩, ⟨1, 1, wiFl, tsynFl, .V⟩]) rfl i]
      rw [List.flatMap_cons, List.flatMap_cons, List.flatMap_nil, contrib_inj2 I0 rfl a1i b1i (by omega), contrib_one rfl rfl ci, List.append_nil]
      by_cases e1 : i = a1 ∨ i = b1
      · rw [if_pos e1, if_pos e1, if_neg (by omega)]; rfl
      · rw [if_neg e1, if_neg e1]; rfl
    · refine FitsR.second (a := a1) (b := b1) a1p (by omega) fun i => ?_
      rw [hits_eq (l := [⟨0, 2, Fl.of (1 / 2) * weFl, tsynFl, .V⟩]) rfl i, half_we]
      rw [List.flatMap_cons, List.flatMap_nil, contrib_inj2 I0 rfl a1i b1i (by omega), List.append_nil]
    · refine g1.perm fun i => ?_
      rw [hits_eq (l := [⟨1, 3, gmultFl, tsynFl + enc.Tmin, .gf⟩, ⟨1, 3, Fl.of 1, tsynFl + enc.Tmin, .gate⟩, ⟨2, 3, -Fl.of 1, tsynFl, .gate⟩, ⟨2, 3, enc.waccBarFl, tsynFl, .ge⟩]) rfl i]
      rw [List.flatMap_cons, List.flatMap_cons, List.flatMap_cons, List.flatMap_cons, List.flatMap_nil, contrib_one rfl rfl Ai, contrib_one rfl rfl Ai, contrib_one rfl rfl Bi,
        contrib_one rfl rfl Bi, List.append_nil, gmult_d50, of_one]
      by_cases e1 : i = A
      · by_cases e2 : i = B
        · simp only [if_pos e1, if_pos e2]; exact List.Perm.refl _
        · simp only [if_pos e1, if_neg e2]; exact List.Perm.refl _
      · by_cases e2 : i = B
        · simp only [if_neg e1, if_pos e2]; exact List.Perm.refl _
        · simp only [if_neg e1, if_neg e2]; exact List.Perm.refl _
    · refine FitsR.relay (by show 0 ∉ [o1, o2]; simp; omega) fun i => ?_
      rw [hits_eq (l := [⟨3, 4, weFl, tsynFl + enc.Tmin, .V⟩, ⟨2, 4, weFl, Fl.of 2 * tsynFl, .V⟩]) rfl i]
      rw [List.flatMap_cons, List.flatMap_cons, List.flatMap_nil, contrib_one rfl rfl o2i, contrib_one rfl rfl o1i, List.append_nil]
      show _ = if i ∈ [o1, o2] then _ else _
      by_cases e1 : i = o1
      · simp [e1, show o1 ≠ o2 by omega]
      · by_cases e2 : i = o2 <;> simp [e1, e2, show o2 ≠ o1 by omega])
  have rT : r * enc.Tcod.val = N * r * dt.val := by rw [← Nm]; ring
  have Nd := mul_le_mul_of_nonneg_right rN hdt.le
  have N24 := mul_le_mul_of_nonneg_right (show N ≤ 2 ^ 24 by linarith) hdt.le
  have hd := decoded (e := enc) (dt := dt) (v := r) (a := o1) (b := o2) (δ := 7) hT0 hC0 hmax hdt
    (by have := mul_nonneg r0 hC0.le; have : (0 : ℚ) ≤ 2 ^ 24 * dt.val := by positivity
        linarith) (by rw [rT]; linarith) (by omega) W4 (by norm_num) (by
      rw [rT, ← mm, ← add_mul, ← sub_mul, abs_mul, abs_of_pos hdt]
      refine mul_le_mul_of_nonneg_right ?_ hdt.le
      rw [abs_le]; constructor <;> linarith)
  refine ⟨st, s1, (o1 : Double) * dt, (o2 : Double) * dt, B - A, s2 4 (by norm_num), ?_, ?_⟩
  · rw [← pm, ← sub_mul, abs_mul, abs_of_pos hdt]
    exact mul_le_mul_of_nonneg_right (by rw [abs_le]; constructor <;> linarith) hdt.le
  · rw [← hr']
    exact hd.trans (div_le_div_of_nonneg_right (by linarith) hC0.le)

end Axon
