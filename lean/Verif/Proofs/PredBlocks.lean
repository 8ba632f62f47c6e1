import Verif.Props.PredMul

/-! # Networks inside larger networks, in the predictive simulator -/
set_option linter.unusedSectionVars false
namespace Axon
open Spec

section
variable {K : Type*} [Field K] [LinearOrder K] [IsStrictOrderedRing K] [FloorRing K]

theorem Spec.Reacts.move {E E' : PEnv K} {n n' : ℕ} (h1 : E'.exp = E.exp) (h2 : E'.dt = E.dt) (h3 : E'.net.par n' = E.net.par n) {s l vs L}
    (h : Reacts E' n' s l vs L) : Reacts E n s l vs L := by
  induction h with
  | done => exact .done
  | quiet a b c _ ih => rw [h1, h3] at a; rw [h1, h2, h3] at b; rw [h2] at c; exact .quiet a b c ih
  | fires a b c _ ih => rw [h1, h3] at a; rw [h1, h2, h3] at b; rw [h2] at c; rw [h3] at ih; rw [h2]; exact .fires a b c ih

/-- A neuron that receives the same in two networks does the same. -/
theorem Fits.move {E E' : PEnv K} {n n' : ℕ} {inj inj' : List (ℕ × K)} {LS LS' : ℕ → List K} (h1 : E'.exp = E.exp) (h2 : E'.dt = E.dt)
    (h3 : E'.net.par n' = E.net.par n) (hL : LS' n' = LS n) (ha : (arriving E'.net inj' LS' n').Perm (arriving E.net inj LS n))
    (h : Fits E' inj' LS' n') : Fits E inj LS n := by
  obtain ⟨vs, a, b, c, d⟩ := h
  exact ⟨vs, a, b, c.trans ha, hL ▸ d.move h1 h2 h3⟩

/-- The environment with only the synapses `syns`. -/
def PEnv.only (E : PEnv K) (syns : List (Synapse K)) : PEnv K := { E with net := { E.net with par := fun _ => stdPar, syns := syns } }

end

/-- As `arr_tac`, unfolding the definition `f` of the trains. -/
macro "arr_tac2" h:term:max f:ident : tactic => `(tactic| (simp [arriving, $h:term, $f:ident, predSpikes, Volley.items, stdPar] <;> try arr_finish))

/-- The synapses of the multiplier, in the order they are made. -/
noncomputable def pmulSyns (enc : Encoder ℝ) : List (Synapse ℝ) :=
    [⟨0, 2, 10, 1, .V⟩, ⟨0, 3, 1 / 2 * 10, 1, .V⟩, ⟨2, 2, -10, 1, .V⟩, ⟨2, 4, enc.waccBar, 1 + enc.Tmin, .ge⟩, ⟨3, 4, -enc.waccBar, 1, .ge⟩,
     ⟨3, 9, 1 / 2 * 10, 1, .V⟩, ⟨1, 6, 10, 1, .V⟩, ⟨1, 7, 1 / 2 * 10, 1, .V⟩, ⟨6, 6, -10, 1, .V⟩, ⟨6, 8, enc.waccBar, 1 + enc.Tmin, .ge⟩,
     ⟨7, 8, -enc.waccBar, 1, .ge⟩, ⟨7, 9, 1 / 2 * 10, 1, .V⟩, ⟨4, 8, 10 * 100 / 20, 1, .gf⟩, ⟨4, 8, 1, 1, .gate⟩, ⟨8, 10, -1, 1, .gate⟩,
     ⟨8, 10, enc.waccBar, 1, .ge⟩, ⟨8, 11, 10, 2 * 1, .V⟩, ⟨9, 4, 10 * 100 / 20, 1, .gf⟩, ⟨9, 4, 1, 1, .gate⟩, ⟨9, 10, 1, 3 * 1, .gate⟩,
     ⟨9, 10, 10 * 100 / 20, 3 * 1, .gf⟩, ⟨10, 11, 10, enc.Tmin + 1, .V⟩, ⟨0, 5, 10 / 4, 350, .V⟩, ⟨1, 5, 10 / 4, 350, .V⟩,
     ⟨11, 5, -10 / 2, 1, .V⟩, ⟨5, 11, 10, 1, .V⟩, ⟨5, 11, 10, 1 + enc.Tmin, .V⟩]

/-- The trains of a multiplier whose inputs spike at `a1, b1` and `a2, b2`; the missing ones are parameters. -/
def mulLS (a1 b1 a2 b2 M : ℝ) (L4 L5 L8 L10 L11 : List ℝ) (x : ℕ) : List ℝ :=
  [[a1, b1], [a2, b2], [a1 + 1], [b1 + 1], L4, L5, [a2 + 1], [b2 + 1], L8, [M + 2], L10, L11].getD x []

variable {E : PEnv ℝ} {enc : Encoder ℝ} {a1 b1 a2 b2 M v1 v2 : ℝ}

set_option maxHeartbeats 1000000 in
theorem mul_front (h1 : 1 ≤ enc.Tmin) (h2 : 0 < enc.Tcod) (hs : Sane E.exp E.dt) (e3 : E.net.syns = pmulSyns enc) (e4 : ∀ x < 12, E.net.par x = stdPar)
    (hv1 : 0 ≤ v1) (hv2 : 0 ≤ v2) (hb1 : b1 = a1 + enc.Tmin + v1 * enc.Tcod) (hb2 : b2 = a2 + enc.Tmin + v2 * enc.Tcod) (hM : M = max b1 b2)
    (L4 L5 L8 L10 L11 : List ℝ) (x : ℕ) (hx : x ∈ [0, 1, 2, 3, 6, 7, 9]) :
    Fits E [(0, a1), (0, b1), (1, a2), (1, b2)] (mulLS a1 b1 a2 b2 M L4 L5 L8 L10 L11) x := by
  have hI1 := mul_nonneg hv1 h2.le
  have hI2 := mul_nonneg hv2 h2.le
  have g1 : a1 + 1 ≤ b1 := by linarith
  have g2 : a2 + 1 ≤ b2 := by linarith
  clear hb1 hb2
  unfold pmulSyns at e3
  simp only [List.mem_cons, List.not_mem_nil, or_false] at hx
  have hp := e4 x (by omega)
  rcases hx with rfl | rfl | rfl | rfl | rfl | rfl | rfl
  · exact Fits.pair hp hs (a := a1) (b := b1) (by linarith) (by simp [arriving, e3, e4, stdPar, mulLS]) rfl
  · exact Fits.pair hp hs (a := a2) (b := b2) (by linarith) (by simp [arriving, e3, e4, stdPar, mulLS]) rfl
  · exact Fits.first hp hs (a := a1 + 1) (b := b1 + 1) (by linarith) (by arr_tac2 e3 mulLS) rfl
  · exact Fits.last hp hs (a := a1 + 1) (b := b1 + 1) (by linarith) (by arr_tac2 e3 mulLS) rfl
  · exact Fits.first hp hs (a := a2 + 1) (b := b2 + 1) (by linarith) (by arr_tac2 e3 mulLS) rfl
  · exact Fits.last hp hs (a := a2 + 1) (b := b2 + 1) (by linarith) (by arr_tac2 e3 mulLS) rfl
  · obtain ⟨lo, u1, u2⟩ : ∃ lo, lo < a1 ∧ lo < a2 := ⟨min a1 a2 - 1, by linarith [min_le_left a1 a2], by linarith [min_le_right a1 a2]⟩
    refine Fits.sums hp hs [(b1 + 2, 5), (b2 + 2, 5)] lo ?_ (by arr_tac2 e3 mulLS) ?_
    · simp; constructor <;> linarith
    · show VOK _ _ [M + 2]
      rw [hM]
      rcases le_total b1 b2 with h | h
      · rw [max_eq_right h]; vok_tac
      · rw [max_eq_left h]; vok_tac

set_option maxHeartbeats 4000000 in
/-- A multiplier whose inputs spike at `a1, b1` and `a2, b2`. -/
theorem mul_fits (hexp : E.exp = Real.exp) (h1 : 1 ≤ enc.Tmin) (h2 : 0 < enc.Tcod) (hs : Sane E.exp E.dt) (e3 : E.net.syns = pmulSyns enc) (e4 : ∀ x < 12, E.net.par x = stdPar)
    (hv1 : 0 < v1 ∧ v1 < 1) (hv2 : 0 < v2 ∧ v2 < 1) (hb1 : b1 = a1 + enc.Tmin + v1 * enc.Tcod) (hb2 : b2 = a2 + enc.Tmin + v2 * enc.Tcod) (hM : M = max b1 b2)
    (h5 : -20 * Real.log v1 + -20 * Real.log v2 + 2 * E.dt ≤ 343) (h6 : enc.Tcod + 2 * E.dt ≤ 500) {D1 D2 D3 : ℝ}
    (hD1 : D1 = up E.dt (-20 * Real.log v1)) (hD2 : D2 = up E.dt (-20 * Real.log v2)) (hD3 : D3 = up E.dt (enc.Tcod * Real.exp (-(D1 + D2) / 20))) (x : ℕ) (hx : x < 12) :
    Fits E [(0, a1), (0, b1), (1, a2), (1, b2)] (mulLS a1 b1 a2 b2 M [M + 3 + D1] [] [M + 4 + D1 + D2] [M + 5 + D1 + D2 + D3] [M + 6 + D1 + D2, M + 6 + D1 + D2 + enc.Tmin + D3]) x := by
  by_cases hx3 : x ∈ [0, 1, 2, 3, 6, 7, 9]
  · exact mul_front h1 h2 hs e3 e4 hv1.1.le hv2.1.le hb1 hb2 hM _ _ _ _ _ x hx3
  have hx3' : x = 4 ∨ x = 5 ∨ x = 8 ∨ x = 10 ∨ x = 11 := by
    simp only [List.mem_cons, List.not_mem_nil, or_false, not_or] at hx3; omega
  have hdt := hs.pos
  have hI1 := mul_pos hv1.1 h2
  have hI2 := mul_pos hv2.1 h2
  have l1 : 0 ≤ -20 * Real.log v1 := by have := Real.log_nonpos hv1.1.le hv1.2.le; linarith
  have l2 : 0 ≤ -20 * Real.log v2 := by have := Real.log_nonpos hv2.1.le hv2.2.le; linarith
  have q1 := le_up hdt (-20 * Real.log v1)
  have q2 := up_lt hdt (-20 * Real.log v1)
  have r1 := le_up hdt (-20 * Real.log v2)
  have r2 := up_lt hdt (-20 * Real.log v2)
  rw [← hD1] at q1 q2
  rw [← hD2] at r1 r2
  have hm1 : b1 ≤ M := by rw [hM]; exact le_max_left _ _
  have hm2 : b2 ≤ M := by rw [hM]; exact le_max_right _ _
  have c1 := le_up hdt (enc.Tcod * Real.exp (-(D1 + D2) / 20))
  rw [← hD3] at c1
  have he := Real.exp_pos (-(D1 + D2) / 20)
  have c0 : 0 < enc.Tcod * Real.exp (-(D1 + D2) / 20) := by positivity
  have g1 : a1 + 1 ≤ b1 := by linarith
  have g2 : a2 + 1 ≤ b2 := by linarith
  unfold pmulSyns at e3
  have hp := e4 x hx
  rcases hx3' with rfl | rfl | rfl | rfl | rfl
  · exact Fits.log hp hexp hs (a := a1 + enc.Tmin + 2) (b := b1 + 2) (c := M + 3) h2 (waccBar_mul h2) hv1.1 hv1.2 (by linarith) (by linarith)
        (by linarith) (by arr_tac2 e3 mulLS) (by rw [← hD1]; rfl)
  · obtain ⟨lo, u1, u2⟩ : ∃ lo, lo < a1 ∧ lo < a2 := ⟨min a1 a2 - 1, by linarith [min_le_left a1 a2], by linarith [min_le_right a1 a2]⟩
    refine Fits.sums hp hs [(a1 + 350, 5 / 2), (b1 + 350, 5 / 2), (a2 + 350, 5 / 2), (b2 + 350, 5 / 2),
        (M + 7 + D1 + D2, -5), (M + 7 + D1 + D2 + enc.Tmin + D3, -5)] lo ?_ (by arr_tac2 e3 mulLS) ?_
    · simp; refine ⟨?_, ?_, ?_, ?_, ?_, ?_⟩ <;> linarith
    · show VOK _ _ []
      have hlt : M + 7 + D1 + D2 < M + 350 := by linarith
      rcases max_choice b1 b2 with h | h
      · rw [← hM] at h
        clear hD1 hD2 hD3 hb1 hb2 hM
        subst h; vok_tac
      · rw [← hM] at h
        clear hD1 hD2 hD3 hb1 hb2 hM
        subst h; vok_tac
  · exact Fits.log hp hexp hs (a := a2 + enc.Tmin + 2) (b := b2 + 2) (c := M + 4 + D1) h2 (waccBar_mul h2) hv2.1 hv2.2 (by linarith) (by linarith)
        (by linarith) (by arr_tac2 e3 mulLS) (by rw [← hD2]; rfl)
  · refine Fits.exp hp hexp hs (a := M + 5) (b := M + 5 + D1 + D2) h2 (waccBar_mul h2) (by linarith) h6 (by arr_tac2 e3 mulLS) ?_
    rw [show M + 5 + D1 + D2 - (M + 5) = D1 + D2 by ring, ← hD3]; rfl
  · exact Fits.pair hp hs (a := M + 6 + D1 + D2) (b := M + 6 + D1 + D2 + enc.Tmin + D3) (by linarith) (by arr_tac2 e3 mulLS) rfl

/-- When the first accumulator of a multiplier whose first factor is `v1` spikes. -/
noncomputable def mulZeroL4 (dt M v1 : ℝ) : List ℝ := if 0 < v1 then [M + 3 + up dt (-20 * Real.log v1)] else []

set_option maxHeartbeats 4000000 in
/-- A multiplier one of whose inputs is zero. -/
theorem mul_fits_zero (hexp : E.exp = Real.exp) (h1 : 1 ≤ enc.Tmin) (h2 : 0 < enc.Tcod) (hs : Sane E.exp E.dt) (e3 : E.net.syns = pmulSyns enc) (e4 : ∀ x < 12, E.net.par x = stdPar)
    (hv1 : 0 ≤ v1 ∧ v1 < 1) (hv2 : 0 ≤ v2 ∧ v2 < 1) (h0 : v1 * v2 = 0) (hb1 : b1 = a1 + enc.Tmin + v1 * enc.Tcod) (hb2 : b2 = a2 + enc.Tmin + v2 * enc.Tcod) (hM : M = max b1 b2)
    (h7 : 0 < v1 → -20 * Real.log v1 + 2 * E.dt ≤ 500) (x : ℕ) (hx : x < 12) :
    Fits E [(0, a1), (0, b1), (1, a2), (1, b2)] (mulLS a1 b1 a2 b2 M (mulZeroL4 E.dt M v1) [M + 350] [] [] [M + 351, M + 351 + enc.Tmin]) x := by
  by_cases hx3 : x ∈ [0, 1, 2, 3, 6, 7, 9]
  · exact mul_front h1 h2 hs e3 e4 hv1.1 hv2.1 hb1 hb2 hM _ _ _ _ _ x hx3
  have hx3' : x = 4 ∨ x = 5 ∨ x = 8 ∨ x = 10 ∨ x = 11 := by
    simp only [List.mem_cons, List.not_mem_nil, or_false, not_or] at hx3; omega
  have hdt := hs.pos
  have hI1 := mul_nonneg hv1.1 h2.le
  have hI2 := mul_nonneg hv2.1 h2.le
  have hm1 : b1 ≤ M := by rw [hM]; exact le_max_left _ _
  have hm2 : b2 ≤ M := by rw [hM]; exact le_max_right _ _
  have g1 : a1 + 1 ≤ b1 := by linarith
  have g2 : a2 + 1 ≤ b2 := by linarith
  have hW0 : 0 < enc.waccBar := by have := waccBar_mul h2; by_contra h; nlinarith
  have hWx := waccBar_mul h2
  unfold pmulSyns at e3
  have hp := e4 x hx
  have hL4 : ∀ p : 0 < v1, mulZeroL4 E.dt M v1 = [M + 3 + up E.dt (-20 * Real.log v1)] := fun p => if_pos p
  have hL4' : ¬ 0 < v1 → mulZeroL4 E.dt M v1 = [] := fun p => if_neg p
  rcases hx3' with rfl | rfl | rfl | rfl | rfl
  · by_cases hp1 : 0 < v1
    · rw [hL4 hp1]
      exact Fits.log hp hexp hs (a := a1 + enc.Tmin + 2) (b := b1 + 2) (c := M + 3) h2 (waccBar_mul h2) hp1 hv1.2 (by linarith) (by linarith)
        (h7 hp1) (by arr_tac2 e3 mulLS) rfl
    · rw [hL4' hp1]
      have hz : v1 = 0 := le_antisymm (not_lt.mp hp1) hv1.1
      have hb : b1 = a1 + enc.Tmin := by rw [hb1, hz]; ring
      exact Fits.log_zero hp hexp hs (a := a1 + enc.Tmin + 2) (c := M + 3) (W := enc.waccBar) (by linarith)
        (by subst hb; arr_tac2 e3 mulLS) rfl
  · obtain ⟨lo, u1, u2⟩ : ∃ lo, lo < a1 ∧ lo < a2 := ⟨min a1 a2 - 1, by linarith [min_le_left a1 a2], by linarith [min_le_right a1 a2]⟩
    refine Fits.sums hp hs [(a1 + 350, 5 / 2), (b1 + 350, 5 / 2), (a2 + 350, 5 / 2), (b2 + 350, 5 / 2),
        (M + 352, -5), (M + 352 + enc.Tmin, -5)] lo ?_ (by arr_tac2 e3 mulLS) ?_
    · simp; refine ⟨?_, ?_, ?_, ?_, ?_, ?_⟩ <;> linarith
    · show VOK _ _ [M + 350]
      rcases max_choice b1 b2 with h | h
      · rw [← hM] at h
        clear hb1 hb2 hM
        subst h; vok_tac
      · rw [← hM] at h
        clear hb1 hb2 hM
        subst h; vok_tac
  · by_cases hp1 : 0 < v1
    · rw [hL4 hp1]
      have hz2 : v2 = 0 := by rcases mul_eq_zero.mp h0 with h | h <;> linarith
      have hb : b2 = a2 + enc.Tmin := by rw [hb2, hz2]; ring
      have l1 : 0 ≤ -20 * Real.log v1 := by have := Real.log_nonpos hp1.le hv1.2.le; linarith
      have q1 := le_up hdt (-20 * Real.log v1)
      exact Fits.log_zero hp hexp hs (a := a2 + enc.Tmin + 2) (c := M + 4 + up E.dt (-20 * Real.log v1)) (W := enc.waccBar) (by linarith)
        (by subst hb; arr_tac2 e3 mulLS) rfl
    · rw [hL4' hp1]
      have hV : enc.waccBar / 100 * (v2 * enc.Tcod) < 10 := by
        have : enc.waccBar / 100 * (v2 * enc.Tcod) = 10 * v2 := by linear_combination v2 * hWx / 100
        linarith [hv2.2]
      rcases hv2.1.lt_or_eq with hp2 | hz2
      · have hI := mul_pos hp2 h2
        refine Fits.of [⟨a2 + enc.Tmin + 2, [(.ge, enc.waccBar)]⟩, ⟨b2 + 2, [(.ge, -enc.waccBar)]⟩] (by simp; linarith) (by simp) (by arr_tac2 e3 mulLS) ?_
        have hd : b2 + 2 - (a2 + enc.Tmin + 2) = v2 * enc.Tcod := by rw [hb2]; ring
        refine quiet_next hp hs.pos hs.steps (V' := 0) (ge' := enc.waccBar) (by simp [bumps, bump]) hW0.le ?_ ?_
        · simp only
          rw [zero_add, hd]; exact hV
        · refine quiet_never hp hs.pos hs.steps (V' := enc.waccBar / 100 * (v2 * enc.Tcod)) (ge' := 0) ?_ hV le_rfl Reacts.done
          rw [zero_add, hd]
          simp [bumps, bump]
      · have hb : b2 = a2 + enc.Tmin := by rw [hb2, ← hz2]; ring
        refine Fits.of [⟨a2 + enc.Tmin + 2, [(.ge, enc.waccBar), (.ge, -enc.waccBar)]⟩] (by simp) (by simp) (by subst hb; arr_tac2 e3 mulLS) ?_
        exact quiet_never hp hs.pos hs.steps (V' := 0) (ge' := 0) (by simp [bumps, bump]) (by norm_num) le_rfl Reacts.done
  · refine Fits.of [⟨M + 5, [(.gf, 50), (.gate, 1)]⟩] (by simp) (by simp) (by arr_tac2 e3 mulLS) ?_
    have hnone : predictSteps E.exp (E.net.par 10) (gated 0 50) E.dt = .ok Option.none := by
      refine predict_never hp hs.pos hs.steps fun d _ => ?_
      rw [hexp, expected_gated]
      have := Real.exp_pos (-d / 20)
      linarith
    exact Reacts.quiet (s' := gated 0 50) (v := ⟨M + 5, [(.gf, 50), (.gate, 1)]⟩) (by rw [pass_lin hp]; simp [bumps, bump]) hnone (by simp) Reacts.done
  · exact Fits.pair hp hs (a := M + 351) (b := M + 351 + enc.Tmin) (by linarith) (by arr_tac2 e3 mulLS) rfl

end Axon
