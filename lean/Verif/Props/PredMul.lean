import Verif.Props.PredLog

/-! # The multiplier in the predictive simulator -/
set_option linter.unusedSectionVars false
namespace Axon
open Spec

/-- The synapses of the multiplier. -/
theorem mul_syns (enc : Encoder ℝ) (name : Option String) : (multiplierNetwork enc name World.empty).2.syns.reverse =
    [⟨0, 2, 10, 1, .V⟩, ⟨0, 3, 1 / 2 * 10, 1, .V⟩, ⟨2, 2, -10, 1, .V⟩, ⟨2, 4, enc.waccBar, 1 + enc.Tmin, .ge⟩, ⟨3, 4, -enc.waccBar, 1, .ge⟩,
     ⟨3, 9, 1 / 2 * 10, 1, .V⟩, ⟨1, 6, 10, 1, .V⟩, ⟨1, 7, 1 / 2 * 10, 1, .V⟩, ⟨6, 6, -10, 1, .V⟩, ⟨6, 8, enc.waccBar, 1 + enc.Tmin, .ge⟩,
     ⟨7, 8, -enc.waccBar, 1, .ge⟩, ⟨7, 9, 1 / 2 * 10, 1, .V⟩, ⟨4, 8, 10 * 100 / 20, 1, .gf⟩, ⟨4, 8, 1, 1, .gate⟩, ⟨8, 10, -1, 1, .gate⟩,
     ⟨8, 10, enc.waccBar, 1, .ge⟩, ⟨8, 11, 10, 2 * 1, .V⟩, ⟨9, 4, 10 * 100 / 20, 1, .gf⟩, ⟨9, 4, 1, 1, .gate⟩, ⟨9, 10, 1, 3 * 1, .gate⟩,
     ⟨9, 10, 10 * 100 / 20, 3 * 1, .gf⟩, ⟨10, 11, 10, enc.Tmin + 1, .V⟩, ⟨0, 5, 10 / 4, 350, .V⟩, ⟨1, 5, 10 / 4, 350, .V⟩,
     ⟨11, 5, -10 / 2, 1, .V⟩, ⟨5, 11, 10, 1, .V⟩, ⟨5, 11, 10, 1 + enc.Tmin, .V⟩] := rfl

set_option maxHeartbeats 1000000 in
theorem mul_pred (H : TimeHeap ℝ) {enc : Encoder ℝ} (h1 : 1 ≤ enc.Tmin) (h2 : 0 < enc.Tcod) {dt : ℝ} (hs : Sane Real.exp dt) (name : Option String)
    {v1 v2 : ℝ} (hv1 : 0 ≤ v1 ∧ v1 ≤ 1) (hv2 : 0 ≤ v2 ∧ v2 ≤ 1) (t1 t2 : ℝ) (L4 L5 L8 L10 L11 : List ℝ)
    (hfit : ∀ E : PEnv ℝ, Sane E.exp E.dt → E.exp = Real.exp → E.dt = dt → E.net.syns = (multiplierNetwork enc name World.empty).2.syns.reverse → (∀ x < 12, E.net.par x = stdPar) →
      ∀ x ∈ [4, 5, 8, 10, 11], Fits E [(0, 0), (0, enc.Tmin + v1 * enc.Tcod), (1, 0), (1, enc.Tmin + v2 * enc.Tcod)]
        (fun x => [[0, enc.Tmin + v1 * enc.Tcod], [0, enc.Tmin + v2 * enc.Tcod], [1], [enc.Tmin + v1 * enc.Tcod + 1], L4, L5, [1], [enc.Tmin + v2 * enc.Tcod + 1], L8,
          [max (enc.Tmin + v1 * enc.Tcod) (enc.Tmin + v2 * enc.Tcod) + 2], L10, L11].getD x []) x) :
    PredEnds H Real.exp enc dt (multiplierNetwork enc name World.empty).2 0 [.value v1 0 t1, .value v2 1 t2] (fun log => log 11 = some L11) := by
  set w := (multiplierNetwork enc name World.empty).2 with hwdef
  have hdt := hs.pos
  have hI1 := mul_nonneg hv1.1 h2.le
  have hI2 := mul_nonneg hv2.1 h2.le
  have hsyn : w.syns.reverse = _ := mul_syns enc name
  have hpos : ∀ s ∈ w.syns, 0 < s.delay := by
    intro s hs
    rw [← List.mem_reverse, hsyn] at hs
    fin_cases hs <;> simp only <;> first | linarith | norm_num
  refine LibOK.pred (multiplier_lib enc name) H enc hdt hpos (by simp [CallOK, hv1, hv2]) (by simp [predSpikes])
    (fun x => [[0, enc.Tmin + v1 * enc.Tcod], [0, enc.Tmin + v2 * enc.Tcod], [1], [enc.Tmin + v1 * enc.Tcod + 1], L4, L5, [1], [enc.Tmin + v2 * enc.Tcod + 1], L8,
          [max (enc.Tmin + v1 * enc.Tcod) (enc.Tmin + v2 * enc.Tcod) + 2], L10, L11].getD x [])
    (fun x hx => getD_none _ hx) ?_ (fun log h => h 11 (by norm_num))
  intro E e1 e2 e3 e4 x hx
  have hsE : Sane E.exp E.dt := by rw [e1, e2]; exact hs
  have hp := e4 x hx
  have hm1 := le_max_left (enc.Tmin + v1 * enc.Tcod) (enc.Tmin + v2 * enc.Tcod)
  have hm2 := le_max_right (enc.Tmin + v1 * enc.Tcod) (enc.Tmin + v2 * enc.Tcod)
  by_cases hx3 : x ∈ [4, 5, 8, 10, 11]
  · have := hfit E hsE e1 e2 e3 e4 x hx3
    simpa [predSpikes] using this
  · rw [hsyn] at e3
    have hx3' : x = 0 ∨ x = 1 ∨ x = 2 ∨ x = 3 ∨ x = 6 ∨ x = 7 ∨ x = 9 := by
      simp only [List.mem_cons, List.not_mem_nil, or_false, not_or] at hx3; omega
    rcases hx3' with rfl | rfl | rfl | rfl | rfl | rfl | rfl
    · exact Fits.pair hp hsE (a := 0) (b := enc.Tmin + v1 * enc.Tcod) (by linarith) (by simp [arriving, e3, e4, stdPar, predSpikes]) rfl
    · exact Fits.pair hp hsE (a := 0) (b := enc.Tmin + v2 * enc.Tcod) (by linarith) (by simp [arriving, e3, e4, stdPar, predSpikes]) rfl
    · exact Fits.first hp hsE (a := 1) (b := enc.Tmin + v1 * enc.Tcod + 1) (by linarith) (by arr_tac e3) rfl
    · exact Fits.last hp hsE (a := 1) (b := enc.Tmin + v1 * enc.Tcod + 1) (by linarith) (by arr_tac e3) rfl
    · exact Fits.first hp hsE (a := 1) (b := enc.Tmin + v2 * enc.Tcod + 1) (by linarith) (by arr_tac e3) rfl
    · exact Fits.last hp hsE (a := 1) (b := enc.Tmin + v2 * enc.Tcod + 1) (by linarith) (by arr_tac e3) rfl
    · refine Fits.sums hp hsE [(enc.Tmin + v1 * enc.Tcod + 2, 5), (enc.Tmin + v2 * enc.Tcod + 2, 5)] 0 (by simp; constructor <;> linarith) (by arr_tac e3) ?_
      show VOK _ _ [max (enc.Tmin + v1 * enc.Tcod) (enc.Tmin + v2 * enc.Tcod) + 2]
      rcases le_total (enc.Tmin + v1 * enc.Tcod) (enc.Tmin + v2 * enc.Tcod) with h | h
      · rw [max_eq_right h]; vok_tac
      · rw [max_eq_left h]; vok_tac

set_option maxHeartbeats 4000000 in
/-- The product, with the exact answer. -/
theorem pred_mul (H : TimeHeap ℝ) {enc : Encoder ℝ} (h1 : 1 ≤ enc.Tmin) (h2 : 0 < enc.Tcod) {dt : ℝ} (hs : Sane Real.exp dt) (name : Option String)
    {v1 v2 : ℝ} (hv1 : 0 < v1 ∧ v1 < 1) (hv2 : 0 < v2 ∧ v2 < 1) (h5 : -20 * Real.log v1 + -20 * Real.log v2 + 2 * dt ≤ 343) (h6 : enc.Tcod + 2 * dt ≤ 500) (t1 t2 : ℝ) :
    PredEnds H Real.exp enc dt (multiplierNetwork enc name World.empty).2 0 [.value v1 0 t1, .value v2 1 t2] (fun log => ∃ q, 0 < q ∧
      log 11 = some [q, q + enc.Tmin + up dt (enc.Tcod * Real.exp (-(up dt (-20 * Real.log v1) + up dt (-20 * Real.log v2)) / 20))]) := by
  have hdt := hs.pos
  have hI1 := mul_pos hv1.1 h2
  have hI2 := mul_pos hv2.1 h2
  have l1 : 0 ≤ -20 * Real.log v1 := by have := Real.log_nonpos hv1.1.le hv1.2.le; linarith
  have l2 : 0 ≤ -20 * Real.log v2 := by have := Real.log_nonpos hv2.1.le hv2.2.le; linarith
  have a1 := le_up hdt (-20 * Real.log v1)
  have a2 := up_lt hdt (-20 * Real.log v1)
  have b1 := le_up hdt (-20 * Real.log v2)
  have b2 := up_lt hdt (-20 * Real.log v2)
  have hm1 := le_max_left (enc.Tmin + v1 * enc.Tcod) (enc.Tmin + v2 * enc.Tcod)
  have hm2 := le_max_right (enc.Tmin + v1 * enc.Tcod) (enc.Tmin + v2 * enc.Tcod)
  set M := max (enc.Tmin + v1 * enc.Tcod) (enc.Tmin + v2 * enc.Tcod) with hM
  have hMor : M = enc.Tmin + v1 * enc.Tcod ∨ M = enc.Tmin + v2 * enc.Tcod := max_choice _ _
  set D1 := up dt (-20 * Real.log v1) with hD1
  set D2 := up dt (-20 * Real.log v2) with hD2
  have c1 := le_up hdt (enc.Tcod * Real.exp (-(D1 + D2) / 20))
  have he := Real.exp_pos (-(D1 + D2) / 20)
  have c0 : 0 < enc.Tcod * Real.exp (-(D1 + D2) / 20) := by positivity
  set D3 := up dt (enc.Tcod * Real.exp (-(D1 + D2) / 20)) with hD3
  have key := mul_pred H h1 h2 hs name ⟨hv1.1.le, hv1.2.le⟩ ⟨hv2.1.le, hv2.2.le⟩ t1 t2 [M + 3 + D1] [] [M + 4 + D1 + D2] [M + 5 + D1 + D2 + D3]
    [M + 6 + D1 + D2, M + 6 + D1 + D2 + enc.Tmin + D3] ?_
  · obtain ⟨N, st, a, b⟩ := key
    exact ⟨N, st, a, M + 6 + D1 + D2, by linarith, b⟩
  · intro E hsE hexp hE e3 e4 x hx
    rw [← hM]
    rw [mul_syns] at e3
    simp only [List.mem_cons, List.not_mem_nil, or_false] at hx
    rcases hx with rfl | rfl | rfl | rfl | rfl
    · exact Fits.log (e4 _ (by norm_num)) hexp hsE (a := enc.Tmin + 2) (b := enc.Tmin + v1 * enc.Tcod + 2) (c := M + 3) h2 (waccBar_mul h2) hv1.1 hv1.2 (by ring) (by linarith)
        (by rw [hE]; linarith) (by arr_tac e3) (by rw [hE, ← hD1]; rfl)
    · refine Fits.sums (e4 _ (by norm_num)) hsE [(350, 5 / 2), (enc.Tmin + v1 * enc.Tcod + 350, 5 / 2), (350, 5 / 2), (enc.Tmin + v2 * enc.Tcod + 350, 5 / 2),
        (M + 7 + D1 + D2, -5), (M + 7 + D1 + D2 + enc.Tmin + D3, -5)] 0
        (by simp; refine ⟨?_, ?_, ?_, ?_⟩ <;> linarith) (by arr_tac e3) ?_
      show VOK _ _ []
      rcases hMor with h | h
      · have h' : enc.Tmin + v2 * enc.Tcod ≤ enc.Tmin + v1 * enc.Tcod := by linarith
        rw [h]; clear_value D1 D2 D3; vok_tac
      · have h' : enc.Tmin + v1 * enc.Tcod ≤ enc.Tmin + v2 * enc.Tcod := by linarith
        rw [h]; clear_value D1 D2 D3; vok_tac
    · exact Fits.log (e4 _ (by norm_num)) hexp hsE (a := enc.Tmin + 2) (b := enc.Tmin + v2 * enc.Tcod + 2) (c := M + 4 + D1) h2 (waccBar_mul h2) hv2.1 hv2.2 (by ring) (by linarith)
        (by rw [hE]; linarith) (by arr_tac e3) (by rw [hE, ← hD2]; rfl)
    · refine Fits.exp (e4 _ (by norm_num)) hexp hsE (a := M + 5) (b := M + 5 + D1 + D2) h2 (waccBar_mul h2) (by linarith) (by rw [hE]; exact h6) (by arr_tac e3) ?_
      rw [hE, show M + 5 + D1 + D2 - (M + 5) = D1 + D2 by ring, ← hD3]; rfl
    · exact Fits.pair (e4 _ (by norm_num)) hsE (a := M + 6 + D1 + D2) (b := M + 6 + D1 + D2 + enc.Tmin + D3) (by linarith) (by arr_tac e3) rfl

/-- **C87**, `MultiplierNetwork`: two values strictly between 0 and 1 (product at least about `3.6e-8`) come out as their product, at most
`Tcod * v1 * v2 * (1 - exp (-dt / 10))` (less than `Tcod * dt / 10`) too short and less than `dt` too long. -/
theorem C87_multiplier (H : TimeHeap ℝ) {enc : Encoder ℝ} (h1 : 1 ≤ enc.Tmin) (h2 : 0 < enc.Tcod) {dt : ℝ} (hs : Sane Real.exp dt) (name : Option String)
    {v1 v2 : ℝ} (hv1 : 0 < v1 ∧ v1 < 1) (hv2 : 0 < v2 ∧ v2 < 1) (h5 : -20 * Real.log (v1 * v2) + 2 * dt ≤ 343) (h6 : enc.Tcod + 2 * dt ≤ 500) (t1 t2 : ℝ) :
    let p := (multiplierNetwork enc name World.empty).1
    let w := (multiplierNetwork enc name World.empty).2
    PredEnds H Real.exp enc dt w p.mod [.value v1 p.input1 t1, .value v2 p.input2 t2] (fun log =>
      ∃ a b, a < b ∧ log p.output = some [a, b] ∧
        enc.Tmin + v1 * v2 * enc.Tcod * Real.exp (-dt / 10) ≤ b - a ∧ b - a < enc.Tmin + v1 * v2 * enc.Tcod + dt) := by
  intro p w
  have hdt := hs.pos
  rw [Real.log_mul hv1.1.ne' hv2.1.ne'] at h5
  obtain ⟨N, st, a, q, hq, b⟩ := pred_mul H h1 h2 hs name hv1 hv2 (by linarith) h6 t1 t2
  have a1 := le_up hdt (-20 * Real.log v1)
  have a2 := up_lt hdt (-20 * Real.log v1)
  have b1 := le_up hdt (-20 * Real.log v2)
  have b2 := up_lt hdt (-20 * Real.log v2)
  set D1 := up dt (-20 * Real.log v1)
  set D2 := up dt (-20 * Real.log v2)
  have c1 := le_up hdt (enc.Tcod * Real.exp (-(D1 + D2) / 20))
  have c2 := up_lt hdt (enc.Tcod * Real.exp (-(D1 + D2) / 20))
  have hv : Real.exp (Real.log v1 + Real.log v2) = v1 * v2 := by rw [Real.exp_add, Real.exp_log hv1.1, Real.exp_log hv2.1]
  have e1 : Real.exp (-(D1 + D2) / 20) ≤ v1 * v2 := by rw [← hv]; exact Real.exp_le_exp.mpr (by linarith)
  have e2 : v1 * v2 * Real.exp (-dt / 10) ≤ Real.exp (-(D1 + D2) / 20) := by
    rw [← hv, ← Real.exp_add]; exact Real.exp_le_exp.mpr (by linarith)
  have f1 := mul_le_mul_of_nonneg_left e1 h2.le
  have f2 := mul_le_mul_of_nonneg_left e2 h2.le
  have he := mul_pos h2 (Real.exp_pos (-(D1 + D2) / 20))
  refine ⟨N, st, a, _, _, ?_, b, ?_, ?_⟩
  · linarith
  · nlinarith
  · nlinarith

set_option maxHeartbeats 4000000 in
/-- **C87**, zero: if one factor is 0 and the other is below 1, the answer is exactly 0. -/
theorem C87_multiplier_zero (H : TimeHeap ℝ) {enc : Encoder ℝ} (h1 : 1 ≤ enc.Tmin) (h2 : 0 < enc.Tcod) {dt : ℝ} (hs : Sane Real.exp dt) (name : Option String)
    {v1 v2 : ℝ} (hv1 : 0 ≤ v1 ∧ v1 < 1) (hv2 : 0 ≤ v2 ∧ v2 < 1) (h0 : v1 * v2 = 0) (h6 : enc.Tcod + 2 * dt ≤ 500) (h7 : 0 < v1 → -20 * Real.log v1 + 2 * dt ≤ 500) (t1 t2 : ℝ) :
    let p := (multiplierNetwork enc name World.empty).1
    let w := (multiplierNetwork enc name World.empty).2
    PredEnds H Real.exp enc dt w p.mod [.value v1 p.input1 t1, .value v2 p.input2 t2] (fun log => Shows enc 0 (log p.output) 0) := by
  intro p w
  show PredEnds H Real.exp enc dt w 0 [.value v1 0 t1, .value v2 1 t2] (fun log => Shows enc 0 (log 11) 0)
  have hdt := hs.pos
  have hI1 := mul_nonneg hv1.1 h2.le
  have hI2 := mul_nonneg hv2.1 h2.le
  have hm1 := le_max_left (enc.Tmin + v1 * enc.Tcod) (enc.Tmin + v2 * enc.Tcod)
  have hm2 := le_max_right (enc.Tmin + v1 * enc.Tcod) (enc.Tmin + v2 * enc.Tcod)
  set M := max (enc.Tmin + v1 * enc.Tcod) (enc.Tmin + v2 * enc.Tcod) with hM
  have hMor : M = enc.Tmin + v1 * enc.Tcod ∨ M = enc.Tmin + v2 * enc.Tcod := max_choice _ _
  -- what the two cases have in common
  have common : ∀ L4 : List ℝ, (∀ E : PEnv ℝ, Sane E.exp E.dt → E.exp = Real.exp → E.dt = dt → E.net.syns = (multiplierNetwork enc name World.empty).2.syns.reverse → (∀ x < 12, E.net.par x = stdPar) →
      ∀ x ∈ [4, 8], Fits E [(0, 0), (0, enc.Tmin + v1 * enc.Tcod), (1, 0), (1, enc.Tmin + v2 * enc.Tcod)]
        (fun x => [[0, enc.Tmin + v1 * enc.Tcod], [0, enc.Tmin + v2 * enc.Tcod], [1], [enc.Tmin + v1 * enc.Tcod + 1], L4, [M + 350], [1], [enc.Tmin + v2 * enc.Tcod + 1], [],
          [M + 2], [], [M + 351, M + 351 + enc.Tmin]].getD x []) x) → PredEnds H Real.exp enc dt w 0 [.value v1 0 t1, .value v2 1 t2] (fun log => Shows enc 0 (log 11) 0) := by
    intro L4 hfit
    have key := mul_pred H h1 h2 hs name ⟨hv1.1, hv1.2.le⟩ ⟨hv2.1, hv2.2.le⟩ t1 t2 L4 [M + 350] [] [] [M + 351, M + 351 + enc.Tmin] ?_
    · obtain ⟨N, st, a, b⟩ := key
      exact ⟨N, st, a, _, _, by linarith, b, by simp⟩
    · intro E hsE hexp hE e3 e4 x hx
      rw [← hM]
      by_cases hx' : x ∈ [4, 8]
      · exact hfit E hsE hexp hE e3 e4 x hx'
      · have hx2 : x = 5 ∨ x = 10 ∨ x = 11 := by
          simp only [List.mem_cons, List.not_mem_nil, or_false, not_or] at hx hx'; omega
        rw [mul_syns] at e3
        rcases hx2 with rfl | rfl | rfl
        · refine Fits.sums (e4 _ (by norm_num)) hsE [(350, 5 / 2), (enc.Tmin + v1 * enc.Tcod + 350, 5 / 2), (350, 5 / 2), (enc.Tmin + v2 * enc.Tcod + 350, 5 / 2),
            (M + 352, -5), (M + 352 + enc.Tmin, -5)] 0 (by simp; refine ⟨?_, ?_, ?_, ?_⟩ <;> linarith) (by arr_tac e3) ?_
          show VOK _ _ [M + 350]
          rcases hMor with h | h
          · have h' : enc.Tmin + v2 * enc.Tcod ≤ enc.Tmin + v1 * enc.Tcod := by linarith
            rw [h]; vok_tac
          · have h' : enc.Tmin + v1 * enc.Tcod ≤ enc.Tmin + v2 * enc.Tcod := by linarith
            rw [h]; vok_tac
        · refine Fits.of [⟨M + 5, [(.gf, 50), (.gate, 1)]⟩] (by simp) (by simp) (by arr_tac e3) ?_
          have hp := e4 10 (by norm_num)
          have hnone : predictSteps E.exp (E.net.par 10) (gated 0 50) E.dt = .ok Option.none := by
            refine predict_never hp hsE.pos hsE.steps fun d _ => ?_
            rw [hexp, expected_gated]
            have := Real.exp_pos (-d / 20)
            linarith
          exact Reacts.quiet (s' := gated 0 50) (v := ⟨M + 5, [(.gf, 50), (.gate, 1)]⟩) (by rw [pass_lin hp]; simp [bumps, bump]) hnone (by simp) Reacts.done
        · exact Fits.pair (e4 _ (by norm_num)) hsE (a := M + 351) (b := M + 351 + enc.Tmin) (by linarith) (by arr_tac e3) rfl
  rcases hv1.1.lt_or_eq with hp1 | hz1
  · have hz2 : v2 = 0 := by rcases mul_eq_zero.mp h0 with h | h <;> linarith
    refine common [M + 3 + up dt (-20 * Real.log v1)] ?_
    have l1 : 0 ≤ -20 * Real.log v1 := by have := Real.log_nonpos hp1.le hv1.2.le; linarith
    have a1 := le_up hdt (-20 * Real.log v1)
    intro E hsE hexp hE e3 e4 x hx
    rw [mul_syns] at e3
    simp only [List.mem_cons, List.not_mem_nil, or_false] at hx
    rcases hx with rfl | rfl
    · exact Fits.log (e4 _ (by norm_num)) hexp hsE (a := enc.Tmin + 2) (b := enc.Tmin + v1 * enc.Tcod + 2) (c := M + 3) h2 (waccBar_mul h2) hp1 hv1.2 (by ring) (by linarith)
        (by rw [hE]; exact h7 hp1) (by arr_tac e3) (by rw [hE]; rfl)
    · exact Fits.log_zero (e4 _ (by norm_num)) hexp hsE (a := enc.Tmin + 2) (c := M + 4 + up dt (-20 * Real.log v1)) (W := enc.waccBar) (by linarith)
        (by rw [hz2]; arr_tac e3) rfl
  · refine common [] ?_
    intro E hsE hexp hE e3 e4 x hx
    rw [mul_syns] at e3
    simp only [List.mem_cons, List.not_mem_nil, or_false] at hx
    have hW0 : 0 < enc.waccBar := by have := waccBar_mul h2; by_contra h; nlinarith
    have hWx := waccBar_mul h2
    rcases hx with rfl | rfl
    · exact Fits.log_zero (e4 _ (by norm_num)) hexp hsE (a := enc.Tmin + 2) (c := M + 3) (W := enc.waccBar) (by linarith)
        (by rw [← hz1]; arr_tac e3) rfl
    · have hp := e4 8 (by norm_num)
      have hV : enc.waccBar / 100 * (v2 * enc.Tcod) < 10 := by
        have : enc.waccBar / 100 * (v2 * enc.Tcod) = 10 * v2 := by linear_combination v2 * hWx / 100
        linarith [hv2.2]
      rcases hv2.1.lt_or_eq with hp2 | hz2
      · have hI := mul_pos hp2 h2
        refine Fits.of [⟨enc.Tmin + 2, [(.ge, enc.waccBar)]⟩, ⟨enc.Tmin + v2 * enc.Tcod + 2, [(.ge, -enc.waccBar)]⟩] (by simp; linarith) (by simp) (by arr_tac e3) ?_
        refine quiet_next hp hsE.pos hsE.steps (V' := 0) (ge' := enc.waccBar) (by simp [bumps, bump]) hW0.le ?_ ?_
        · simp only
          rw [zero_add, show enc.Tmin + v2 * enc.Tcod + 2 - (enc.Tmin + 2) = v2 * enc.Tcod by ring]; exact hV
        · refine quiet_never hp hsE.pos hsE.steps (V' := enc.waccBar / 100 * (v2 * enc.Tcod)) (ge' := 0) ?_ hV le_rfl Reacts.done
          rw [zero_add, show enc.Tmin + v2 * enc.Tcod + 2 - (enc.Tmin + 2) = v2 * enc.Tcod by ring]
          simp [bumps, bump]
      · refine Fits.of [⟨enc.Tmin + 2, [(.ge, enc.waccBar), (.ge, -enc.waccBar)]⟩] (by simp) (by simp) (by rw [← hz2]; arr_tac e3) ?_
        exact quiet_never hp hsE.pos hsE.steps (V' := 0) (ge' := 0) (by simp [bumps, bump]) (by norm_num) le_rfl Reacts.done

/-- Concrete cases: 1/2 times 1/2, and 0 times 1/2, with the default parameters. -/
example (H : TimeHeap ℝ) : PredEnds H Real.exp ⟨10, 100⟩ (1 / 100) (multiplierNetwork (⟨10, 100⟩ : Encoder ℝ) none World.empty).2 0
    [.value (1 / 2) 0 0, .value (1 / 2) 1 0] (fun log =>
      ∃ a b, a < b ∧ log 11 = some [a, b] ∧ 10 + 1 / 2 * (1 / 2) * 100 * Real.exp (-(1 / 100) / 10) ≤ b - a ∧ b - a < 10 + 1 / 2 * (1 / 2) * 100 + 1 / 100) := by
  refine C87_multiplier H (enc := ⟨10, 100⟩) (by norm_num) (by norm_num) (sane_real (by norm_num) (by norm_num)) none (v1 := 1 / 2) (v2 := 1 / 2) (by norm_num) (by norm_num) ?_ (by norm_num) 0 0
  have := Real.one_sub_inv_le_log_of_pos (show (0 : ℝ) < 1 / 2 * (1 / 2) by norm_num)
  norm_num at this ⊢
  linarith

example (H : TimeHeap ℝ) : PredEnds H Real.exp ⟨10, 100⟩ (1 / 100) (multiplierNetwork (⟨10, 100⟩ : Encoder ℝ) none World.empty).2 0
    [.value 0 0 0, .value (1 / 2) 1 0] (fun log => Shows ⟨10, 100⟩ 0 (log 11) 0) :=
  C87_multiplier_zero H (enc := ⟨10, 100⟩) (by norm_num) (by norm_num) (sane_real (by norm_num) (by norm_num)) none (v1 := 0) (v2 := 1 / 2) (by norm_num) (by norm_num)
    (by norm_num) (by norm_num) (fun h => absurd h (lt_irrefl _)) 0 0

end Axon
