import Verif.Spec.Reuse
import Verif.Proofs.PredRest
import Verif.Proofs.PredBlocks
import Verif.Props.PredMul

/-!
# C94: streams of values through a library network in the predictive simulator
-/
set_option linter.unusedSectionVars false
namespace Axon
open Spec
variable {E : PEnv ℝ} {enc : Encoder ℝ} {a1 b1 a2 b2 M v1 v2 : ℝ}

set_option maxHeartbeats 4000000 in
/-- A multiplier comes to rest. -/
theorem mul_rests (hexp : E.exp = Real.exp) (h1 : 1 ≤ enc.Tmin) (h2 : 0 < enc.Tcod) (hs : Sane E.exp E.dt) (e3 : E.net.syns = pmulSyns enc) (e4 : ∀ x < 12, E.net.par x = stdPar)
    (hv1 : 0 < v1 ∧ v1 < 1) (hv2 : 0 < v2 ∧ v2 < 1) (hb1 : b1 = a1 + enc.Tmin + v1 * enc.Tcod) (hb2 : b2 = a2 + enc.Tmin + v2 * enc.Tcod) (hM : M = max b1 b2)
    (h5 : -20 * Real.log v1 + -20 * Real.log v2 + 2 * E.dt ≤ 343) (h6 : enc.Tcod + 2 * E.dt ≤ 500) {D1 D2 D3 : ℝ}
    (hD1 : D1 = up E.dt (-20 * Real.log v1)) (hD2 : D2 = up E.dt (-20 * Real.log v2)) (hD3 : D3 = up E.dt (enc.Tcod * Real.exp (-(D1 + D2) / 20)))
    {A B : ℝ} (hA1 : A ≤ a1) (hA2 : A ≤ a2) (hB : M + 350 + enc.Tmin + enc.Tcod + E.dt ≤ B) (x : ℕ) (hx : x < 12) :
    Rests E [(0, a1), (0, b1), (1, a2), (1, b2)] (mulLS a1 b1 a2 b2 M [M + 3 + D1] [] [M + 4 + D1 + D2] [M + 5 + D1 + D2 + D3] [M + 6 + D1 + D2, M + 6 + D1 + D2 + enc.Tmin + D3]) x ∧
    Within E.net [(0, a1), (0, b1), (1, a2), (1, b2)] (mulLS a1 b1 a2 b2 M [M + 3 + D1] [] [M + 4 + D1 + D2] [M + 5 + D1 + D2 + D3] [M + 6 + D1 + D2, M + 6 + D1 + D2 + enc.Tmin + D3]) A B x := by
  have hfit := mul_fits hexp h1 h2 hs e3 e4 hv1 hv2 hb1 hb2 hM h5 h6 hD1 hD2 hD3 x hx
  have hdt := hs.pos
  have hI1 := mul_pos hv1.1 h2
  have hI2 := mul_pos hv2.1 h2
  have l1 : 0 < -20 * Real.log v1 := by have := Real.log_neg hv1.1 hv1.2; linarith
  have l2 : 0 < -20 * Real.log v2 := by have := Real.log_neg hv2.1 hv2.2; linarith
  have q1 := le_up hdt (-20 * Real.log v1)
  have q2 := up_lt hdt (-20 * Real.log v1)
  have r1 := le_up hdt (-20 * Real.log v2)
  have r2 := up_lt hdt (-20 * Real.log v2)
  rw [← hD1] at q1 q2
  rw [← hD2] at r1 r2
  have hm1 : b1 ≤ M := by rw [hM]; exact le_max_left _ _
  have hm2 : b2 ≤ M := by rw [hM]; exact le_max_right _ _
  have c1 := le_up hdt (enc.Tcod * Real.exp (-(D1 + D2) / 20))
  have c2 := up_lt hdt (enc.Tcod * Real.exp (-(D1 + D2) / 20))
  rw [← hD3] at c1 c2
  have he := Real.exp_pos (-(D1 + D2) / 20)
  have he1 : Real.exp (-(D1 + D2) / 20) ≤ 1 := Real.exp_le_one_iff.mpr (by linarith)
  have hle : enc.Tcod * Real.exp (-(D1 + D2) / 20) ≤ enc.Tcod := mul_le_of_le_one_right h2.le he1
  have c0 : 0 < enc.Tcod * Real.exp (-(D1 + D2) / 20) := by positivity
  have g1 : a1 + 1 ≤ b1 := by linarith
  have g2 : a2 + 1 ≤ b2 := by linarith
  have g3 : a1 + enc.Tmin ≤ b1 := by linarith
  have g4 : a2 + enc.Tmin ≤ b2 := by linarith
  unfold pmulSyns at e3
  have hp := e4 x hx
  clear hD1 hD2 hD3 hb1 hb2
  interval_cases x
  · refine hfit.useV hp hs [(a1, 10), (b1, 10)] ?_ ?_ (by simp [arriving, e3, e4, stdPar, mulLS]) ?_
    · simp; refine ⟨⟨?_, ?_⟩, ?_, ?_⟩ <;> linarith
    · simp [mulLS]; constructor <;> linarith
    · simp [mulLS, lastOr]; linarith
  · refine hfit.useV hp hs [(a2, 10), (b2, 10)] ?_ ?_ (by simp [arriving, e3, e4, stdPar, mulLS]) ?_
    · simp; refine ⟨⟨?_, ?_⟩, ?_, ?_⟩ <;> linarith
    · simp [mulLS]; constructor <;> linarith
    · simp [mulLS, lastOr]; linarith
  · refine hfit.useV hp hs [(a1 + 1, 10), (a1 + 2, -10), (b1 + 1, 10)] ?_ ?_ (by arr_tac2 e3 mulLS) ?_
    · simp; refine ⟨⟨?_, ?_⟩, ⟨?_, ?_⟩, ?_, ?_⟩ <;> linarith
    · simp [mulLS]; linarith
    · simp only [mulLS, lastOr, List.getD_cons_succ, List.getD_cons_zero, List.map_cons, List.map_nil, List.sum_cons, List.sum_nil]
      rw [if_neg (by linarith), if_pos (by linarith), if_pos (by linarith)]; ring
  · refine hfit.useV hp hs [(a1 + 1, 5), (b1 + 1, 5)] ?_ ?_ (by arr_tac2 e3 mulLS) ?_
    · simp; refine ⟨⟨?_, ?_⟩, ?_, ?_⟩ <;> linarith
    · simp [mulLS]; linarith
    · simp only [mulLS, lastOr, List.getD_cons_succ, List.getD_cons_zero, List.map_cons, List.map_nil, List.sum_cons, List.sum_nil]
      rw [if_neg (by linarith), if_neg (by linarith)]; ring
  · refine hfit.useS hp [.hit (a1 + enc.Tmin + 2) .ge enc.waccBar, .hit (b1 + 2) .ge (-enc.waccBar), .hit (M + 3) .gf (10 * 100 / 20), .hit (M + 3) .gate 1]
      (by arr_tac2 e3 mulLS) rfl ?_ ?_
    · simp [Item.time]; refine ⟨⟨?_, ?_⟩, ⟨?_, ?_⟩, ?_, ?_⟩ <;> linarith
    · linarith
  · refine hfit.useV hp hs [(a1 + 350, 5 / 2), (b1 + 350, 5 / 2), (a2 + 350, 5 / 2), (b2 + 350, 5 / 2),
        (M + 7 + D1 + D2, -5), (M + 7 + D1 + D2 + enc.Tmin + D3, -5)] ?_ (by simp [mulLS]) (by arr_tac2 e3 mulLS) ?_
    · simp; refine ⟨⟨?_, ?_⟩, ⟨?_, ?_⟩, ⟨?_, ?_⟩, ⟨?_, ?_⟩, ⟨?_, ?_⟩, ?_, ?_⟩ <;> linarith
    · simp only [mulLS, lastOr, List.getD_cons_succ, List.getD_cons_zero, List.map_cons, List.map_nil, List.sum_cons, List.sum_nil]
      rw [if_pos (by linarith), if_pos (by linarith), if_pos (by linarith), if_pos (by linarith), if_pos (by linarith), if_pos (by linarith)]; norm_num
  · refine hfit.useV hp hs [(a2 + 1, 10), (a2 + 2, -10), (b2 + 1, 10)] ?_ ?_ (by arr_tac2 e3 mulLS) ?_
    · simp; refine ⟨⟨?_, ?_⟩, ⟨?_, ?_⟩, ?_, ?_⟩ <;> linarith
    · simp [mulLS]; linarith
    · simp only [mulLS, lastOr, List.getD_cons_succ, List.getD_cons_zero, List.map_cons, List.map_nil, List.sum_cons, List.sum_nil]
      rw [if_neg (by linarith), if_pos (by linarith), if_pos (by linarith)]; ring
  · refine hfit.useV hp hs [(a2 + 1, 5), (b2 + 1, 5)] ?_ ?_ (by arr_tac2 e3 mulLS) ?_
    · simp; refine ⟨⟨?_, ?_⟩, ?_, ?_⟩ <;> linarith
    · simp [mulLS]; linarith
    · simp only [mulLS, lastOr, List.getD_cons_succ, List.getD_cons_zero, List.map_cons, List.map_nil, List.sum_cons, List.sum_nil]
      rw [if_neg (by linarith), if_neg (by linarith)]; ring
  · refine hfit.useS hp [.hit (a2 + enc.Tmin + 2) .ge enc.waccBar, .hit (b2 + 2) .ge (-enc.waccBar), .hit (M + 4 + D1) .gf (10 * 100 / 20), .hit (M + 4 + D1) .gate 1]
      (by arr_tac2 e3 mulLS) rfl ?_ ?_
    · simp [Item.time]; refine ⟨⟨?_, ?_⟩, ⟨?_, ?_⟩, ?_, ?_⟩ <;> linarith
    · linarith
  · refine hfit.useV hp hs [(b1 + 2, 5), (b2 + 2, 5)] ?_ ?_ (by arr_tac2 e3 mulLS) ?_
    · simp; refine ⟨⟨?_, ?_⟩, ?_, ?_⟩ <;> linarith
    · simp [mulLS]; linarith
    · simp only [mulLS, lastOr, List.getD_cons_succ, List.getD_cons_zero, List.map_cons, List.map_nil, List.sum_cons, List.sum_nil]
      rw [if_neg (by linarith), if_neg (by linarith)]; ring
  · refine hfit.useS hp [.hit (M + 5) .gf (10 * 100 / 20), .hit (M + 5) .gate 1, .hit (M + 5 + D1 + D2) .gate (-1), .hit (M + 5 + D1 + D2) .ge enc.waccBar]
      (by arr_tac2 e3 mulLS) rfl ?_ ?_
    · simp [Item.time]; refine ⟨⟨?_, ?_⟩, ?_, ?_⟩ <;> linarith
    · linarith
  · refine hfit.useV hp hs [(M + 6 + D1 + D2, 10), (M + 6 + D1 + D2 + enc.Tmin + D3, 10)] ?_ ?_ (by arr_tac2 e3 mulLS) ?_
    · simp; refine ⟨⟨?_, ?_⟩, ?_, ?_⟩ <;> linarith
    · simp [mulLS]; constructor <;> linarith
    · simp only [mulLS, lastOr, List.getD_cons_succ, List.getD_cons_zero, List.map_cons, List.map_nil, List.sum_cons, List.sum_nil]
      rw [if_neg (by linarith), if_neg (by linarith)]; ring

set_option maxHeartbeats 1000000 in
/-- **C94.** A multiplier multiplies pair after pair: any number of pairs of values strictly between 0 and 1 (products at least about `3.6e-8`),
each given as spikes at any times, but with 350 ms and twice the longest interval between one pair and the next, come out as a stream of products,
in order, each as accurate as in C87 and no later than the next pair. -/
theorem C94_products (H : TimeHeap ℝ) {enc : Encoder ℝ} (h1 : 1 ≤ enc.Tmin) (h2 : 0 < enc.Tcod) {dt : ℝ} (hs : Sane Real.exp dt) (name : Option String)
    (h6 : enc.Tcod + 2 * dt ≤ 500) (ops : List (TwoVals ℝ)) (hv : ∀ o ∈ ops, (0 < o.v1 ∧ o.v1 < 1) ∧ (0 < o.v2 ∧ o.v2 < 1) ∧ -20 * Real.log (o.v1 * o.v2) + 2 * dt ≤ 343)
    (hsep : ops.Pairwise (fun o o' => o.last + 350 + 2 * (enc.Tmin + enc.Tcod) + dt < o'.first)) :
    let p := (multiplierNetwork enc name World.empty).1
    let w := (multiplierNetwork enc name World.empty).2
    PredEnds H Real.exp enc dt w p.mod (ops.flatMap (fun o => o.given enc p.input1 p.input2)) (fun log =>
      ∃ answers, log p.output = some (stream answers) ∧ List.Forall₂ (fun o r => o.last < r.1 ∧ r.2 ≤ o.last + 350 + 2 * (enc.Tmin + enc.Tcod) + dt ∧
        enc.Tmin + o.v1 * o.v2 * enc.Tcod * Real.exp (-dt / 10) ≤ r.2 - r.1 ∧ r.2 - r.1 < enc.Tmin + o.v1 * o.v2 * enc.Tcod + dt) ops answers) := by
  intro p w
  have hdt := hs.pos
  have hsyn : w.syns.reverse = _ := mul_syns enc name
  have hpos : ∀ s ∈ w.syns, 0 < s.delay := by
    intro s hs
    rw [← List.mem_reverse, hsyn] at hs
    fin_cases hs <;> simp only <;> first | linarith | norm_num
  let I1 : TwoVals ℝ → ℝ := fun o => o.t1 + (enc.Tmin + o.v1 * enc.Tcod)
  let I2 : TwoVals ℝ → ℝ := fun o => o.t2 + (enc.Tmin + o.v2 * enc.Tcod)
  let M : TwoVals ℝ → ℝ := fun o => max (I1 o) (I2 o)
  let D1 : TwoVals ℝ → ℝ := fun o => up dt (-20 * Real.log o.v1)
  let D2 : TwoVals ℝ → ℝ := fun o => up dt (-20 * Real.log o.v2)
  let D3 : TwoVals ℝ → ℝ := fun o => up dt (enc.Tcod * Real.exp (-(D1 o + D2 o) / 20))
  let q1 : TwoVals ℝ → ℝ := fun o => M o + 6 + D1 o + D2 o
  let q2 : TwoVals ℝ → ℝ := fun o => M o + 6 + D1 o + D2 o + enc.Tmin + D3 o
  have hM : ∀ o ∈ ops, o.last ≤ M o ∧ M o ≤ o.last + enc.Tmin + enc.Tcod := by
    intro o ho
    obtain ⟨u1, u2, -⟩ := hv o ho
    have w1 := mul_nonneg u1.1.le h2.le
    have w2 := mul_nonneg u2.1.le h2.le
    have x1 : o.v1 * enc.Tcod ≤ enc.Tcod := mul_le_of_le_one_left h2.le u1.2.le
    have x2 : o.v2 * enc.Tcod ≤ enc.Tcod := mul_le_of_le_one_left h2.le u2.2.le
    have y1 : o.t1 ≤ o.last := le_max_left _ _
    have y2 : o.t2 ≤ o.last := le_max_right _ _
    refine ⟨max_le_max ?_ ?_, max_le ?_ ?_⟩ <;> simp only [I1, I2] <;> linarith
  have hlog : ∀ o ∈ ops, -20 * Real.log o.v1 + -20 * Real.log o.v2 + 2 * dt ≤ 343 := by
    intro o ho
    obtain ⟨u1, u2, h⟩ := hv o ho
    rw [Real.log_mul u1.1.ne' u2.1.ne'] at h
    linarith
  refine LibOK.predMany (multiplier_lib enc name) H enc hdt hpos ops _ ?_ ?_
    (fun o => mulLS o.t1 (I1 o) o.t2 (I2 o) (M o) [M o + 3 + D1 o] [] [M o + 4 + D1 o + D2 o] [M o + 5 + D1 o + D2 o + D3 o] [q1 o, q2 o])
    (fun o _ x hx => getD_none _ hx) TwoVals.first (fun o => o.last + 350 + 2 * (enc.Tmin + enc.Tcod) + dt) hsep ?_ ?_
  · intro o _ c hc
    simp only [TwoVals.given, List.mem_cons, List.not_mem_nil, or_false] at hc
    rcases hc with rfl | rfl | rfl | rfl <;> trivial
  · intro o _ q hq
    simp only [TwoVals.given, predSpikes, List.flatMap_cons, List.flatMap_nil, List.cons_append, List.nil_append, List.mem_cons, List.not_mem_nil, or_false] at hq
    rcases hq with rfl | rfl | rfl | rfl <;> first | exact (by decide : 0 < 12) | exact (by decide : 1 < 12)
  · intro o ho E e1 e2 e3 e4 x hx
    obtain ⟨u1, u2, -⟩ := hv o ho
    subst e2
    exact mul_rests e1 h1 h2 (by rw [e1]; exact hs) (e3.trans hsyn) e4 u1 u2 (add_assoc _ _ _).symm (add_assoc _ _ _).symm rfl (hlog o ho) h6 rfl rfl rfl
      (min_le_left _ _) (min_le_right _ _) (by linarith [(hM o ho).2]) x hx
  · intro log hl
    refine ⟨ops.map (fun o => (q1 o, q2 o)), ?_, ?_⟩
    · refine (hl 11 (by norm_num)).trans ?_
      rw [stream, List.flatMap_map]
      rfl
    · rw [List.forall₂_map_right_iff, List.forall₂_same]
      intro o ho
      obtain ⟨v1, v2, h5⟩ := hv o ho
      obtain ⟨m1, m2⟩ := hM o ho
      have a1 := le_up hdt (-20 * Real.log o.v1)
      have a2 := up_lt hdt (-20 * Real.log o.v1)
      have b1 := le_up hdt (-20 * Real.log o.v2)
      have b2 := up_lt hdt (-20 * Real.log o.v2)
      have l1 : 0 < -20 * Real.log o.v1 := by have := Real.log_neg v1.1 v1.2; linarith
      have l2 : 0 < -20 * Real.log o.v2 := by have := Real.log_neg v2.1 v2.2; linarith
      have hl := hlog o ho
      have c1 := le_up hdt (enc.Tcod * Real.exp (-(D1 o + D2 o) / 20))
      have c2 := up_lt hdt (enc.Tcod * Real.exp (-(D1 o + D2 o) / 20))
      have hv : Real.exp (Real.log o.v1 + Real.log o.v2) = o.v1 * o.v2 := by rw [Real.exp_add, Real.exp_log v1.1, Real.exp_log v2.1]
      have e1 : Real.exp (-(D1 o + D2 o) / 20) ≤ o.v1 * o.v2 := by rw [← hv]; exact Real.exp_le_exp.mpr (by simp only [D1, D2]; linarith)
      have e2 : o.v1 * o.v2 * Real.exp (-dt / 10) ≤ Real.exp (-(D1 o + D2 o) / 20) := by
        rw [← hv, ← Real.exp_add]; exact Real.exp_le_exp.mpr (by simp only [D1, D2]; linarith)
      have f1 := mul_le_mul_of_nonneg_left e1 h2.le
      have f2 := mul_le_mul_of_nonneg_left e2 h2.le
      have f3 : o.v1 * o.v2 ≤ 1 := mul_le_one₀ v1.2.le v2.1.le v2.2.le
      have f4 := mul_le_mul_of_nonneg_left f3 h2.le
      change D1 o < _ at a2
      change D2 o < _ at b2
      change _ ≤ D1 o at a1
      change _ ≤ D2 o at b1
      change D3 o < _ at c2
      change _ ≤ D3 o at c1
      refine ⟨?_, ?_, ?_, ?_⟩ <;> simp only [q1, q2]
      · linarith
      · linarith
      · linarith
      · linarith

/-- Two products in a row. -/
example : (∀ o ∈ [(⟨0, 1 / 2, 3, 3 / 4⟩ : TwoVals ℝ), ⟨1000, 1 / 3, 990, 1 / 5⟩], (0 < o.v1 ∧ o.v1 < 1) ∧ (0 < o.v2 ∧ o.v2 < 1)) ∧
    [(⟨0, 1 / 2, 3, 3 / 4⟩ : TwoVals ℝ), ⟨1000, 1 / 3, 990, 1 / 5⟩].Pairwise (fun o o' => o.last + 350 + 2 * (10 + 100) + 1 / 1000 < o'.first) := by
  norm_num [TwoVals.last, TwoVals.first]

end Axon
