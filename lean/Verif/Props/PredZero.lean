import Verif.Props.PredStream

/-!
# C94: after a product with a zero factor the multiplier is not at rest
-/
set_option linter.unusedSectionVars false
namespace Axon
open Spec

section
variable {E : PEnv ℝ} {n : ℕ} {inj : List (ℕ × ℝ)} {LS : ℕ → List ℝ}

/-- How long the leftover of a discharge `S` ms ago keeps a second one from firing. -/
noncomputable def again (S : ℝ) : ℝ := -20 * Real.log (1 - Real.exp (-S / 20) / (2 * (1 + Real.exp (-S / 20))))

theorem again_bounds (S : ℝ) : 0 < again S ∧ again S < 20 := by
  have e0 := Real.exp_pos (-S / 20)
  set e := Real.exp (-S / 20) with he
  have h1 : 0 < e / (2 * (1 + e)) := by positivity
  have h2 : e / (2 * (1 + e)) < 1 / 2 := by rw [div_lt_div_iff₀ (by positivity) (by norm_num)]; linarith
  have h3 := Real.log_neg (x := 1 - e / (2 * (1 + e))) (by linarith) (by linarith)
  have h4 : Real.log (1 / 2) < Real.log (1 - e / (2 * (1 + e))) := Real.log_lt_log (by norm_num) (by linarith)
  have h5 : Real.log (1 / 2) = - Real.log 2 := by rw [one_div, Real.log_inv]
  have h6 : Real.log 2 < 1 := by have := Real.log_lt_sub_one_of_pos (x := 2) (by norm_num) (by norm_num); linarith
  unfold again
  rw [← he]
  constructor <;> linarith

theorem expected_twice (V gf d : ℝ) : expectedV Real.exp stdPar ⟨V, 0, gf, 2⟩ d = V + 2 * (gf / 5) * (1 - Real.exp (-d / 20)) := by
  simp [expectedV, stdPar]; left; ring

/-- The second discharge of a neuron that did not fire at the first. -/
theorem predict_again (hp : E.net.par n = stdPar) (hexp : E.exp = Real.exp) (hs : Sane E.exp E.dt) (h1 : E.dt ≤ 1) (S : ℝ) :
    predictSteps E.exp (E.net.par n) ⟨10 - 10 * Real.exp (-S / 20), 0, 50 * Real.exp (-S / 20) + 50, 2⟩ E.dt = .ok (some ⌈again S / E.dt⌉) := by
  obtain ⟨hl, hu⟩ := again_bounds S
  have hdt := hs.pos
  have e0 := Real.exp_pos (-S / 20)
  have hexpd : ∀ d, Real.exp (-d / 20) ≤ 1 - Real.exp (-S / 20) / (2 * (1 + Real.exp (-S / 20))) ↔ again S ≤ d := by
    intro d
    have : 0 < 1 - Real.exp (-S / 20) / (2 * (1 + Real.exp (-S / 20))) := by
      have h2 : Real.exp (-S / 20) / (2 * (1 + Real.exp (-S / 20))) < 1 / 2 := by rw [div_lt_div_iff₀ (by positivity) (by norm_num)]; linarith
      linarith
    rw [← Real.le_log_iff_exp_le this, again]
    constructor <;> intro h <;> linarith
  have key : ∀ d, 10 ≤ expectedV Real.exp stdPar ⟨10 - 10 * Real.exp (-S / 20), 0, 50 * Real.exp (-S / 20) + 50, 2⟩ d ↔ again S ≤ d := by
    intro d
    rw [← hexpd, expected_twice]
    have e : Real.exp (-S / 20) / (2 * (1 + Real.exp (-S / 20))) * (2 * (1 + Real.exp (-S / 20))) = Real.exp (-S / 20) := div_mul_cancel₀ _ (by positivity)
    set q := Real.exp (-S / 20) / (2 * (1 + Real.exp (-S / 20)))
    set f := Real.exp (-S / 20)
    set y := Real.exp (-d / 20)
    constructor
    · intro h
      have : q * (2 * (1 + f)) ≤ (1 - y) * (2 * (1 + f)) := by rw [e]; linarith
      have := le_of_mul_le_mul_right this (by positivity)
      linarith
    · intro h
      have : q * (2 * (1 + f)) ≤ (1 - y) * (2 * (1 + f)) := mul_le_mul_of_nonneg_right (by linarith) (by positivity)
      rw [e] at this
      linarith
  refine predict_first hp hs.exp hs.pos hs.steps le_rfl (by positivity) (maxSteps_gt hs.pos hl.le (by linarith)) (Int.ceil_nonneg (by positivity)) ?_ ?_
  · rw [hexp, key]
    exact le_up hdt _
  · intro k k0 k1
    rw [hexp, ← not_le, key, not_le, ← lt_div_iff₀ hdt]
    exact Int.lt_ceil.mp k1

theorem predict_gated_never (hp : E.net.par n = stdPar) (hexp : E.exp = Real.exp) (hs : Sane E.exp E.dt) (d : ℝ) :
    predictSteps E.exp (E.net.par n) (gated (10 - 10 * Real.exp (-d / 20)) (50 * Real.exp (-d / 20))) E.dt = .ok none := by
  refine predict_never hp hs.pos hs.steps fun y _ => ?_
  rw [hexp, expected_gated]
  have := mul_pos (Real.exp_pos (-d / 20)) (Real.exp_pos (-y / 20))
  linarith

theorem pass_gated' (hp : E.net.par n = stdPar) (hexp : E.exp = Real.exp) (S t l : ℝ) :
    (if t = l then gated (10 - 10 * Real.exp (-S / 20)) (50 * Real.exp (-S / 20)) else pass E.exp (E.net.par n) (gated (10 - 10 * Real.exp (-S / 20)) (50 * Real.exp (-S / 20))) (t - l)) =
      gated (10 - 10 * Real.exp (-(S + (t - l)) / 20)) (50 * Real.exp (-(S + (t - l)) / 20)) := by
  rw [pass_gated hp hexp, show -(S + (t - l)) / 20 = -S / 20 + -(t - l) / 20 by ring, Real.exp_add]
  congr 1 <;> ring

/-- A discharge, and another one `S` later: the neuron fires at the second. -/
theorem Fits.exp_again (hp : E.net.par n = stdPar) (hexp : E.exp = Real.exp) (hs : Sane E.exp E.dt) (h1 : E.dt ≤ 1) {S c : ℝ} (hS : 0 < S)
    (ha : [Item.hit c .gf 50, Item.hit c .gate 1, Item.hit (c + S) .gf 50, Item.hit (c + S) .gate 1].Perm (arriving E.net inj LS n))
    (hL : LS n = [c + S + up E.dt (again S)]) : Fits E inj LS n := by
  refine Fits.of [⟨c, [(.gf, 50), (.gate, 1)]⟩, ⟨c + S, [(.gf, 50), (.gate, 1)]⟩] (by simpa using hS) (by simp) ha ?_
  have p0 := predict_gated_never hp hexp hs 0
  have p1 := predict_again hp hexp hs h1 S
  refine Reacts.quiet (s' := gated (10 - 10 * Real.exp (-0 / 20)) (50 * Real.exp (-0 / 20))) (v := ⟨c, [(.gf, 50), (.gate, 1)]⟩)
    (by rw [pass_lin hp]; simp [bumps, bump]) p0 (by simp) ?_
  rw [hL]
  exact Reacts.fires (v := ⟨c + S, [(.gf, 50), (.gate, 1)]⟩) (by rw [pass_gated' hp hexp]; simp [bumps, bump]; norm_num) p1 (by simp) Reacts.done

/-- The same with an integrator that is started and stopped at once, before each discharge. -/
theorem Fits.log_again (hp : E.net.par n = stdPar) (hexp : E.exp = Real.exp) (hs : Sane E.exp E.dt) (h1 : E.dt ≤ 1) {S a c W : ℝ} (hac : a < c) (hS : c < a + S)
    (ha : [Item.hit a .ge W, Item.hit a .ge (-W), Item.hit c .gf 50, Item.hit c .gate 1, Item.hit (a + S) .ge W, Item.hit (a + S) .ge (-W),
      Item.hit (c + S) .gf 50, Item.hit (c + S) .gate 1].Perm (arriving E.net inj LS n))
    (hL : LS n = [c + S + up E.dt (again S)]) : Fits E inj LS n := by
  refine Fits.of [⟨a, [(.ge, W), (.ge, -W)]⟩, ⟨c, [(.gf, 50), (.gate, 1)]⟩, ⟨a + S, [(.ge, W), (.ge, -W)]⟩, ⟨c + S, [(.gf, 50), (.gate, 1)]⟩] ?_ (by simp) ha ?_
  · simp only [List.map_cons, List.map_nil, List.pairwise_cons, List.mem_cons, List.not_mem_nil, or_false, forall_eq_or_imp, forall_eq]
    refine ⟨⟨?_, ?_, ?_⟩, ⟨?_, ?_⟩, ?_, ?_⟩ <;> first | linarith | simp
  have p0 := predict_gated_never hp hexp hs 0
  have p1 := predict_gated_never hp hexp hs (a + S - c)
  have p2 := predict_again hp hexp hs h1 S
  refine quiet_never hp hs.pos hs.steps (V' := 0) (ge' := 0) (by simp [bumps, bump]) (by norm_num) le_rfl ?_
  refine Reacts.quiet (s' := gated (10 - 10 * Real.exp (-0 / 20)) (50 * Real.exp (-0 / 20))) (v := ⟨c, [(.gf, 50), (.gate, 1)]⟩)
    (by rw [pass_lin hp]; simp [bumps, bump]) p0 (by simp) ?_
  refine Reacts.quiet (s' := gated (10 - 10 * Real.exp (-(a + S - c) / 20)) (50 * Real.exp (-(a + S - c) / 20))) (v := ⟨a + S, [(.ge, W), (.ge, -W)]⟩)
    (by rw [pass_gated' hp hexp]; simp [bumps, bump]) p1 (by simp) ?_
  rw [hL]
  exact Reacts.fires (v := ⟨c + S, [(.gf, 50), (.gate, 1)]⟩)
    (by rw [pass_gated' hp hexp, show a + S - c + (c + S - (a + S)) = S by ring]; simp [bumps, bump]; norm_num) p2 (by simp) Reacts.done

end

set_option maxHeartbeats 4000000 in
/-- **C94**, finding: the multiplier does not come to rest after a product that is zero.  Multiply 0 by 0 twice, with any distance of at least 380 ms
plus four times `Tmin` in between: the first product is answered by two spikes exactly `Tmin` apart (the value 0), the second one by a single spike,
which is no value at all. -/
theorem C94_after_zero (H : TimeHeap ℝ) {enc : Encoder ℝ} (h1 : 1 ≤ enc.Tmin) {dt : ℝ} (hs : Sane Real.exp dt) (hdt1 : dt ≤ 1) (name : Option String)
    (S : ℝ) (hS : 380 + 4 * enc.Tmin ≤ S) :
    let p := (multiplierNetwork enc name World.empty).1
    let w := (multiplierNetwork enc name World.empty).2
    PredEnds H Real.exp enc dt w p.mod ([⟨0, 0, 0, 0⟩, ⟨S, 0, S, 0⟩].flatMap (fun o : TwoVals ℝ => o.given enc p.input1 p.input2)) (fun log =>
      ∃ a c, a + enc.Tmin < S ∧ S < c ∧ log p.output = some [a, a + enc.Tmin, c]) := by
  intro p w
  have hdt := hs.pos
  have hsyn : w.syns.reverse = _ := mul_syns enc name
  have hpos : ∀ s ∈ w.syns, 0 < s.delay := by
    intro s hs
    rw [← List.mem_reverse, hsyn] at hs
    fin_cases hs <;> simp only <;> first | linarith | norm_num
  obtain ⟨l1, l2⟩ := again_bounds S
  have u1 := le_up hdt (again S)
  have u2 := up_lt hdt (again S)
  set D := up dt (again S) with hD
  set T := enc.Tmin with hT
  refine LibOK.pred (multiplier_lib enc name) H enc hdt hpos (by simp [CallOK, TwoVals.given]) ?_
    (fun x => [[0, T, S, S + T], [0, T, S, S + T], [1, S + 1], [T + 1, S + T + 1], [S + T + 3 + D], [T + 350], [1, S + 1], [T + 1, S + T + 1], [],
      [T + 2, S + T + 2], [S + T + 5 + D], [T + 351, T + 351 + T, S + T + 6 + D + T]].getD x []) (fun x hx => getD_none _ hx) ?_
    (fun log h => ⟨T + 351, S + T + 6 + D + T, by linarith, by linarith, h 11 (by norm_num)⟩)
  · intro q hq
    simp only [TwoVals.given, predSpikes, List.flatMap_cons, List.flatMap_nil, List.cons_append, List.nil_append, List.mem_cons, List.not_mem_nil, or_false] at hq
    rcases hq with rfl | rfl | rfl | rfl | rfl | rfl | rfl | rfl <;> first | exact (by decide : 0 < 12) | exact (by decide : 1 < 12)
  intro E e1 e2 e3 e4 x hx
  have hsE : Sane E.exp E.dt := by rw [e1, e2]; exact hs
  have hp := e4 x hx
  have e3 := e3.trans hsyn
  have einj : ([⟨0, 0, 0, 0⟩, ⟨S, 0, S, 0⟩].flatMap (fun o : TwoVals ℝ => o.given enc p.input1 p.input2)).flatMap (predSpikes enc) =
      [(0, 0), (0, T), (1, 0), (1, T), (0, S), (0, S + T), (1, S), (1, S + T)] := by
    simp [TwoVals.given, predSpikes]
    repeat' (first | exact rfl | apply And.intro)
  rw [einj]
  clear_value D
  interval_cases x
  · refine Fits.sums hp hsE [(0, 10), (T, 10), (S, 10), (S + T, 10)] (-1) ?_ (by simp [arriving, e3, e4, stdPar]) ?_
    · simp; refine ⟨?_, ?_, ?_⟩ <;> linarith
    · show VOK _ _ [0, T, S, S + T]
      vok_tac
  · refine Fits.sums hp hsE [(0, 10), (T, 10), (S, 10), (S + T, 10)] (-1) ?_ (by simp [arriving, e3, e4, stdPar]) ?_
    · simp; refine ⟨?_, ?_, ?_⟩ <;> linarith
    · show VOK _ _ [0, T, S, S + T]
      vok_tac
  · refine Fits.sums hp hsE [(1, 10), (2, -10), (T + 1, 10), (S + 1, 10), (S + 2, -10), (S + T + 1, 10)] 0 ?_ (by arr_tac e3) ?_
    · simp; refine ⟨?_, ?_, ?_, ?_⟩ <;> linarith
    · show VOK _ _ [1, S + 1]
      vok_tac
  · refine Fits.sums hp hsE [(1, 5), (T + 1, 5), (S + 1, 5), (S + T + 1, 5)] 0 ?_ (by arr_tac e3) ?_
    · simp; refine ⟨?_, ?_, ?_⟩ <;> linarith
    · show VOK _ _ [T + 1, S + T + 1]
      vok_tac
  · refine Fits.log_again hp e1 hsE (by rw [e2]; exact hdt1) (S := S) (a := T + 2) (c := T + 3) (W := enc.waccBar) (by linarith) (by linarith) (by arr_tac e3) ?_
    rw [e2, ← hD]
    show [S + T + 3 + D] = [T + 3 + S + D]
    rw [show S + T + 3 = T + 3 + S by ring]
  · refine Fits.sums hp hsE [(350, 5 / 2), (350, 5 / 2), (T + 350, 5 / 2), (T + 350, 5 / 2), (T + 352, -5), (2 * T + 352, -5),
      (S + 350, 5 / 2), (S + 350, 5 / 2), (S + T + 350, 5 / 2), (S + T + 350, 5 / 2), (S + 2 * T + 7 + D, -5)] 0 ?_ (by arr_tac e3) ?_
    · simp; refine ⟨?_, ?_, ?_, ?_, ?_, ?_⟩ <;> linarith
    · show VOK _ _ [T + 350]
      vok_tac
  · refine Fits.sums hp hsE [(1, 10), (2, -10), (T + 1, 10), (S + 1, 10), (S + 2, -10), (S + T + 1, 10)] 0 ?_ (by arr_tac e3) ?_
    · simp; refine ⟨?_, ?_, ?_, ?_⟩ <;> linarith
    · show VOK _ _ [1, S + 1]
      vok_tac
  · refine Fits.sums hp hsE [(1, 5), (T + 1, 5), (S + 1, 5), (S + T + 1, 5)] 0 ?_ (by arr_tac e3) ?_
    · simp; refine ⟨?_, ?_, ?_⟩ <;> linarith
    · show VOK _ _ [T + 1, S + T + 1]
      vok_tac
  · refine Fits.of [⟨T + 2, [(.ge, enc.waccBar), (.ge, -enc.waccBar)]⟩, ⟨S + T + 2, [(.ge, enc.waccBar), (.ge, -enc.waccBar)]⟩,
      ⟨S + T + 4 + D, [(.gf, 50), (.gate, 1)]⟩] ?_ (by simp) (by arr_tac e3) ?_
    · simp only [List.map_cons, List.map_nil, List.pairwise_cons, List.mem_cons, List.not_mem_nil, or_false, forall_eq_or_imp, forall_eq]
      refine ⟨⟨?_, ?_⟩, ?_, ?_⟩ <;> first | linarith | simp
    refine quiet_never hp hsE.pos hsE.steps (V' := 0) (ge' := 0) (by simp [bumps, bump]) (by norm_num) le_rfl ?_
    refine quiet_never hp hsE.pos hsE.steps (V' := 0) (ge' := 0) (by simp [bumps, bump]) (by norm_num) le_rfl ?_
    have p0 := predict_gated_never hp e1 hsE 0
    exact Reacts.quiet (s' := gated (10 - 10 * Real.exp (-0 / 20)) (50 * Real.exp (-0 / 20))) (v := ⟨S + T + 4 + D, [(.gf, 50), (.gate, 1)]⟩)
      (by rw [pass_lin hp]; simp [bumps, bump]) p0 (by simp) Reacts.done
  · refine Fits.sums hp hsE [(T + 2, 5), (T + 2, 5), (S + T + 2, 5), (S + T + 2, 5)] 0 ?_ (by arr_tac e3) ?_
    · simp; refine ⟨?_, ?_⟩ <;> linarith
    · show VOK _ _ [T + 2, S + T + 2]
      vok_tac
  · refine Fits.exp_again hp e1 hsE (by rw [e2]; exact hdt1) (S := S) (c := T + 5) (by linarith) (by arr_tac e3) ?_
    rw [e2, ← hD]
    show [S + T + 5 + D] = [T + 5 + S + D]
    rw [show S + T + 5 = T + 5 + S by ring]
  · refine Fits.sums hp hsE [(T + 351, 10), (2 * T + 351, 10), (S + 2 * T + 6 + D, 10)] 0 ?_ (by arr_tac e3) ?_
    · simp; refine ⟨?_, ?_, ?_⟩ <;> linarith
    · show VOK _ _ [T + 351, T + 351 + T, S + T + 6 + D + T]
      vok_tac

/-! ## The theorems of this file on concrete cases -/

/-- `C94_after_zero` with the default encoder, `dt = 0.01` and the second product 500 ms later. -/
example (H : TimeHeap ℝ) : PredEnds H Real.exp ⟨10, 100⟩ (1 / 100) (multiplierNetwork (⟨10, 100⟩ : Encoder ℝ) none World.empty).2 0
    ([⟨0, 0, 0, 0⟩, ⟨500, 0, 500, 0⟩].flatMap (fun o : TwoVals ℝ => o.given ⟨10, 100⟩ 0 1)) (fun log =>
      ∃ a c, a + 10 < 500 ∧ 500 < c ∧ log 11 = some [a, a + 10, c]) :=
  C94_after_zero H (enc := ⟨10, 100⟩) (by norm_num) (sane_real (by norm_num) (by norm_num)) (by norm_num) none 500 (by norm_num)

end Axon
