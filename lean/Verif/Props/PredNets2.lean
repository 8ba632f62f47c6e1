import Verif.Proofs.PredGate
import Verif.Proofs.PredV
import Verif.Props.PredNets
import Verif.Props.Subtractor
import Verif.Props.ScalarMul

/-! # More library networks in the predictive simulator -/
set_option linter.unusedSectionVars false
namespace Axon
open Spec
variable {K : Type*} [Field K] [LinearOrder K] [IsStrictOrderedRing K] [FloorRing K]

/-! ## C83: the signed memory -/

set_option maxHeartbeats 4000000 in
/-- The signed memory, with its exact answer. -/
theorem pred_signed_memory (H : TimeHeap K) {exp : K → K} {enc : Encoder K} (h1 : 1 ≤ enc.Tmin) (h2 : 0 < enc.Tcod) {dt : K} (hs : Sane exp dt)
    (hd : dt ≤ 1) (h5 : enc.Tmax + 2 * dt ≤ 500) (name : Option String) (neg : Bool) {v : K} (hv0 : 0 ≤ v) (hv1 : v ≤ 1) (t0 : K)
    {R : K} (hR : enc.Tmax + dt + 2 ≤ R) :
    let w := (signedMemoryNetwork enc name World.empty).2
    PredEnds H exp enc dt w 0 [.value v (if neg then 1 else 0) t0, .spike 4 R] (fun log =>
      log (if neg then 6 else 5) = some [R + 4, R + 4 + up dt (enc.Tmax - (up dt enc.Tmax - (enc.Tmin + v * enc.Tcod)))] ∧
      log (if neg then 5 else 6) = some []) := by
  intro w
  have hdt := hs.pos
  have hTm : enc.Tmax = enc.Tmin + enc.Tcod := rfl
  have hIge : enc.Tmin ≤ enc.Tmin + v * enc.Tcod := by have := mul_nonneg hv0 h2.le; linarith
  have hIle : enc.Tmin + v * enc.Tcod ≤ enc.Tmax := by
    have : v * enc.Tcod ≤ 1 * enc.Tcod := mul_le_mul_of_nonneg_right hv1 h2.le
    rw [hTm]; linarith
  set I := enc.Tmin + v * enc.Tcod with hIdef
  have hA1 := le_up hdt enc.Tmax
  have hA2 := up_lt hdt enc.Tmax
  set A := up dt enc.Tmax with hAdef
  have hC1 := le_up hdt (enc.Tmax - (A - I))
  set C := up dt (enc.Tmax - (A - I)) with hCdef
  have hT0 : 0 < enc.Tmax := by linarith
  have hw : enc.wacc * enc.Tmax = 1000 := by unfold Encoder.wacc; field_simp; norm_num
  have hsyn : w.syns.reverse = [⟨8, 9, 10, 1, .V⟩, ⟨8, 10, 1 / 2 * 10, 1, .V⟩, ⟨9, 9, -10, 1, .V⟩, ⟨9, 11, enc.wacc, 1, .ge⟩,
    ⟨10, 12, enc.wacc, 2 * 1, .ge⟩, ⟨11, 12, -enc.wacc, 1, .ge⟩, ⟨13, 12, enc.wacc, 1, .ge⟩, ⟨13, 15, 10, 2 * 1, .V⟩, ⟨12, 15, 10, 1, .V⟩,
    ⟨11, 14, 10, 1, .V⟩,
    ⟨0, 2, 10, 1, .V⟩, ⟨1, 3, 10, 1, .V⟩, ⟨0, 3, 1 / 4 * 10, 1, .V⟩, ⟨1, 2, 1 / 4 * 10, 1, .V⟩, ⟨2, 3, 1 / 2 * -10, 1, .V⟩,
    ⟨3, 2, 1 / 2 * -10, 1, .V⟩, ⟨4, 2, 1 / 2 * 10, 1, .V⟩, ⟨4, 3, 1 / 2 * 10, 1, .V⟩, ⟨0, 8, 10, 1, .V⟩, ⟨1, 8, 10, 1, .V⟩,
    ⟨4, 13, 10, 1, .V⟩, ⟨15, 5, 10, 1, .V⟩, ⟨15, 6, 10, 1, .V⟩, ⟨2, 6, 2 * -10, 1, .V⟩, ⟨3, 5, 2 * -10, 1, .V⟩, ⟨15, 7, 10, 1, .V⟩] := rfl
  have hpos : ∀ s ∈ w.syns, 0 < s.delay := by
    intro s hs
    rw [← List.mem_reverse, hsyn] at hs
    fin_cases hs <;> norm_num
  cases neg with
  | false =>
    refine LibOK.pred (signedMemory_lib enc name) H enc hdt hpos (by simp [CallOK, hv0, hv1]) (by simp [predSpikes])
      (fun x => [[0, I], [], [1, I + 1], [], [R], [R + 4, R + 4 + C], [], [R + 4, R + 4 + C], [1, I + 1], [2], [I + 2], [A + 3], [R + 2 + C],
        [R + 1], [A + 4], [R + 3, R + 3 + C]].getD x []) (fun x hx => getD_none _ hx) ?_ ?_
    · intro E e1 e2 e3 e4 x hx
      rw [hsyn] at e3
      have hsE : Sane E.exp E.dt := by rw [e1, e2]; exact hs
      have hp := e4 x hx
      interval_cases x
      · exact Fits.pair hp hsE (a := 0) (b := I) (by linarith) (by simp [arriving, e3, e4, stdPar, predSpikes, hIdef]) rfl
      · exact Fits.none (by simp [arriving, e3, predSpikes]) rfl
      · exact Fits.sums hp hsE [(1, 10), (I + 1, 10), (R + 1, 5)] 0 (by simp; constructor <;> linarith) (by arr_tac e3)
          (by simp only [List.getD_cons_succ, List.getD_cons_zero]; vok_tac)
      · exact Fits.sums hp hsE [(1, 5 / 2), (I + 1, 5 / 2), (2, -5), (I + 2, -5), (R + 1, 5)] 0 (by simp; refine ⟨?_, ?_, ?_⟩ <;> linarith) (by arr_tac e3)
          (by simp only [List.getD_cons_succ, List.getD_cons_zero]; vok_tac)
      · exact Fits.single hp hsE (a := R) (by simp [arriving, e3, e4, stdPar, predSpikes]) rfl
      · exact Fits.pair hp hsE (a := R + 4) (b := R + 4 + C) (by linarith) (by arr_tac e3) rfl
      · exact Fits.sums hp hsE [(2, -20), (I + 2, -20), (R + 4, 10), (R + 4 + C, 10)] 0 (by simp; refine ⟨?_, ?_, ?_⟩ <;> linarith) (by arr_tac e3)
          (by simp only [List.getD_cons_succ, List.getD_cons_zero]; vok_tac)
      · exact Fits.pair hp hsE (a := R + 4) (b := R + 4 + C) (by linarith) (by arr_tac e3) rfl
      · exact Fits.pair hp hsE (a := 1) (b := I + 1) (by linarith) (by arr_tac e3) rfl
      · exact Fits.first hp hsE (a := 2) (b := I + 2) (by linarith) (by arr_tac e3) rfl
      · exact Fits.last hp hsE (a := 2) (b := I + 2) (by linarith) (by arr_tac e3) rfl
      · refine Fits.acc hp hsE (a := 3) hT0 hw (by rw [e2]; exact h5) (by arr_tac e3) ?_
        rw [e2, ← hAdef, add_comm (3 : K) A]; rfl
      · refine Fits.store hp hsE (a := I + 4) (b := A + 4) (r := R + 2) hw (by linarith) (by linarith) (by linarith) (by rw [e2]; exact h5) (by arr_tac e3) ?_
        rw [e2, show A + 4 - (I + 4) = A - I by ring, ← hCdef]; rfl
      · exact Fits.single hp hsE (a := R + 1) (by arr_tac e3) rfl
      · exact Fits.single hp hsE (a := A + 4) (by arr_tac e3) rfl
      · exact Fits.pair hp hsE (a := R + 3) (b := R + 3 + C) (by linarith) (by arr_tac e3) rfl
    · intro log h
      exact ⟨h 5 (by norm_num), h 6 (by norm_num)⟩
  | true =>
    refine LibOK.pred (signedMemory_lib enc name) H enc hdt hpos (by simp [CallOK, hv0, hv1]) (by simp [predSpikes])
      (fun x => [[], [0, I], [], [1, I + 1], [R], [], [R + 4, R + 4 + C], [R + 4, R + 4 + C], [1, I + 1], [2], [I + 2], [A + 3], [R + 2 + C],
        [R + 1], [A + 4], [R + 3, R + 3 + C]].getD x []) (fun x hx => getD_none _ hx) ?_ ?_
    · intro E e1 e2 e3 e4 x hx
      rw [hsyn] at e3
      have hsE : Sane E.exp E.dt := by rw [e1, e2]; exact hs
      have hp := e4 x hx
      interval_cases x
      · exact Fits.none (by simp [arriving, e3, predSpikes]) rfl
      · exact Fits.pair hp hsE (a := 0) (b := I) (by linarith) (by simp [arriving, e3, e4, stdPar, predSpikes, hIdef]) rfl
      · exact Fits.sums hp hsE [(1, 5 / 2), (I + 1, 5 / 2), (2, -5), (I + 2, -5), (R + 1, 5)] 0 (by simp; refine ⟨?_, ?_, ?_⟩ <;> linarith) (by arr_tac e3)
          (by simp only [List.getD_cons_succ, List.getD_cons_zero]; vok_tac)
      · exact Fits.sums hp hsE [(1, 10), (I + 1, 10), (R + 1, 5)] 0 (by simp; constructor <;> linarith) (by arr_tac e3)
          (by simp only [List.getD_cons_succ, List.getD_cons_zero]; vok_tac)
      · exact Fits.single hp hsE (a := R) (by simp [arriving, e3, e4, stdPar, predSpikes]) rfl
      · exact Fits.sums hp hsE [(2, -20), (I + 2, -20), (R + 4, 10), (R + 4 + C, 10)] 0 (by simp; refine ⟨?_, ?_, ?_⟩ <;> linarith) (by arr_tac e3)
          (by simp only [List.getD_cons_succ, List.getD_cons_zero]; vok_tac)
      · exact Fits.pair hp hsE (a := R + 4) (b := R + 4 + C) (by linarith) (by arr_tac e3) rfl
      · exact Fits.pair hp hsE (a := R + 4) (b := R + 4 + C) (by linarith) (by arr_tac e3) rfl
      · exact Fits.pair hp hsE (a := 1) (b := I + 1) (by linarith) (by arr_tac e3) rfl
      · exact Fits.first hp hsE (a := 2) (b := I + 2) (by linarith) (by arr_tac e3) rfl
      · exact Fits.last hp hsE (a := 2) (b := I + 2) (by linarith) (by arr_tac e3) rfl
      · refine Fits.acc hp hsE (a := 3) hT0 hw (by rw [e2]; exact h5) (by arr_tac e3) ?_
        rw [e2, ← hAdef, add_comm (3 : K) A]; rfl
      · refine Fits.store hp hsE (a := I + 4) (b := A + 4) (r := R + 2) hw (by linarith) (by linarith) (by linarith) (by rw [e2]; exact h5) (by arr_tac e3) ?_
        rw [e2, show A + 4 - (I + 4) = A - I by ring, ← hCdef]; rfl
      · exact Fits.single hp hsE (a := R + 1) (by arr_tac e3) rfl
      · exact Fits.single hp hsE (a := A + 4) (by arr_tac e3) rfl
      · exact Fits.pair hp hsE (a := R + 3) (b := R + 3 + C) (by linarith) (by arr_tac e3) rfl
    · intro log h
      exact ⟨h 6 (by norm_num), h 5 (by norm_num)⟩

/-- **C83**, `SignedMemoryNetwork`: given a signed value, a recall (from `Tmax + dt + 2` on) is answered with the value on the rail of its sign, up to
less than one time step, and nothing on the other rail. -/
theorem C83_signed_memory (H : TimeHeap K) {exp : K → K} {enc : Encoder K} (h1 : 1 ≤ enc.Tmin) (h2 : 0 < enc.Tcod) {dt : K} (hs : Sane exp dt)
    (hd : dt ≤ 1) (h5 : enc.Tmax + 2 * dt ≤ 500) (name : Option String) {x : K} (hx : |x| ≤ 1)
    {R : K} (hR : enc.Tmax + dt + 2 ≤ R) :
    let p := (signedMemoryNetwork enc name World.empty).1
    let w := (signedMemoryNetwork enc name World.empty).2
    PredEnds H exp enc dt w p.mod [giveSigned x p.inputPos p.inputNeg, .spike p.recall R] (fun log =>
      ShowsSigned enc dt (log p.outputPos) (log p.outputNeg) x) := by
  intro p w
  have hdt := hs.pos
  have hI := interval_pos (enc := enc) (by linarith) h2 (abs_nonneg x)
  have hvc := mul_nonneg (abs_nonneg x) h2.le
  have a1 := le_up hdt enc.Tmax
  have a2 := up_lt hdt enc.Tmax
  have b1 := le_up hdt (enc.Tmax - (up dt enc.Tmax - (enc.Tmin + |x| * enc.Tcod)))
  have b2 := up_lt hdt (enc.Tmax - (up dt enc.Tmax - (enc.Tmin + |x| * enc.Tcod)))
  have key := pred_signed_memory H h1 h2 hs hd h5 name (decide (x < 0)) (abs_nonneg x) hx 0 hR
  obtain ⟨N, st, a, b, c⟩ := key
  by_cases hn : x < 0
  · simp only [hn, decide_true, if_true] at a b c
    refine ⟨N, st, ?_, ?_⟩
    · simp only [giveSigned, putSigned, hn, if_true]; exact a
    · simp only [ShowsSigned, hn, if_true]
      refine ⟨⟨_, _, ?_, b, ?_⟩, c⟩
      · linarith
      · rw [abs_le]; constructor <;> linarith
  · simp only [hn, decide_false, Bool.false_eq_true, if_false] at a b c
    refine ⟨N, st, ?_, ?_⟩
    · simp only [giveSigned, putSigned, hn, if_false]; exact a
    · simp only [ShowsSigned, hn, if_false]
      refine ⟨⟨_, _, ?_, b, ?_⟩, c⟩
      · linarith
      · rw [abs_le]; constructor <;> linarith

/-- A concrete case: -2/5 stored and recalled. -/
example : PredEnds (sortedHeap _) (fun _ => 0) ⟨10, 100⟩ (1 / 100) (signedMemoryNetwork (⟨10, 100⟩ : Encoder ℚ) none World.empty).2 0
    [giveSigned (-(2 / 5)) 0 1, .spike 4 150] (fun log => ShowsSigned ⟨10, 100⟩ (1 / 100) (log 5) (log 6) (-(2 / 5))) :=
  C83_signed_memory (sortedHeap _) (exp := fun _ => (0 : ℚ)) (enc := ⟨10, 100⟩) (by norm_num) (by norm_num)
    (dt := 1 / 100) sane0 (by norm_num) (by norm_num [Encoder.Tmax]) none (x := -(2 / 5)) (by norm_num [abs_of_nonneg]) (R := 150)
    (by norm_num [Encoder.Tmax])

/-! ## C84: the scalar multiplier -/

/-- The synapses of the scalar multiplier. -/
theorem smul_syns (f : K) (enc : Encoder K) (name : Option String) : (scalarMultiplierNetwork f enc name World.empty).2.syns.reverse =
    [⟨0, 1, 10, 1, .V⟩, ⟨0, 2, 1 / 2 * 10, 1, .V⟩, ⟨1, 1, -10, 1, .V⟩, ⟨1, 3, f * enc.wacc, 1 + enc.Tmin, .ge⟩,
    ⟨2, 4, f * enc.wacc, 2 * 1, .ge⟩, ⟨3, 4, -(f * enc.wacc), 1, .ge⟩, ⟨4, 5, 10, 1 + enc.Tmin, .V⟩, ⟨3, 4, enc.wacc, 1, .ge⟩,
    ⟨3, 5, 10, 2 * 1, .V⟩] := rfl

/-- The scalar multiplier: its answer, exactly. -/
theorem pred_scalar (H : TimeHeap K) {exp : K → K} {enc : Encoder K} (h1 : 1 ≤ enc.Tmin) (h2 : 0 < enc.Tcod) {dt : K} (hs : Sane exp dt)
    {f : K} (hf : 0 < f) (h5 : enc.Tmax / f + 2 * dt ≤ 500) (h6 : enc.Tcod + 2 * dt ≤ 500) (name : Option String) {v : K} (hv0 : 0 < v) (hv1 : v ≤ 1)
    (hfv : f * v ≤ 1) (t0 : K) :
    let w := (scalarMultiplierNetwork f enc name World.empty).2
    PredEnds H exp enc dt w 0 [.value v 0 t0] (fun log =>
      log 5 = some [enc.Tmin + up dt (enc.Tmax / f) + 4,
        enc.Tmin + up dt (enc.Tmax / f) + 4 + enc.Tmin + up dt (max 0 (f * v * enc.Tcod - f * (up dt (enc.Tmax / f) - enc.Tmax / f)))]) := by
  intro w
  have hdt := hs.pos
  have hTm : enc.Tmax = enc.Tmin + enc.Tcod := rfl
  have hvc : 0 < v * enc.Tcod := mul_pos hv0 h2
  have hT0 : 0 < enc.Tmax := by linarith
  have hw : enc.wacc * enc.Tmax = 1000 := by unfold Encoder.wacc; field_simp; norm_num
  have hw0 : 0 < enc.wacc := by unfold Encoder.wacc; positivity
  have hwf : f * enc.wacc * (enc.Tmax / f) = 1000 := by field_simp; linarith
  have hTf : 0 < enc.Tmax / f := by positivity
  have hfvc : f * v * enc.Tcod ≤ enc.Tcod := by
    have : f * v * enc.Tcod ≤ 1 * enc.Tcod := mul_le_mul_of_nonneg_right hfv h2.le
    linarith
  have hvlt : v * enc.Tcod < enc.Tmax / f := by
    rw [lt_div_iff₀ hf]; nlinarith
  set I := enc.Tmin + v * enc.Tcod with hIdef
  have hA1 := le_up hdt (enc.Tmax / f)
  have hA2 := up_lt hdt (enc.Tmax / f)
  set A := up dt (enc.Tmax / f) with hAdef
  set y := f * v * enc.Tcod - f * (A - enc.Tmax / f) with hy
  have hyle : y ≤ enc.Tcod := by
    have := mul_nonneg hf.le (sub_nonneg.mpr hA1)
    linarith
  have hC1 := le_up hdt (max 0 y)
  set C := up dt (max 0 y) with hCdef
  have hC0 : 0 ≤ C := (le_max_left 0 y).trans hC1
  have hsyn : w.syns.reverse = _ := smul_syns f enc name
  have hpos : ∀ s ∈ w.syns, 0 < s.delay := by
    intro s hs
    rw [← List.mem_reverse, hsyn] at hs
    fin_cases hs <;> simp only <;> first | linarith | norm_num
  refine LibOK.pred (scalarMultiplier_lib f enc name) H enc hdt hpos (by simp [CallOK, hv0.le, hv1]) (by simp [predSpikes])
    (fun x => [[0, I], [1], [I + 1], [enc.Tmin + 2 + A], [enc.Tmin + A + 3 + C], [enc.Tmin + A + 4, enc.Tmin + A + 4 + enc.Tmin + C]].getD x [])
    (fun x hx => getD_none _ hx) ?_ ?_
  · intro E e1 e2 e3 e4 x hx
    rw [hsyn] at e3
    have hsE : Sane E.exp E.dt := by rw [e1, e2]; exact hs
    have hp := e4 x hx
    interval_cases x
    · exact Fits.pair hp hsE (a := 0) (b := I) (by linarith) (by simp [arriving, e3, e4, stdPar, predSpikes, hIdef]) rfl
    · exact Fits.first hp hsE (a := 1) (b := I + 1) (by linarith) (by arr_tac e3) rfl
    · exact Fits.last hp hsE (a := 1) (b := I + 1) (by linarith) (by arr_tac e3) rfl
    · refine Fits.acc hp hsE (a := enc.Tmin + 2) hTf hwf (by rw [e2]; exact h5) (by arr_tac e3) ?_
      rw [e2]; rfl
    · refine Fits.of [⟨I + 3, [(.ge, f * enc.wacc)]⟩, ⟨enc.Tmin + A + 3, [(.ge, -(f * enc.wacc)), (.ge, enc.wacc)]⟩] (by simp; linarith) (by simp)
        (by arr_tac e3) ?_
      obtain ⟨r, hr⟩ := predict_ok hp (lin 0 (f * enc.wacc))
      refine Reacts.quiet (r := r) (s' := lin 0 (f * enc.wacc)) (v := ⟨I + 3, [(.ge, f * enc.wacc)]⟩) (by rw [pass_lin hp]; simp [bumps, bump]) hr ?_ ?_
      · rintro m rfl
        refine ⟨_, rfl, ?_⟩
        have hfirst : predictSteps E.exp (E.net.par 4) (lin 0 (f * enc.wacc)) E.dt = .ok (some ⌈(enc.Tmax / f) / E.dt⌉) := by
          refine predict_first hp hsE.exp hsE.pos hsE.steps (by positivity) (by simp) (maxSteps_gt hsE.pos hTf.le (by rw [e2]; exact h5))
            (Int.ceil_nonneg (div_nonneg hTf.le hsE.pos.le)) ?_ ?_
          · rw [expected_lin]
            have h1 : enc.Tmax / f ≤ ⌈(enc.Tmax / f) / E.dt⌉ * E.dt := le_up hsE.pos _
            have := mul_le_mul_of_nonneg_left h1 (show 0 ≤ f * enc.wacc / 100 by positivity)
            have e : f * enc.wacc / 100 * (enc.Tmax / f) = 10 := by linear_combination hwf / 100
            linarith
          · intro k k0 k1
            rw [expected_lin]
            have h1 : (k : K) * E.dt < enc.Tmax / f := by
              rw [← lt_div_iff₀ hsE.pos]; exact Int.lt_ceil.mp k1
            have := mul_lt_mul_of_pos_left h1 (show 0 < f * enc.wacc / 100 by positivity)
            have e : f * enc.wacc / 100 * (enc.Tmax / f) = 10 := by linear_combination hwf / 100
            linarith
        rw [hfirst] at hr
        have hm : ⌈(enc.Tmax / f) / E.dt⌉ = m := by injection hr with hr; injection hr
        have hmA : (m : K) * E.dt = A := by rw [← hm, e2]; rfl
        rw [hmA]
        show enc.Tmin + A + 3 < I + 3 + A
        linarith
      · have hV : f * enc.wacc / 100 * (A - v * enc.Tcod) = 10 - enc.wacc / 100 * y := by
          rw [hy]
          have : f * (enc.Tmax / f) = enc.Tmax := by field_simp
          linear_combination (1 / 100) * hw + (enc.wacc / 100) * this
        have hb : bumps (lin (0 + f * enc.wacc / 100 * (enc.Tmin + A + 3 - (I + 3))) (f * enc.wacc)) [(.ge, -(f * enc.wacc)), (.ge, enc.wacc)] =
            some (lin (10 - enc.wacc / 100 * y) enc.wacc) := by
          rw [← hV]; simp [bumps, bump]; left; rw [hIdef]; ring
        show Reacts E 4 _ _ _ [enc.Tmin + A + 3 + C]
        rcases le_total 0 y with hy0 | hy0
        · have := fire_later (L := []) (vs := []) (x := y) (t := enc.Tmin + A + 3) hp hsE.exp hsE.pos hsE.steps hb hw0 (by ring) hy0 (by rw [e2]; linarith)
            (by simp) Reacts.done
          rw [e2, show up dt y = C by rw [hCdef, max_eq_right hy0]] at this
          exact this
        · have h0 : C = 0 := by
            rw [hCdef, max_eq_left hy0]; simp [up]
          rw [h0, add_zero]
          have := mul_nonpos_of_nonneg_of_nonpos (show 0 ≤ enc.wacc / 100 by positivity) hy0
          exact fire_now hp hsE.exp hsE.pos hsE.steps (by linarith [hsE.small]) hb (by linarith) hw0.le (by simp) Reacts.done
    · exact Fits.pair hp hsE (a := enc.Tmin + A + 4) (b := enc.Tmin + A + 4 + enc.Tmin + C) (by linarith) (by arr_tac e3) rfl
  · intro log h
    exact h 5 (by norm_num)

/-- **C84**, `ScalarMultiplierNetwork` with a positive factor: a value `v > 0` comes out as `factor * v`, at most `factor * dt` too short and less than `dt` too
long. -/
theorem C84_scalar_multiplier (H : TimeHeap K) {exp : K → K} {enc : Encoder K} (h1 : 1 ≤ enc.Tmin) (h2 : 0 < enc.Tcod) {dt : K} (hs : Sane exp dt)
    {f : K} (hf : 0 < f) (h5 : enc.Tmax / f + 2 * dt ≤ 500) (h6 : enc.Tcod + 2 * dt ≤ 500) (name : Option String) {v : K} (hv0 : 0 < v) (hv1 : v ≤ 1)
    (hfv : f * v ≤ 1) (t0 : K) :
    let p := (scalarMultiplierNetwork f enc name World.empty).1
    let w := (scalarMultiplierNetwork f enc name World.empty).2
    PredEnds H exp enc dt w p.mod [.value v p.input t0] (fun log =>
      ∃ a b, a < b ∧ log p.output = some [a, b] ∧
        enc.Tmin + f * v * enc.Tcod - f * dt < b - a ∧ b - a < enc.Tmin + f * v * enc.Tcod + dt) := by
  intro p w
  have hdt := hs.pos
  obtain ⟨N, st, a, b⟩ := pred_scalar H h1 h2 hs hf h5 h6 name hv0 hv1 hfv t0
  have a1 := le_up hdt (enc.Tmax / f)
  have a2 := up_lt hdt (enc.Tmax / f)
  have c1 := mul_nonneg hf.le (sub_nonneg.mpr a1)
  have c2 := mul_lt_mul_of_pos_left a2 hf
  set y := f * v * enc.Tcod - f * (up dt (enc.Tmax / f) - enc.Tmax / f) with hy
  have b1 := le_up hdt (max 0 y)
  have b2 := up_lt hdt (max 0 y)
  have m0 := le_max_left 0 y
  have m1 := le_max_right 0 y
  have m2 : max 0 y ≤ f * v * enc.Tcod := max_le (by positivity) (by linarith)
  refine ⟨N, st, a, _, _, ?_, b, ?_, ?_⟩
  · linarith
  · linarith
  · linarith

/-- A concrete case: a quarter of 4/5. -/
example : PredEnds (sortedHeap _) (fun _ => 0) ⟨10, 100⟩ (1 / 100) (scalarMultiplierNetwork (1 / 4) (⟨10, 100⟩ : Encoder ℚ) none World.empty).2 0
    [.value (4 / 5) 0 0] (fun log => ∃ a b, a < b ∧ log 5 = some [a, b] ∧ 30 - 1 / 400 < b - a ∧ b - a < 30 + 1 / 100) := by
  obtain ⟨N, st, a, x, y, b, c, d, e⟩ := C84_scalar_multiplier (sortedHeap _) (exp := fun _ => (0 : ℚ)) (enc := ⟨10, 100⟩) (by norm_num) (by norm_num)
    (dt := 1 / 100) sane0 (f := 1 / 4) (by norm_num) (by norm_num [Encoder.Tmax]) (by norm_num) none (v := 4 / 5) (by norm_num) (by norm_num) (by norm_num) 0
  norm_num at d e
  exact ⟨N, st, a, x, y, b, c, by linarith, by linarith⟩

set_option maxHeartbeats 2000000 in
/-- **C84**, the value 0: with a factor of at least 1 the answer is 0, exactly; with a smaller factor (not so close to 1 that the predictive engine's search horizon is
exceeded) the answer 0 is followed by a third, spurious spike: the second integrator spikes at the very moment at which its input is switched, so the switch
acts on the neuron that has just been reset. -/
theorem C84_scalar_zero (H : TimeHeap K) {exp : K → K} {enc : Encoder K} (h1 : 1 ≤ enc.Tmin) (h2 : 0 < enc.Tcod) {dt : K} (hs : Sane exp dt)
    {f : K} (hf : 0 < f) (h5 : enc.Tmax / f + 2 * dt ≤ 500) (name : Option String) (t0 : K) :
    let p := (scalarMultiplierNetwork f enc name World.empty).1
    let w := (scalarMultiplierNetwork f enc name World.empty).2
    (1 ≤ f → PredEnds H exp enc dt w p.mod [.value 0 p.input t0] (fun log => Shows enc 0 (log p.output) 0)) ∧
    (f < 1 → enc.Tmax / (1 - f) + 2 * dt ≤ 500 → PredEnds H exp enc dt w p.mod [.value 0 p.input t0] (fun log =>
      ∃ a b c, log p.output = some [a, b, c] ∧ b - a = enc.Tmin ∧ enc.Tmax ≤ c - b)) := by
  intro p w
  have hdt := hs.pos
  have hTm : enc.Tmax = enc.Tmin + enc.Tcod := rfl
  have hT0 : 0 < enc.Tmax := by linarith
  have hw : enc.wacc * enc.Tmax = 1000 := by unfold Encoder.wacc; field_simp; norm_num
  have hw0 : 0 < enc.wacc := by unfold Encoder.wacc; positivity
  have hwf : f * enc.wacc * (enc.Tmax / f) = 1000 := by field_simp; linarith
  have hTf : 0 < enc.Tmax / f := by positivity
  have hA1 := le_up hdt (enc.Tmax / f)
  set A := up dt (enc.Tmax / f) with hAdef
  have hsyn : w.syns.reverse = _ := smul_syns f enc name
  have hpos : ∀ s ∈ w.syns, 0 < s.delay := by
    intro s hs
    rw [← List.mem_reverse, hsyn] at hs
    fin_cases hs <;> simp only <;> first | linarith | norm_num
  have hb : bumps (lin (0 + 0 / 100 * (enc.Tmin + A + 3 - (enc.Tmin + 3))) 0) [(.ge, -(f * enc.wacc)), (.ge, enc.wacc)] =
      some (lin 0 ((1 - f) * enc.wacc)) := by
    simp [bumps, bump]; ring
  constructor
  · intro hf1
    show PredEnds H exp enc dt w 0 [.value 0 0 t0] (fun log => Shows enc 0 (log 5) 0)
    refine LibOK.pred (scalarMultiplier_lib f enc name) H enc hdt hpos (by simp [CallOK]) (by simp [predSpikes])
      (fun x => [[0, enc.Tmin], [1], [enc.Tmin + 1], [enc.Tmin + 2 + A], [enc.Tmin + 3 + A], [enc.Tmin + A + 4, enc.Tmin + A + 4 + enc.Tmin]].getD x [])
      (fun x hx => getD_none _ hx) ?_ ?_
    · intro E e1 e2 e3 e4 x hx
      rw [hsyn] at e3
      have hsE : Sane E.exp E.dt := by rw [e1, e2]; exact hs
      have hp := e4 x hx
      interval_cases x
      · exact Fits.pair hp hsE (a := 0) (b := enc.Tmin) (by linarith) (by simp [arriving, e3, e4, stdPar, predSpikes]) rfl
      · exact Fits.first hp hsE (a := 1) (b := enc.Tmin + 1) (by linarith) (by arr_tac e3) rfl
      · exact Fits.last hp hsE (a := 1) (b := enc.Tmin + 1) (by linarith) (by arr_tac e3) rfl
      · refine Fits.acc hp hsE (a := enc.Tmin + 2) hTf hwf (by rw [e2]; exact h5) (by arr_tac e3) ?_
        rw [e2]; rfl
      · refine Fits.of [⟨enc.Tmin + 3, [(.ge, f * enc.wacc)]⟩, ⟨enc.Tmin + A + 3, [(.ge, -(f * enc.wacc)), (.ge, enc.wacc)]⟩] (by simp; linarith) (by simp)
          (by arr_tac e3) ?_
        have := fire_later (E := E) (n := 4) (L := []) (vs := [⟨enc.Tmin + A + 3, [(.ge, -(f * enc.wacc)), (.ge, enc.wacc)]⟩]) (V := 0) (ge := 0) (l := 0) (V' := 0)
          (hits := [(.ge, f * enc.wacc)]) (ge' := f * enc.wacc) (x := enc.Tmax / f) (t := enc.Tmin + 3) hp hsE.exp hsE.pos hsE.steps (by simp [bumps, bump])
          (by positivity) (by linear_combination hwf / 100) hTf.le (by rw [e2]; exact h5) (by simp [e2, ← hAdef]; linarith)
          (quiet_never hp hsE.pos hsE.steps hb (by norm_num) (mul_nonpos_of_nonpos_of_nonneg (by linarith) hw0.le) Reacts.done)
        rw [e2, ← hAdef] at this
        exact this
      · exact Fits.pair hp hsE (a := enc.Tmin + A + 4) (b := enc.Tmin + A + 4 + enc.Tmin) (by linarith) (by arr_tac e3) rfl
    · intro log h
      exact ⟨_, _, by linarith, h 5 (by norm_num), by simp⟩
  · intro hf1 h7
    have hfp : 0 < 1 - f := by linarith
    show PredEnds H exp enc dt w 0 [.value 0 0 t0] (fun log => ∃ a b c, log 5 = some [a, b, c] ∧ b - a = enc.Tmin ∧ enc.Tmax ≤ c - b)
    have hwg : (1 - f) * enc.wacc * (enc.Tmax / (1 - f)) = 1000 := by field_simp; linarith
    have hTg : 0 < enc.Tmax / (1 - f) := by positivity
    have hTle : enc.Tmax ≤ enc.Tmax / (1 - f) := by rw [le_div_iff₀ hfp]; nlinarith
    have hB1 := le_up hdt (enc.Tmax / (1 - f))
    set B := up dt (enc.Tmax / (1 - f)) with hBdef
    refine LibOK.pred (scalarMultiplier_lib f enc name) H enc hdt hpos (by simp [CallOK]) (by simp [predSpikes])
      (fun x => [[0, enc.Tmin], [1], [enc.Tmin + 1], [enc.Tmin + 2 + A], [enc.Tmin + 3 + A, enc.Tmin + A + 3 + B],
        [enc.Tmin + A + 4, enc.Tmin + A + 4 + enc.Tmin, enc.Tmin + A + 4 + enc.Tmin + B]].getD x [])
      (fun x hx => getD_none _ hx) ?_ ?_
    · intro E e1 e2 e3 e4 x hx
      rw [hsyn] at e3
      have hsE : Sane E.exp E.dt := by rw [e1, e2]; exact hs
      have hp := e4 x hx
      interval_cases x
      · exact Fits.pair hp hsE (a := 0) (b := enc.Tmin) (by linarith) (by simp [arriving, e3, e4, stdPar, predSpikes]) rfl
      · exact Fits.first hp hsE (a := 1) (b := enc.Tmin + 1) (by linarith) (by arr_tac e3) rfl
      · exact Fits.last hp hsE (a := 1) (b := enc.Tmin + 1) (by linarith) (by arr_tac e3) rfl
      · refine Fits.acc hp hsE (a := enc.Tmin + 2) hTf hwf (by rw [e2]; exact h5) (by arr_tac e3) ?_
        rw [e2]; rfl
      · refine Fits.of [⟨enc.Tmin + 3, [(.ge, f * enc.wacc)]⟩, ⟨enc.Tmin + A + 3, [(.ge, -(f * enc.wacc)), (.ge, enc.wacc)]⟩] (by simp; linarith) (by simp)
          (by arr_tac e3) ?_
        have hnext := fire_later (E := E) (n := 4) (L := []) (vs := []) (x := enc.Tmax / (1 - f)) (t := enc.Tmin + A + 3) hp hsE.exp hsE.pos hsE.steps hb
          (by positivity) (by linear_combination hwg / 100) hTg.le (by rw [e2]; exact h7) (by simp) Reacts.done
        have := fire_later (E := E) (n := 4) (vs := [⟨enc.Tmin + A + 3, [(.ge, -(f * enc.wacc)), (.ge, enc.wacc)]⟩]) (V := 0) (ge := 0) (l := 0) (V' := 0)
          (hits := [(.ge, f * enc.wacc)]) (ge' := f * enc.wacc) (x := enc.Tmax / f) (t := enc.Tmin + 3) hp hsE.exp hsE.pos hsE.steps (by simp [bumps, bump])
          (by positivity) (by linear_combination hwf / 100) hTf.le (by rw [e2]; exact h5) (by simp [e2, ← hAdef]; linarith) hnext
        rw [e2, ← hAdef, ← hBdef] at this
        exact this
      · exact Fits.sums hp hsE [(enc.Tmin + A + 4, 10), (enc.Tmin + A + 4 + enc.Tmin, 10), (enc.Tmin + A + 4 + enc.Tmin + B, 10)] 0
          (by simp; refine ⟨?_, ?_, ?_⟩ <;> linarith) (by arr_tac e3) (by simp only [List.getD_cons_succ, List.getD_cons_zero]; vok_tac)
    · intro log h
      exact ⟨_, _, _, h 5 (by norm_num), by ring, by linarith⟩

/-- A concrete case: half of 0, in a simulation with the default parameters. -/
example : PredEnds (sortedHeap _) (fun _ => 0) ⟨10, 100⟩ (1 / 100) (scalarMultiplierNetwork (1 / 2) (⟨10, 100⟩ : Encoder ℚ) none World.empty).2 0
    [.value 0 0 0] (fun log => ∃ a b c, log 5 = some [a, b, c] ∧ b - a = 10 ∧ 110 ≤ c - b) := by
  obtain ⟨N, st, a, x, y, z, b, c, d⟩ := (C84_scalar_zero (sortedHeap _) (exp := fun _ => (0 : ℚ)) (enc := ⟨10, 100⟩) (by norm_num) (by norm_num)
    (dt := 1 / 100) sane0 (f := 1 / 2) (by norm_num) (by norm_num [Encoder.Tmax]) none 0).2 (by norm_num) (by norm_num [Encoder.Tmax])
  exact ⟨N, st, a, x, y, z, b, c, by norm_num [Encoder.Tmax] at d; exact d⟩

end Axon
