import Verif.Props.PredNets2

/-! # The subtractor in the predictive simulator -/
set_option linter.unusedSectionVars false
namespace Axon
open Spec
variable {K : Type*} [Field K] [LinearOrder K] [IsStrictOrderedRing K] [FloorRing K]

/-! ## C85: the subtractor -/

/-- The synapses of the subtractor. -/
theorem sub_syns (enc : Encoder K) (name : Option String) : (subtractorNetwork enc name World.empty).2.syns.reverse =
    [⟨0, 2, 1 / 2 * 10, 1, .V⟩, ⟨1, 3, 1 / 2 * 10, 1, .V⟩, ⟨2, 4, 10, 1, .V⟩, ⟨3, 5, 10, 1, .V⟩, ⟨2, 5, -10, 1, .V⟩, ⟨3, 4, -10, 1, .V⟩,
     ⟨2, 6, 10, enc.Tmin + (3 * 1 + 2 * (1 / 100)), .V⟩, ⟨3, 7, 10, enc.Tmin + (3 * 1 + 2 * (1 / 100)), .V⟩,
     ⟨3, 6, 10, 3 * 1 + 2 * (1 / 100), .V⟩, ⟨2, 7, 10, 3 * 1 + 2 * (1 / 100), .V⟩, ⟨5, 7, 2 * -10, 1, .V⟩, ⟨4, 6, 2 * -10, 1, .V⟩,
     ⟨6, 5, 1 / 2 * 10, 1, .V⟩, ⟨7, 4, 1 / 2 * 10, 1, .V⟩, ⟨8, 8, 10, 1 / 100, .V⟩, ⟨2, 8, 1 / 2 * -10, 2 * (1 / 100), .V⟩,
     ⟨3, 8, 1 / 2 * -10, 2 * (1 / 100), .V⟩, ⟨2, 8, 1 / 2 * 10, 1 / 100, .V⟩, ⟨3, 8, 1 / 2 * 10, 1 / 100, .V⟩, ⟨8, 7, 2 * -10, 1 / 100, .V⟩,
     ⟨8, 5, -10, 1 / 100, .V⟩] := rfl


/-- The trains of the subtractor, once they are guessed. -/
theorem sub_pred (H : TimeHeap K) {exp : K → K} {enc : Encoder K} (h1 : 1 ≤ enc.Tmin) (h2 : 0 < enc.Tcod) {dt : K} (hs : Sane exp dt)
    (name : Option String) {v1 v2 : K} (hv1 : 0 ≤ v1 ∧ v1 ≤ 1) (hv2 : 0 ≤ v2 ∧ v2 ≤ 1) (t1 t2 : K) (L4 L5 L6 L7 L8 : List K)
    (hfit : ∀ E : PEnv K, Sane E.exp E.dt → E.net.syns = (subtractorNetwork enc name World.empty).2.syns.reverse → (∀ x < 9, E.net.par x = stdPar) →
      ∀ x < 9, 4 ≤ x → Fits E [(0, 0), (0, enc.Tmin + v1 * enc.Tcod), (1, 0), (1, enc.Tmin + v2 * enc.Tcod)]
        (fun x => [[0, enc.Tmin + v1 * enc.Tcod], [0, enc.Tmin + v2 * enc.Tcod], [enc.Tmin + v1 * enc.Tcod + 1], [enc.Tmin + v2 * enc.Tcod + 1], L4, L5, L6, L7, L8].getD x []) x) :
    PredEnds H exp enc dt (subtractorNetwork enc name World.empty).2 0 [.value v1 0 t1, .value v2 1 t2] (fun log => log 6 = some L6 ∧ log 7 = some L7) := by
  set w := (subtractorNetwork enc name World.empty).2 with hwdef
  have hdt := hs.pos
  have hI1 := interval_pos (enc := enc) (by linarith) h2 hv1.1
  have hI2 := interval_pos (enc := enc) (by linarith) h2 hv2.1
  have hsyn : w.syns.reverse = _ := sub_syns enc name
  have hpos : ∀ s ∈ w.syns, 0 < s.delay := by
    intro s hs
    rw [← List.mem_reverse, hsyn] at hs
    fin_cases hs <;> simp only <;> first | linarith | norm_num
  refine LibOK.pred (subtractor_lib enc name) H enc hdt hpos (by simp [CallOK, hv1, hv2]) (by simp [predSpikes])
    (fun x => [[0, enc.Tmin + v1 * enc.Tcod], [0, enc.Tmin + v2 * enc.Tcod], [enc.Tmin + v1 * enc.Tcod + 1], [enc.Tmin + v2 * enc.Tcod + 1], L4, L5, L6, L7, L8].getD x [])
    (fun x hx => getD_none _ hx) ?_ (fun log h => ⟨h 6 (by norm_num), h 7 (by norm_num)⟩)
  intro E e1 e2 e3 e4 x hx
  have hsE : Sane E.exp E.dt := by rw [e1, e2]; exact hs
  have hp := e4 x hx
  by_cases hx4 : 4 ≤ x
  · have := hfit E hsE e3 e4 x hx hx4
    simpa [predSpikes] using this
  · rw [hsyn] at e3
    interval_cases x
    · exact Fits.pair hp hsE hI1 (by simp [arriving, e3, e4, stdPar, predSpikes]) rfl
    · exact Fits.pair hp hsE hI2 (by simp [arriving, e3, e4, stdPar, predSpikes]) rfl
    · exact Fits.last hp hsE (a := 1) (b := enc.Tmin + v1 * enc.Tcod + 1) (by linarith) (by arr_tac e3) rfl
    · exact Fits.last hp hsE (a := 1) (b := enc.Tmin + v2 * enc.Tcod + 1) (by linarith) (by arr_tac e3) rfl

set_option maxHeartbeats 4000000 in
/-- The first value is clearly larger. -/
theorem sub_plus (H : TimeHeap K) {exp : K → K} {enc : Encoder K} (h1 : 1 ≤ enc.Tmin) (h2 : 0 < enc.Tcod) {dt : K} (hs : Sane exp dt)
    (name : Option String) {v1 v2 : K} (hv1 : 0 ≤ v1 ∧ v1 ≤ 1) (hv2 : 0 ≤ v2 ∧ v2 ≤ 1) (t1 t2 : K) (h : 1 / 100 ≤ (enc.Tmin + v1 * enc.Tcod) - (enc.Tmin + v2 * enc.Tcod)) :
    PredEnds H exp enc dt (subtractorNetwork enc name World.empty).2 0 [.value v1 0 t1, .value v2 1 t2] (fun log =>
      log 6 = some [(enc.Tmin + v2 * enc.Tcod) + 402 / 100, (enc.Tmin + v1 * enc.Tcod) + enc.Tmin + 402 / 100] ∧ log 7 = some []) := by
  refine sub_pred H h1 h2 hs name hv1 hv2 t1 t2 ([]) ([(enc.Tmin + v2 * enc.Tcod) + 2]) ([(enc.Tmin + v2 * enc.Tcod) + 402 / 100, (enc.Tmin + v1 * enc.Tcod) + enc.Tmin + 402 / 100]) ([]) ([]) ?_
  have hI1 := mul_nonneg hv1.1 h2.le
  have hI2 := mul_nonneg hv2.1 h2.le
  set I1 := enc.Tmin + v1 * enc.Tcod with hI1def
  set I2 := enc.Tmin + v2 * enc.Tcod with hI2def
  have hI1' : 1 ≤ I1 := by linarith
  have hI2' : 1 ≤ I2 := by linarith
  have hT := h1
  intro E hsE e3 e4 x hx hx4
  rw [sub_syns] at e3
  generalize enc.Tmin = Tm at *
  have hp := e4 x hx
  clear hI1def hI2def
  interval_cases x
  · exact Fits.sums hp hsE [(I1 + 2, 10), (I2 + 2, -10)] 0 (by simp only [List.mem_cons, List.not_mem_nil, or_false, forall_eq_or_imp, forall_eq]; refine_lift ?_; repeat' (first | linarith | apply And.intro)) (by arr_tac e3)
      (by simp only [List.getD_cons_succ, List.getD_cons_zero]; vok_tac)
  · exact Fits.sums hp hsE [(I2 + 2, 10), (I1 + 2, -10), (I2 + 402 / 100 + 1, 5), (I1 + Tm + 402 / 100 + 1, 5)] 0 (by simp only [List.mem_cons, List.not_mem_nil, or_false, forall_eq_or_imp, forall_eq]; refine_lift ?_; repeat' (first | linarith | apply And.intro)) (by arr_tac e3)
      (by simp only [List.getD_cons_succ, List.getD_cons_zero]; vok_tac)
  · exact Fits.sums hp hsE [(I1 + Tm + 402 / 100, 10), (I2 + 402 / 100, 10)] 0 (by simp only [List.mem_cons, List.not_mem_nil, or_false, forall_eq_or_imp, forall_eq]; refine_lift ?_; repeat' (first | linarith | apply And.intro)) (by arr_tac e3)
      (by simp only [List.getD_cons_succ, List.getD_cons_zero]; vok_tac)
  · exact Fits.sums hp hsE [(I2 + Tm + 402 / 100, 10), (I1 + 402 / 100, 10), (I2 + 2 + 1, -20)] 0 (by simp only [List.mem_cons, List.not_mem_nil, or_false, forall_eq_or_imp, forall_eq]; refine_lift ?_; repeat' (first | linarith | apply And.intro)) (by arr_tac e3)
      (by simp only [List.getD_cons_succ, List.getD_cons_zero]; vok_tac)
  · exact Fits.sums hp hsE [(I1 + 102 / 100, -5), (I2 + 102 / 100, -5), (I1 + 101 / 100, 5), (I2 + 101 / 100, 5)] 0 (by simp only [List.mem_cons, List.not_mem_nil, or_false, forall_eq_or_imp, forall_eq]; refine_lift ?_; repeat' (first | linarith | apply And.intro)) (by arr_tac e3)
      (by simp only [List.getD_cons_succ, List.getD_cons_zero]; vok_tac)

set_option maxHeartbeats 4000000 in
/-- The first value is hardly larger. -/
theorem sub_plus_near (H : TimeHeap K) {exp : K → K} {enc : Encoder K} (h1 : 1 ≤ enc.Tmin) (h2 : 0 < enc.Tcod) {dt : K} (hs : Sane exp dt)
    (name : Option String) {v1 v2 : K} (hv1 : 0 ≤ v1 ∧ v1 ≤ 1) (hv2 : 0 ≤ v2 ∧ v2 ≤ 1) (t1 t2 : K) (h : 0 ≤ (enc.Tmin + v1 * enc.Tcod) - (enc.Tmin + v2 * enc.Tcod)) (h' : (enc.Tmin + v1 * enc.Tcod) - (enc.Tmin + v2 * enc.Tcod) < 1 / 100) :
    PredEnds H exp enc dt (subtractorNetwork enc name World.empty).2 0 [.value v1 0 t1, .value v2 1 t2] (fun log =>
      log 6 = some [(enc.Tmin + v2 * enc.Tcod) + 402 / 100, (enc.Tmin + v1 * enc.Tcod) + enc.Tmin + 402 / 100] ∧ log 7 = some []) := by
  refine sub_pred H h1 h2 hs name hv1 hv2 t1 t2 ([]) ([]) ([(enc.Tmin + v2 * enc.Tcod) + 402 / 100, (enc.Tmin + v1 * enc.Tcod) + enc.Tmin + 402 / 100]) ([]) ([(enc.Tmin + v1 * enc.Tcod) + 101 / 100]) ?_
  have hI1 := mul_nonneg hv1.1 h2.le
  have hI2 := mul_nonneg hv2.1 h2.le
  set I1 := enc.Tmin + v1 * enc.Tcod with hI1def
  set I2 := enc.Tmin + v2 * enc.Tcod with hI2def
  have hI1' : 1 ≤ I1 := by linarith
  have hI2' : 1 ≤ I2 := by linarith
  have hT := h1
  intro E hsE e3 e4 x hx hx4
  rw [sub_syns] at e3
  generalize enc.Tmin = Tm at *
  have hp := e4 x hx
  clear hI1def hI2def
  interval_cases x
  · exact Fits.sums hp hsE [(I1 + 2, 10), (I2 + 2, -10)] 0 (by simp only [List.mem_cons, List.not_mem_nil, or_false, forall_eq_or_imp, forall_eq]; refine_lift ?_; repeat' (first | linarith | apply And.intro)) (by arr_tac e3)
      (by simp only [List.getD_cons_succ, List.getD_cons_zero]; vok_tac)
  · exact Fits.sums hp hsE [(I2 + 2, 10), (I1 + 2, -10), (I2 + 402 / 100 + 1, 5), (I1 + Tm + 402 / 100 + 1, 5), (I1 + 101 / 100 + 1 / 100, -10)] 0 (by simp only [List.mem_cons, List.not_mem_nil, or_false, forall_eq_or_imp, forall_eq]; refine_lift ?_; repeat' (first | linarith | apply And.intro)) (by arr_tac e3)
      (by simp only [List.getD_cons_succ, List.getD_cons_zero]; vok_tac)
  · exact Fits.sums hp hsE [(I1 + Tm + 402 / 100, 10), (I2 + 402 / 100, 10)] 0 (by simp only [List.mem_cons, List.not_mem_nil, or_false, forall_eq_or_imp, forall_eq]; refine_lift ?_; repeat' (first | linarith | apply And.intro)) (by arr_tac e3)
      (by simp only [List.getD_cons_succ, List.getD_cons_zero]; vok_tac)
  · exact Fits.sums hp hsE [(I2 + Tm + 402 / 100, 10), (I1 + 402 / 100, 10), (I1 + 101 / 100 + 1 / 100, -20)] 0 (by simp only [List.mem_cons, List.not_mem_nil, or_false, forall_eq_or_imp, forall_eq]; refine_lift ?_; repeat' (first | linarith | apply And.intro)) (by arr_tac e3)
      (by simp only [List.getD_cons_succ, List.getD_cons_zero]; vok_tac)
  · exact Fits.sums hp hsE [(I1 + 102 / 100, -5), (I2 + 102 / 100, -5), (I1 + 101 / 100, 5), (I2 + 101 / 100, 5), (I1 + 101 / 100 + 1 / 100, 10)] 0 (by simp only [List.mem_cons, List.not_mem_nil, or_false, forall_eq_or_imp, forall_eq]; refine_lift ?_; repeat' (first | linarith | apply And.intro)) (by arr_tac e3)
      (by simp only [List.getD_cons_succ, List.getD_cons_zero]; vok_tac)

set_option maxHeartbeats 4000000 in
/-- The second value is clearly larger. -/
theorem sub_minus (H : TimeHeap K) {exp : K → K} {enc : Encoder K} (h1 : 1 ≤ enc.Tmin) (h2 : 0 < enc.Tcod) {dt : K} (hs : Sane exp dt)
    (name : Option String) {v1 v2 : K} (hv1 : 0 ≤ v1 ∧ v1 ≤ 1) (hv2 : 0 ≤ v2 ∧ v2 ≤ 1) (t1 t2 : K) (h : 1 / 100 ≤ (enc.Tmin + v2 * enc.Tcod) - (enc.Tmin + v1 * enc.Tcod)) :
    PredEnds H exp enc dt (subtractorNetwork enc name World.empty).2 0 [.value v1 0 t1, .value v2 1 t2] (fun log =>
      log 6 = some [] ∧ log 7 = some [(enc.Tmin + v1 * enc.Tcod) + 402 / 100, (enc.Tmin + v2 * enc.Tcod) + enc.Tmin + 402 / 100]) := by
  refine sub_pred H h1 h2 hs name hv1 hv2 t1 t2 ([(enc.Tmin + v1 * enc.Tcod) + 2]) ([]) ([]) ([(enc.Tmin + v1 * enc.Tcod) + 402 / 100, (enc.Tmin + v2 * enc.Tcod) + enc.Tmin + 402 / 100]) ([]) ?_
  have hI1 := mul_nonneg hv1.1 h2.le
  have hI2 := mul_nonneg hv2.1 h2.le
  set I1 := enc.Tmin + v1 * enc.Tcod with hI1def
  set I2 := enc.Tmin + v2 * enc.Tcod with hI2def
  have hI1' : 1 ≤ I1 := by linarith
  have hI2' : 1 ≤ I2 := by linarith
  have hT := h1
  intro E hsE e3 e4 x hx hx4
  rw [sub_syns] at e3
  generalize enc.Tmin = Tm at *
  have hp := e4 x hx
  clear hI1def hI2def
  interval_cases x
  · exact Fits.sums hp hsE [(I1 + 2, 10), (I2 + 2, -10), (I1 + 402 / 100 + 1, 5), (I2 + Tm + 402 / 100 + 1, 5)] 0 (by simp only [List.mem_cons, List.not_mem_nil, or_false, forall_eq_or_imp, forall_eq]; refine_lift ?_; repeat' (first | linarith | apply And.intro)) (by arr_tac e3)
      (by simp only [List.getD_cons_succ, List.getD_cons_zero]; vok_tac)
  · exact Fits.sums hp hsE [(I2 + 2, 10), (I1 + 2, -10)] 0 (by simp only [List.mem_cons, List.not_mem_nil, or_false, forall_eq_or_imp, forall_eq]; refine_lift ?_; repeat' (first | linarith | apply And.intro)) (by arr_tac e3)
      (by simp only [List.getD_cons_succ, List.getD_cons_zero]; vok_tac)
  · exact Fits.sums hp hsE [(I1 + Tm + 402 / 100, 10), (I2 + 402 / 100, 10), (I1 + 2 + 1, -20)] 0 (by simp only [List.mem_cons, List.not_mem_nil, or_false, forall_eq_or_imp, forall_eq]; refine_lift ?_; repeat' (first | linarith | apply And.intro)) (by arr_tac e3)
      (by simp only [List.getD_cons_succ, List.getD_cons_zero]; vok_tac)
  · exact Fits.sums hp hsE [(I2 + Tm + 402 / 100, 10), (I1 + 402 / 100, 10)] 0 (by simp only [List.mem_cons, List.not_mem_nil, or_false, forall_eq_or_imp, forall_eq]; refine_lift ?_; repeat' (first | linarith | apply And.intro)) (by arr_tac e3)
      (by simp only [List.getD_cons_succ, List.getD_cons_zero]; vok_tac)
  · exact Fits.sums hp hsE [(I1 + 102 / 100, -5), (I2 + 102 / 100, -5), (I1 + 101 / 100, 5), (I2 + 101 / 100, 5)] 0 (by simp only [List.mem_cons, List.not_mem_nil, or_false, forall_eq_or_imp, forall_eq]; refine_lift ?_; repeat' (first | linarith | apply And.intro)) (by arr_tac e3)
      (by simp only [List.getD_cons_succ, List.getD_cons_zero]; vok_tac)

set_option maxHeartbeats 4000000 in
/-- The second value is hardly larger. -/
theorem sub_dead (H : TimeHeap K) {exp : K → K} {enc : Encoder K} (h1 : 1 ≤ enc.Tmin) (h2 : 0 < enc.Tcod) {dt : K} (hs : Sane exp dt)
    (name : Option String) {v1 v2 : K} (hv1 : 0 ≤ v1 ∧ v1 ≤ 1) (hv2 : 0 ≤ v2 ∧ v2 ≤ 1) (t1 t2 : K) (h : 0 < (enc.Tmin + v2 * enc.Tcod) - (enc.Tmin + v1 * enc.Tcod)) (h' : (enc.Tmin + v2 * enc.Tcod) - (enc.Tmin + v1 * enc.Tcod) < 1 / 100) :
    PredEnds H exp enc dt (subtractorNetwork enc name World.empty).2 0 [.value v1 0 t1, .value v2 1 t2] (fun log =>
      log 6 = some [] ∧ log 7 = some []) := by
  refine sub_pred H h1 h2 hs name hv1 hv2 t1 t2 ([(enc.Tmin + v1 * enc.Tcod) + 2]) ([]) ([]) ([]) ([(enc.Tmin + v2 * enc.Tcod) + 101 / 100]) ?_
  have hI1 := mul_nonneg hv1.1 h2.le
  have hI2 := mul_nonneg hv2.1 h2.le
  set I1 := enc.Tmin + v1 * enc.Tcod with hI1def
  set I2 := enc.Tmin + v2 * enc.Tcod with hI2def
  have hI1' : 1 ≤ I1 := by linarith
  have hI2' : 1 ≤ I2 := by linarith
  have hT := h1
  intro E hsE e3 e4 x hx hx4
  rw [sub_syns] at e3
  generalize enc.Tmin = Tm at *
  have hp := e4 x hx
  clear hI1def hI2def
  interval_cases x
  · exact Fits.sums hp hsE [(I1 + 2, 10), (I2 + 2, -10)] 0 (by simp only [List.mem_cons, List.not_mem_nil, or_false, forall_eq_or_imp, forall_eq]; refine_lift ?_; repeat' (first | linarith | apply And.intro)) (by arr_tac e3)
      (by simp only [List.getD_cons_succ, List.getD_cons_zero]; vok_tac)
  · exact Fits.sums hp hsE [(I2 + 2, 10), (I1 + 2, -10), (I2 + 101 / 100 + 1 / 100, -10)] 0 (by simp only [List.mem_cons, List.not_mem_nil, or_false, forall_eq_or_imp, forall_eq]; refine_lift ?_; repeat' (first | linarith | apply And.intro)) (by arr_tac e3)
      (by simp only [List.getD_cons_succ, List.getD_cons_zero]; vok_tac)
  · exact Fits.sums hp hsE [(I1 + Tm + 402 / 100, 10), (I2 + 402 / 100, 10), (I1 + 2 + 1, -20)] 0 (by simp only [List.mem_cons, List.not_mem_nil, or_false, forall_eq_or_imp, forall_eq]; refine_lift ?_; repeat' (first | linarith | apply And.intro)) (by arr_tac e3)
      (by simp only [List.getD_cons_succ, List.getD_cons_zero]; vok_tac)
  · exact Fits.sums hp hsE [(I2 + Tm + 402 / 100, 10), (I1 + 402 / 100, 10), (I2 + 101 / 100 + 1 / 100, -20)] 0 (by simp only [List.mem_cons, List.not_mem_nil, or_false, forall_eq_or_imp, forall_eq]; refine_lift ?_; repeat' (first | linarith | apply And.intro)) (by arr_tac e3)
      (by simp only [List.getD_cons_succ, List.getD_cons_zero]; vok_tac)
  · exact Fits.sums hp hsE [(I1 + 102 / 100, -5), (I2 + 102 / 100, -5), (I1 + 101 / 100, 5), (I2 + 101 / 100, 5), (I2 + 101 / 100 + 1 / 100, 10)] 0 (by simp only [List.mem_cons, List.not_mem_nil, or_false, forall_eq_or_imp, forall_eq]; refine_lift ?_; repeat' (first | linarith | apply And.intro)) (by arr_tac e3)
      (by simp only [List.getD_cons_succ, List.getD_cons_zero]; vok_tac)

/-- **C85**, `SubtractorNetwork`: the difference of the two values comes out exactly, on the rail of its sign, with nothing on the other rail,
provided that it is not negative or its interval is at least 1/100 ms long.  (A smaller negative difference is not answered at all.) -/
theorem C85_subtractor (H : TimeHeap K) {exp : K → K} {enc : Encoder K} (h1 : 1 ≤ enc.Tmin) (h2 : 0 < enc.Tcod) {dt : K} (hs : Sane exp dt)
    (name : Option String) {v1 v2 : K} (hv1 : 0 ≤ v1 ∧ v1 ≤ 1) (hv2 : 0 ≤ v2 ∧ v2 ≤ 1) (t1 t2 : K) :
    let p := (subtractorNetwork enc name World.empty).1
    let w := (subtractorNetwork enc name World.empty).2
    ((v2 ≤ v1 ∨ 1 / 100 ≤ (v2 - v1) * enc.Tcod) → PredEnds H exp enc dt w p.mod [.value v1 p.input1 t1, .value v2 p.input2 t2] (fun log =>
      ShowsSigned enc 0 (log p.outputPlus) (log p.outputMinus) (v1 - v2))) ∧
    ((v1 < v2 ∧ (v2 - v1) * enc.Tcod < 1 / 100) → PredEnds H exp enc dt w p.mod [.value v1 p.input1 t1, .value v2 p.input2 t2] (fun log =>
      Quiet (log p.outputPlus) ∧ Quiet (log p.outputMinus))) := by
  intro p w
  have hd : (enc.Tmin + v2 * enc.Tcod) - (enc.Tmin + v1 * enc.Tcod) = (v2 - v1) * enc.Tcod := by ring
  have hd' : (enc.Tmin + v1 * enc.Tcod) - (enc.Tmin + v2 * enc.Tcod) = (v1 - v2) * enc.Tcod := by ring
  constructor
  · intro h
    by_cases hle : v2 ≤ v1
    · have h0 : 0 ≤ (v1 - v2) * enc.Tcod := mul_nonneg (by linarith) h2.le
      have key : PredEnds H exp enc dt w 0 [.value v1 0 t1, .value v2 1 t2] (fun log =>
          log 6 = some [(enc.Tmin + v2 * enc.Tcod) + 402 / 100, (enc.Tmin + v1 * enc.Tcod) + enc.Tmin + 402 / 100] ∧ log 7 = some []) := by
        by_cases hc : 1 / 100 ≤ (v1 - v2) * enc.Tcod
        · exact sub_plus H h1 h2 hs name hv1 hv2 t1 t2 (by rw [hd']; exact hc)
        · exact sub_plus_near H h1 h2 hs name hv1 hv2 t1 t2 (by rw [hd']; exact h0) (by rw [hd']; exact not_le.mp hc)
      obtain ⟨N, st, a, b, c⟩ := key
      refine ⟨N, st, a, ?_⟩
      simp only [ShowsSigned, not_lt.mpr (sub_nonneg.mpr hle), if_false, abs_of_nonneg (sub_nonneg.mpr hle)]
      refine ⟨⟨_, _, ?_, b, ?_⟩, c⟩
      · linarith
      · rw [abs_le]; constructor <;> linarith
    · have hlt := not_le.mp hle
      have hc := h.resolve_left hle
      obtain ⟨N, st, a, b, c⟩ := sub_minus H h1 h2 hs name hv1 hv2 t1 t2 (by rw [hd]; exact hc)
      refine ⟨N, st, a, ?_⟩
      have hneg : v1 - v2 < 0 := by linarith
      simp only [ShowsSigned, hneg, if_true, abs_of_neg hneg]
      refine ⟨⟨_, _, ?_, c, ?_⟩, b⟩
      · linarith
      · rw [abs_le]; constructor <;> linarith
  · rintro ⟨ha, hb⟩
    exact sub_dead H h1 h2 hs name hv1 hv2 t1 t2 (by rw [hd]; exact mul_pos (by linarith) h2) (by rw [hd]; exact hb)

/-- Concrete cases: 1/5 - 3/4, and a difference that is lost. -/
example : PredEnds (sortedHeap _) (fun _ => 0) ⟨10, 100⟩ (1 / 100) (subtractorNetwork (⟨10, 100⟩ : Encoder ℚ) none World.empty).2 0
    [.value (1 / 5) 0 0, .value (3 / 4) 1 0] (fun log => ShowsSigned ⟨10, 100⟩ 0 (log 6) (log 7) (1 / 5 - 3 / 4)) :=
  (C85_subtractor (sortedHeap _) (exp := fun _ => (0 : ℚ)) (enc := ⟨10, 100⟩) (by norm_num) (by norm_num)
    (dt := 1 / 100) sane0 none (v1 := 1 / 5) (v2 := 3 / 4) (by norm_num) (by norm_num) 0 0).1 (by norm_num)

example : PredEnds (sortedHeap _) (fun _ => 0) ⟨10, 100⟩ (1 / 100) (subtractorNetwork (⟨10, 100⟩ : Encoder ℚ) none World.empty).2 0
    [.value (1 / 5) 0 0, .value (1 / 5 + 1 / 20000) 1 0] (fun log => Quiet (log 6) ∧ Quiet (log 7)) :=
  (C85_subtractor (sortedHeap _) (exp := fun _ => (0 : ℚ)) (enc := ⟨10, 100⟩) (by norm_num) (by norm_num)
    (dt := 1 / 100) sane0 none (v1 := 1 / 5) (v2 := 1 / 5 + 1 / 20000) (by norm_num) (by norm_num) 0 0).2 (by norm_num)

end Axon
