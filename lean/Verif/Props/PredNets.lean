import Verif.Proofs.PredNet
import Verif.Props.Memory

/-! # The library networks in the predictive simulator -/
set_option linter.unusedSectionVars false
namespace Axon
open Spec
variable {K : Type*} [Field K] [LinearOrder K] [IsStrictOrderedRing K] [FloorRing K]

/-- A relay: every volley makes it spike at once. -/
theorem relay_reacts {E : PEnv K} {n : ℕ} (hpar : E.net.par n = stdPar) (hexp : Monotone E.exp) (hdt : 0 < E.dt) (hM : maxSteps E.dt < 2 ^ 64)
    (h2 : 2 * E.dt ≤ 500) : ∀ (ts : List K) (l : K), ts.Pairwise (· < ·) →
    Reacts E n (lin 0 0) l (ts.map (fun t => ⟨t, [(.V, 10)]⟩)) ts := by
  intro ts
  induction ts with
  | nil => intro l _; exact Reacts.done
  | cons t ts ih =>
    intro l h
    rw [List.pairwise_cons] at h
    refine fire_now hpar hexp hdt hM h2 (V' := 10) (ge' := 0) (by simp [bumps, bump]) le_rfl le_rfl ?_ (ih t h.2)
    intro v hv
    cases ts with
    | nil => simp at hv
    | cons a b => simp at hv; subst hv; exact (h.1 a (by simp)).le

/-- A neuron that receives nothing but spikes of weight 10, at different times, passes them on. -/
theorem Fits.relay {E : PEnv K} {n : ℕ} (hpar : E.net.par n = stdPar) (hexp : Monotone E.exp) (hdt : 0 < E.dt) (hM : maxSteps E.dt < 2 ^ 64)
    (h2 : 2 * E.dt ≤ 500) {inj : List (ℕ × K)} {LS : ℕ → List K} (hs : (LS n).Pairwise (· < ·))
    (ha : ((LS n).map (fun t => Item.hit t .V 10)).Perm (arriving E.net inj LS n)) : Fits E inj LS n := by
  refine ⟨(LS n).map (fun t => ⟨t, [(.V, 10)]⟩), ?_, ?_, ?_, relay_reacts hpar hexp hdt hM h2 _ _ hs⟩
  · rw [List.map_map, show (Volley.time ∘ fun t : K => (⟨t, [(SynKind.V, (10 : K))]⟩ : Volley K)) = id from rfl, List.map_id]; exact hs
  · simp
  · refine (List.Perm.of_eq ?_).trans ha
    generalize LS n = ts
    induction ts with
    | nil => rfl
    | cons t ts ih => simp only [List.map_cons, List.flatMap_cons, ih]; rfl

/-- The default time step, with a stand-in for `math.exp` over the rationals. -/
theorem sane0 : Sane (fun _ : ℚ => (0 : ℚ)) (1 / 100) := ⟨fun _ _ _ => le_rfl, by norm_num, by norm_num, by decide +kernel⟩

/-! ## C80: constants and sign flips -/

/-- **C80**, `ConstantNetwork`: every recall is answered by exactly the stored constant, after exactly the synaptic delay (constant with
a positive interval, recalls farther apart than that interval). -/
theorem C80_constant (H : TimeHeap K) {exp : K → K} {enc : Encoder K} {dt : K} (hs : Sane exp dt) (name : Option String) {value : K} (hv : 0 < value * enc.Tcod + enc.Tmin) {ts : List K}
    (hsep : ts.Pairwise (fun s t => s + (value * enc.Tcod + enc.Tmin) < t)) :
    let p := (constantNetwork enc value name World.empty).1
    let w := (constantNetwork enc value name World.empty).2
    PredEnds H exp enc dt w p.mod (ts.map (Call.spike p.recall)) (fun log =>
      log p.output = some (ts.flatMap (fun t => [t + 1, t + 1 + (value * enc.Tcod + enc.Tmin)]))) := by
  obtain ⟨hexp, hdt, hd, hM⟩ := hs
  intro p w
  set I := value * enc.Tcod + enc.Tmin with hI
  show PredEnds H exp enc dt w 0 (ts.map (Call.spike 0)) (fun log => log 1 = _)
  have hsyn : w.syns.reverse = [⟨0, 1, 10, 1, .V⟩, ⟨0, 1, 10, 1 + I, .V⟩] := rfl
  have hinj : (ts.map (Call.spike 0)).flatMap (predSpikes enc) = ts.map (fun t => ((0 : ℕ), t)) := by
    rw [List.flatMap_map]
    induction ts with
    | nil => rfl
    | cons t ts ih => rw [List.flatMap_cons, ih (List.pairwise_cons.mp hsep).2]; rfl
  have hpos : ∀ s ∈ w.syns, 0 < s.delay := by
    intro s hs
    rw [← List.mem_reverse, hsyn] at hs
    simp only [List.mem_cons, List.not_mem_nil, or_false] at hs
    rcases hs with rfl | rfl
    · exact one_pos
    · show 0 < 1 + I
      linarith
  refine LibOK.pred (constant_lib enc value name) H enc hdt hpos (by simp [CallOK]) (by rw [hinj]; simp)
    (fun x => if x = 0 then ts else if x = 1 then ts.flatMap (fun t => [t + 1, t + 1 + I]) else []) ?_ ?_ ?_
  · intro x hx; rw [if_neg (by omega), if_neg (by omega)]
  · intro E h1 h2 h3 h4 x hx
    rw [hinj]
    have hmono : Monotone E.exp := by rw [h1]; exact hexp
    have hM' : maxSteps E.dt < 2 ^ 64 := by rw [h2]; exact hM
    rw [hsyn] at h3
    refine Fits.relay (h4 x hx) hmono (by rw [h2]; exact hdt) hM' (by rw [h2]; linarith) ?_ ?_
    · interval_cases x
      · simp only [if_true]
        exact hsep.imp fun h => by linarith
      · simp only [one_ne_zero, if_false, if_true]
        clear hinj
        induction ts with
        | nil => simp
        | cons t ts ih =>
          rw [List.pairwise_cons] at hsep
          rw [List.flatMap_cons, List.pairwise_append]
          refine ⟨by simp [hv], ih hsep.2, ?_⟩
          intro a ha b hb
          obtain ⟨u, hu, hb⟩ := List.mem_flatMap.mp hb
          have := hsep.1 u hu
          simp only [List.mem_cons, List.not_mem_nil, or_false] at ha hb
          rcases ha with rfl | rfl <;> rcases hb with rfl | rfl <;> linarith
    · interval_cases x
      · refine List.Perm.of_eq ?_
        simp [arriving, h3, h4, stdPar, List.filter_map, Function.comp_def]
      · have e : arriving E.net (ts.map (fun t => ((0 : ℕ), t))) (fun x => if x = 0 then ts else if x = 1 then ts.flatMap (fun t => [t + 1, t + 1 + I]) else []) 1
            = ts.map (fun t => Item.hit (t + 1) .V 10) ++ ts.map (fun t => Item.hit (t + (1 + I)) .V 10) := by
          simp [arriving, h3, List.filter_map, Function.comp_def]
        rw [e]
        simp only [one_ne_zero, if_false, if_true]
        clear hinj e hsep
        induction ts with
        | nil => simp
        | cons t ts ih =>
          simp only [List.flatMap_cons, List.map_append, List.map_cons, List.map_nil, List.cons_append, List.nil_append]
          refine List.Perm.cons _ ?_
          rw [add_assoc]
          exact (ih.cons _).trans List.perm_middle.symm
  · intro log h; rw [h 1 (by norm_num)]; rfl

/-- A concrete case: the default encoder, the constant 3/10, recalled at 5 and at 100. -/
example : PredEnds (sortedHeap _) (fun _ => 0) ⟨10, 100⟩ (1 / 100) (constantNetwork (⟨10, 100⟩ : Encoder ℚ) (3 / 10) none World.empty).2 0
    [.spike 0 5, .spike 0 100] (fun log => log 1 = some [6, 46, 101, 141]) := by
  obtain ⟨N, st, a, b⟩ := C80_constant (sortedHeap _) (exp := fun _ => (0 : ℚ)) (enc := ⟨10, 100⟩) (dt := 1 / 100) sane0 none (value := 3 / 10) (by norm_num) (ts := [5, 100]) (by norm_num)
  exact ⟨N, st, a, b.trans (by norm_num)⟩

/-- The interval between the two spikes of an encoded value. -/
theorem interval_pos {enc : Encoder K} (h1 : 0 < enc.Tmin) (h2 : 0 < enc.Tcod) {v : K} (hv : 0 ≤ v) : 0 < enc.Tmin + v * enc.Tcod := by
  have := mul_nonneg hv h2.le
  linarith

/-- **C80**, `SignFlipperNetwork`: a value given on one rail comes out on the opposite output rail, exactly, one synaptic delay later; nothing
comes out on the other. -/
theorem C80_sign_flip (H : TimeHeap K) {exp : K → K} {enc : Encoder K} (h1 : 0 < enc.Tmin) (h2 : 0 < enc.Tcod)
    {dt : K} (hs : Sane exp dt) (name : Option String) (neg : Bool) {v : K} (hv0 : 0 ≤ v) (hv1 : v ≤ 1)
    (t0 : K) :
    let p := (signFlipperNetwork name (World.empty : World K)).1
    let w := (signFlipperNetwork name (World.empty : World K)).2
    PredEnds H exp enc dt w p.mod [.value v (if neg then p.inpMinus else p.inpPlus) t0] (fun log =>
      log (if neg then p.outpPlus else p.outpMinus) = some [1, enc.Tmin + v * enc.Tcod + 1] ∧
      Quiet (log (if neg then p.outpMinus else p.outpPlus))) := by
  obtain ⟨hexp, hdt, hd, hM⟩ := hs
  intro p w
  have hI := interval_pos h1 h2 hv0
  set I := enc.Tmin + v * enc.Tcod with hIdef
  have hsyn : w.syns.reverse = [⟨0, 3, 10, 1, .V⟩, ⟨1, 2, 10, 1, .V⟩] := rfl
  have hpos : ∀ s ∈ w.syns, 0 < s.delay := by
    intro s hs
    rw [← List.mem_reverse, hsyn] at hs
    simp only [List.mem_cons, List.not_mem_nil, or_false] at hs
    rcases hs with rfl | rfl <;> exact one_pos
  cases neg with
  | false =>
    show PredEnds H exp enc dt w 0 [.value v 0 t0] (fun log => log 3 = _ ∧ Quiet (log 2))
    refine LibOK.pred (signFlipper_lib name) H enc hdt hpos (by simp [CallOK, hv0, hv1]) (by simp [predSpikes])
      (fun x => [[0, I], [], [], [1, I + 1]].getD x []) ?_ ?_ ?_
    · intro x hx; simp [List.getD, List.getElem?_eq_none (show [[0, I], [], [], [1, I + 1]].length ≤ x from hx)]
    · intro E e1 e2 e3 e4 x hx
      rw [hsyn] at e3
      refine Fits.relay (e4 x hx) (by rw [e1]; exact hexp) (by rw [e2]; exact hdt) (by rw [e2]; exact hM) (by rw [e2]; linarith) ?_ ?_
      · interval_cases x <;> simp [hI]
      · interval_cases x <;> simp [arriving, e3, e4, stdPar, predSpikes, hIdef]
    · intro log h
      exact ⟨h 3 (by norm_num), h 2 (by norm_num)⟩
  | true =>
    show PredEnds H exp enc dt w 0 [.value v 1 t0] (fun log => log 2 = _ ∧ Quiet (log 3))
    refine LibOK.pred (signFlipper_lib name) H enc hdt hpos (by simp [CallOK, hv0, hv1]) (by simp [predSpikes])
      (fun x => [[], [0, I], [1, I + 1], []].getD x []) ?_ ?_ ?_
    · intro x hx; simp [List.getD, List.getElem?_eq_none (show [[], [0, I], [1, I + 1], []].length ≤ x from hx)]
    · intro E e1 e2 e3 e4 x hx
      rw [hsyn] at e3
      refine Fits.relay (e4 x hx) (by rw [e1]; exact hexp) (by rw [e2]; exact hdt) (by rw [e2]; exact hM) (by rw [e2]; linarith) ?_ ?_
      · interval_cases x <;> simp [hI]
      · interval_cases x <;> simp [arriving, e3, e4, stdPar, predSpikes, hIdef]
    · intro log h
      exact ⟨h 2 (by norm_num), h 3 (by norm_num)⟩

/-- A concrete case: 3/4 on the negative rail. -/
example : PredEnds (sortedHeap _) (fun _ => 0) ⟨10, 100⟩ (1 / 100) (signFlipperNetwork none (World.empty : World ℚ)).2 0
    [.value (3 / 4) 1 0] (fun log => log 2 = some [1, 86] ∧ Quiet (log 3)) := by
  obtain ⟨N, st, a, b, c⟩ := C80_sign_flip (sortedHeap _) (exp := fun _ => (0 : ℚ)) (enc := ⟨10, 100⟩) (by norm_num) (by norm_num)
    (dt := 1 / 100) sane0 none true (v := 3 / 4) (by norm_num) (by norm_num) 0
  exact ⟨N, st, a, b.trans (by norm_num), c⟩

/-! ## C81: the memory network -/

theorem getD_none {α : Type*} (l : List (List α)) {x : ℕ} (h : l.length ≤ x) : l.getD x [] = [] := by
  simp [List.getD, List.getElem?_eq_none h]

/-- The memory network, with its exact answer. -/
theorem pred_memory (H : TimeHeap K) {exp : K → K} {enc : Encoder K} (h1 : 1 ≤ enc.Tmin) (h2 : 0 < enc.Tcod) {dt : K} (hs : Sane exp dt)
    (hd : dt ≤ 1) (h5 : enc.Tmax + 2 * dt ≤ 500) (name : Option String) {v : K} (hv0 : 0 ≤ v) (hv1 : v ≤ 1) (t0 : K)
    {R : K} (hR : enc.Tmax + dt + 2 ≤ R) :
    let w := (memoryNetwork enc name World.empty).2
    PredEnds H exp enc dt w 0 [.value v 0 t0, .spike 5 R] (fun log =>
      log 7 = some [R + 2, R + 2 + up dt (enc.Tmin + v * enc.Tcod - (up dt enc.Tmax - enc.Tmax))] ∧ log 6 = some [up dt enc.Tmax + 3]) := by
  intro w
  have hdt := hs.pos
  have hTm : enc.Tmax = enc.Tmin + enc.Tcod := rfl
  have hIge : enc.Tmin ≤ enc.Tmin + v * enc.Tcod := by have := mul_nonneg hv0 h2.le; linarith
  have hIle : enc.Tmin + v * enc.Tcod ≤ enc.Tmax := by
    have : v * enc.Tcod ≤ 1 * enc.Tcod := mul_le_mul_of_nonneg_right hv1 h2.le
    rw [hTm]; linarith
  set I := enc.Tmin + v * enc.Tcod with hIdef
  have hA1 := le_up hdt enc.Tmax
  have hA2 := up_lt hdt enc.Tmax
  set A := up dt enc.Tmax with hAdef
  have hJ0 : 0 < I - (A - enc.Tmax) := by linarith
  have hC1 := le_up hdt (I - (A - enc.Tmax))
  set C := up dt (I - (A - enc.Tmax)) with hCdef
  have hT0 : 0 < enc.Tmax := by linarith
  have hw : enc.wacc = 1000 / enc.Tmax := by unfold Encoder.wacc; norm_num
  have hsyn : w.syns.reverse = [⟨0, 1, 10, 1, .V⟩, ⟨0, 2, 1 / 2 * 10, 1, .V⟩, ⟨1, 1, -10, 1, .V⟩, ⟨1, 3, enc.wacc, 1, .ge⟩,
    ⟨2, 4, enc.wacc, 2 * 1, .ge⟩, ⟨3, 4, -enc.wacc, 1, .ge⟩, ⟨5, 4, enc.wacc, 1, .ge⟩, ⟨5, 7, 10, 2 * 1, .V⟩, ⟨4, 7, 10, 1, .V⟩,
    ⟨3, 6, 10, 1, .V⟩] := rfl
  have hpos : ∀ s ∈ w.syns, 0 < s.delay := by
    intro s hs
    rw [← List.mem_reverse, hsyn] at hs
    fin_cases hs <;> norm_num
  refine LibOK.pred (memory_lib enc name) H enc hdt hpos (by simp [CallOK, hv0, hv1]) (by simp [predSpikes])
    (fun x => [[0, I], [1], [I + 1], [A + 2], [R + 1 + C], [R], [A + 3], [R + 2, R + 2 + C]].getD x []) (fun x hx => getD_none _ hx) ?_ ?_
  · intro E e1 e2 e3 e4 x hx
    rw [hsyn] at e3
    have hsE : Sane E.exp E.dt := by rw [e1, e2]; exact hs
    have hp := e4 x hx
    interval_cases x
    · exact Fits.pair hp hsE (a := 0) (b := I) (by linarith) (by simp [arriving, e3, e4, stdPar, predSpikes, hIdef]) rfl
    · refine Fits.first hp hsE (a := 1) (b := I + 1) (by linarith) ?_ rfl
      arr_tac e3
    · refine Fits.last hp hsE (a := 1) (b := I + 1) (by linarith) ?_ rfl
      arr_tac e3
    · refine Fits.of [⟨2, [(.ge, enc.wacc)]⟩] (by simp) (by simp) (by arr_tac e3) ?_
      have := fire_later (L := []) (vs := []) (V := 0) (ge := 0) (l := 0) (t := 2) (hits := [(.ge, enc.wacc)]) (V' := 0) (ge' := enc.wacc)
        (x := enc.Tmax) hp hsE.exp hsE.pos hsE.steps (by simp [bumps, bump]) (by rw [hw]; positivity) (by rw [hw]; field_simp; norm_num)
        hT0.le (by rw [e2]; exact h5) (by simp) Reacts.done
      rw [e2, ← hAdef, add_comm (2 : K) A] at this
      exact this
    · have hlast : ∀ l, Reacts E 4 (lin (enc.wacc / 100 * (A - I)) 0) l [⟨R + 1, [(.ge, enc.wacc)]⟩] [R + 1 + C] := by
        intro l
        have := fire_later (L := []) (vs := []) (V := enc.wacc / 100 * (A - I)) (ge := 0) (l := l) (t := R + 1) (hits := [(.ge, enc.wacc)])
          (V' := enc.wacc / 100 * (A - I)) (ge' := enc.wacc)
          (x := I - (A - enc.Tmax)) hp hsE.exp hsE.pos hsE.steps (by simp [bumps, bump]) (by rw [hw]; positivity) (by rw [hw]; field_simp; ring)
          hJ0.le (by rw [e2]; linarith) (by simp) Reacts.done
        rw [e2, ← hCdef] at this
        exact this
      rcases (hIle.trans hA1).lt_or_eq with hlt | heq
      · refine Fits.of [⟨I + 3, [(.ge, enc.wacc)]⟩, ⟨A + 3, [(.ge, -enc.wacc)]⟩, ⟨R + 1, [(.ge, enc.wacc)]⟩] (by simp; refine ⟨⟨?_, ?_⟩, ?_⟩ <;> linarith)
          (by simp) (by arr_tac e3) ?_
        refine quiet_next hp hsE.pos hsE.steps (V' := 0) (ge' := enc.wacc) (by simp [bumps, bump]) (by rw [hw]; positivity) ?_ ?_
        · simp only
          rw [hw, zero_add]
          have : (1000 / enc.Tmax / 100 * (A + 3 - (I + 3)) : K) = 10 * ((A - I) / enc.Tmax) := by field_simp; ring
          rw [this]
          have : (A - I) / enc.Tmax < 1 := by rw [div_lt_one hT0]; linarith
          linarith
        · refine quiet_never hp hsE.pos hsE.steps (V' := enc.wacc / 100 * (A - I)) (ge' := 0) ?_ ?_ le_rfl (hlast _)
          · simp only [bumps, bump]
            simp
          · rw [hw]
            have : (1000 / enc.Tmax / 100 * (A - I) : K) = 10 * ((A - I) / enc.Tmax) := by field_simp; ring
            rw [this]
            have : (A - I) / enc.Tmax < 1 := by rw [div_lt_one hT0]; linarith
            linarith
      · refine Fits.of [⟨I + 3, [(.ge, enc.wacc), (.ge, -enc.wacc)]⟩, ⟨R + 1, [(.ge, enc.wacc)]⟩] (by simp; linarith)
          (by simp) (by rw [← heq]; arr_tac e3) ?_
        refine quiet_never hp hsE.pos hsE.steps (V' := enc.wacc / 100 * (A - I)) (ge' := 0) ?_ ?_ le_rfl (hlast _)
        · simp [bumps, bump, heq]
        · rw [heq]; simp
    · exact Fits.single hp hsE (a := R) (by simp [arriving, e3, e4, stdPar, predSpikes]) rfl
    · refine Fits.single hp hsE (a := A + 3) ?_ rfl
      arr_tac e3
    · refine Fits.pair hp hsE (a := R + 2) (b := R + 2 + C) (by linarith) ?_ rfl
      arr_tac e3
  · intro log h
    exact ⟨h 7 (by norm_num), h 6 (by norm_num)⟩

/-- **C81**, `MemoryNetwork`: given a value, it signals `ready` once, less than `dt` after `Tmax + 3`; a recall at any time from
then on is answered with the value, up to less than one time step. -/
theorem C81_memory (H : TimeHeap K) {exp : K → K} {enc : Encoder K} (h1 : 1 ≤ enc.Tmin) (h2 : 0 < enc.Tcod) {dt : K} (hs : Sane exp dt)
    (hd : dt ≤ 1) (h5 : enc.Tmax + 2 * dt ≤ 500) (name : Option String) {v : K} (hv0 : 0 ≤ v) (hv1 : v ≤ 1) (t0 : K)
    {R : K} (hR : enc.Tmax + dt + 2 ≤ R) :
    let p := (memoryNetwork enc name World.empty).1
    let w := (memoryNetwork enc name World.empty).2
    PredEnds H exp enc dt w p.mod [.value v p.input t0, .spike p.recall R] (fun log =>
      Shows enc dt (log p.output) v ∧ ∃ r, log p.ready = some [r] ∧ enc.Tmax + 3 ≤ r ∧ r < enc.Tmax + 3 + dt) := by
  intro p w
  obtain ⟨N, st, a, b, c⟩ := pred_memory H h1 h2 hs hd h5 name hv0 hv1 t0 hR
  have hdt := hs.pos
  have hI := interval_pos (enc := enc) (by linarith) h2 hv0
  have a1 := le_up hdt enc.Tmax
  have a2 := up_lt hdt enc.Tmax
  set J := enc.Tmin + v * enc.Tcod - (up dt enc.Tmax - enc.Tmax) with hJ
  have b1 := le_up hdt J
  have b2 := up_lt hdt J
  have hJ0 : 0 < J := by
    have := mul_nonneg hv0 h2.le
    rw [hJ]; linarith
  refine ⟨N, st, a, ⟨_, _, ?_, b, ?_⟩, _, c, ?_, ?_⟩
  · linarith
  · rw [abs_le]; constructor <;> linarith
  · linarith
  · linarith

/-- **C81**, exact version: if the time step divides `Tmax` and the interval of the value, the recalled value is exact. -/
theorem C81_memory_exact (H : TimeHeap K) {exp : K → K} {enc : Encoder K} (h1 : 1 ≤ enc.Tmin) (h2 : 0 < enc.Tcod) {dt : K} (hs : Sane exp dt)
    (hd : dt ≤ 1) (h5 : enc.Tmax + 2 * dt ≤ 500) (name : Option String) {v : K} (hv0 : 0 ≤ v) (hv1 : v ≤ 1) (t0 : K)
    {R : K} (hR : enc.Tmax + dt + 2 ≤ R) {j k : ℤ} (hj : enc.Tmax = j * dt) (hk : enc.Tmin + v * enc.Tcod = k * dt) :
    let p := (memoryNetwork enc name World.empty).1
    let w := (memoryNetwork enc name World.empty).2
    PredEnds H exp enc dt w p.mod [.value v p.input t0, .spike p.recall R] (fun log =>
      Shows enc 0 (log p.output) v ∧ log p.ready = some [enc.Tmax + 3]) := by
  intro p w
  obtain ⟨N, st, a, b, c⟩ := pred_memory H h1 h2 hs hd h5 name hv0 hv1 t0 hR
  have e1 : up dt enc.Tmax = enc.Tmax := by rw [hj]; exact up_mul hs.pos j
  have hI := interval_pos (enc := enc) (by linarith) h2 hv0
  rw [e1, sub_self, sub_zero, hk, up_mul hs.pos, ← hk] at b
  rw [e1] at c
  exact ⟨N, st, a, ⟨_, _, by linarith, b, by simp⟩, c⟩

/-- A concrete case: the default encoder, 3/5 stored and recalled. -/
example : PredEnds (sortedHeap _) (fun _ => 0) ⟨10, 100⟩ (1 / 100) (memoryNetwork (⟨10, 100⟩ : Encoder ℚ) none World.empty).2 0
    [.value (3 / 5) 0 0, .spike 5 150] (fun log => Shows ⟨10, 100⟩ 0 (log 7) (3 / 5) ∧ log 6 = some [113]) := by
  obtain ⟨N, st, a, b, c⟩ := C81_memory_exact (sortedHeap _) (exp := fun _ => (0 : ℚ)) (enc := ⟨10, 100⟩) (by norm_num) (by norm_num)
    (dt := 1 / 100) sane0 (by norm_num) (by norm_num [Encoder.Tmax]) none (v := 3 / 5) (by norm_num) (by norm_num) 0 (R := 150)
    (by norm_num [Encoder.Tmax]) (j := 11000) (k := 7000) (by norm_num [Encoder.Tmax]) (by norm_num)
  exact ⟨N, st, a, b, c.trans (by norm_num [Encoder.Tmax])⟩

/-! ## C82: the inverting memory -/

/-- The inverting memory, with its exact answer. -/
theorem pred_invmemory (H : TimeHeap K) {exp : K → K} {enc : Encoder K} (h1 : 1 ≤ enc.Tmin) (h2 : 0 < enc.Tcod) {dt : K} (hs : Sane exp dt)
    (h5 : enc.Tmax + 2 * dt ≤ 500) (name : Option String) {v : K} (hv0 : 0 ≤ v) (hv1 : v ≤ 1) (t0 : K)
    {R : K} (hR : enc.Tmin + v * enc.Tcod + 1 < R) :
    let w := (invertingMemoryNetwork enc name World.empty).2
    PredEnds H exp enc dt w 0 [.value v 0 t0, .spike 4 R] (fun log =>
      log 5 = some [R + 2 + 1 / 100, R + 2 + up dt (enc.Tmin + (1 - v) * enc.Tcod)]) := by
  intro w
  have hdt := hs.pos
  have hTm : enc.Tmax = enc.Tmin + enc.Tcod := rfl
  have hvc : 0 ≤ v * enc.Tcod := mul_nonneg hv0 h2.le
  have hIle : v * enc.Tcod ≤ enc.Tcod := by
    have : v * enc.Tcod ≤ 1 * enc.Tcod := mul_le_mul_of_nonneg_right hv1 h2.le
    linarith
  have hJ : enc.Tmin + (1 - v) * enc.Tcod = enc.Tmax - v * enc.Tcod := by rw [hTm]; ring
  rw [hJ]
  set I := enc.Tmin + v * enc.Tcod with hIdef
  have hJ0 : 1 ≤ enc.Tmax - v * enc.Tcod := by rw [hTm]; linarith
  have hC1 := le_up hdt (enc.Tmax - v * enc.Tcod)
  set C := up dt (enc.Tmax - v * enc.Tcod) with hCdef
  have hT0 : 0 < enc.Tmax := by linarith
  have hw : enc.wacc = 1000 / enc.Tmax := by unfold Encoder.wacc; norm_num
  have hsyn : w.syns.reverse = [⟨0, 1, 10, 1, .V⟩, ⟨0, 2, 1 / 2 * 10, 1, .V⟩, ⟨1, 1, -10, 1, .V⟩, ⟨1, 3, enc.wacc, 1 + enc.Tmin, .ge⟩,
    ⟨2, 3, -enc.wacc, 1, .ge⟩, ⟨4, 3, enc.wacc, 1, .ge⟩, ⟨3, 5, 10, 1, .V⟩, ⟨4, 5, 10, 2 * 1 + 1 / 100, .V⟩] := rfl
  have hpos : ∀ s ∈ w.syns, 0 < s.delay := by
    intro s hs
    rw [← List.mem_reverse, hsyn] at hs
    fin_cases hs <;> simp only <;> first | linarith | norm_num
  refine LibOK.pred (invMemory_lib enc name) H enc hdt hpos (by simp [CallOK, hv0, hv1]) (by simp [predSpikes])
    (fun x => [[0, I], [1], [I + 1], [R + 1 + C], [R], [R + 2 + 1 / 100, R + 2 + C]].getD x []) (fun x hx => getD_none _ hx) ?_ ?_
  · intro E e1 e2 e3 e4 x hx
    rw [hsyn] at e3
    have hsE : Sane E.exp E.dt := by rw [e1, e2]; exact hs
    have hp := e4 x hx
    interval_cases x
    · exact Fits.pair hp hsE (a := 0) (b := I) (by linarith) (by simp [arriving, e3, e4, stdPar, predSpikes, hIdef]) rfl
    · refine Fits.first hp hsE (a := 1) (b := I + 1) (by linarith) ?_ rfl
      arr_tac e3
    · refine Fits.last hp hsE (a := 1) (b := I + 1) (by linarith) ?_ rfl
      arr_tac e3
    · have hlast : ∀ l, Reacts E 3 (lin (enc.wacc / 100 * (v * enc.Tcod)) 0) l [⟨R + 1, [(.ge, enc.wacc)]⟩] [R + 1 + C] := by
        intro l
        have := fire_later (L := []) (vs := []) (V := enc.wacc / 100 * (v * enc.Tcod)) (ge := 0) (l := l) (t := R + 1) (hits := [(.ge, enc.wacc)])
          (V' := enc.wacc / 100 * (v * enc.Tcod)) (ge' := enc.wacc)
          (x := enc.Tmax - v * enc.Tcod) hp hsE.exp hsE.pos hsE.steps (by simp [bumps, bump]) (by rw [hw]; positivity) (by rw [hw]; field_simp; ring)
          (by linarith) (by rw [e2]; linarith) (by simp) Reacts.done
        rw [e2, ← hCdef] at this
        exact this
      have hVlt : enc.wacc / 100 * (v * enc.Tcod) < 10 := by
        rw [hw]
        have : (1000 / enc.Tmax / 100 * (v * enc.Tcod) : K) = 10 * ((v * enc.Tcod) / enc.Tmax) := by field_simp; ring
        rw [this]
        have : (v * enc.Tcod) / enc.Tmax < 1 := by rw [div_lt_one hT0]; linarith
        linarith
      rcases hvc.lt_or_eq with hlt | heq
      · refine Fits.of [⟨enc.Tmin + 2, [(.ge, enc.wacc)]⟩, ⟨I + 2, [(.ge, -enc.wacc)]⟩, ⟨R + 1, [(.ge, enc.wacc)]⟩]
          (by simp only [List.map_cons, List.map_nil, List.pairwise_cons, List.mem_cons, List.not_mem_nil, or_false, forall_eq_or_imp, forall_eq]
              refine ⟨⟨?_, ?_⟩, ?_, ?_⟩ <;> first | linarith | simp)
          (by simp) (by arr_tac e3) ?_
        refine quiet_next hp hsE.pos hsE.steps (V' := 0) (ge' := enc.wacc) (by simp [bumps, bump]) (by rw [hw]; positivity) ?_ ?_
        · simp only
          rw [zero_add, show I + 2 - (enc.Tmin + 2) = v * enc.Tcod by rw [hIdef]; ring]
          exact hVlt
        · refine quiet_never hp hsE.pos hsE.steps (V' := enc.wacc / 100 * (v * enc.Tcod)) (ge' := 0) ?_ hVlt le_rfl (hlast _)
          rw [zero_add, show I + 2 - (enc.Tmin + 2) = v * enc.Tcod by rw [hIdef]; ring]
          simp [bumps, bump]
      · have hIT : I = enc.Tmin := by rw [hIdef, ← heq, add_zero]
        refine Fits.of [⟨I + 2, [(.ge, enc.wacc), (.ge, -enc.wacc)]⟩, ⟨R + 1, [(.ge, enc.wacc)]⟩] (by simp; linarith)
          (by simp) (by rw [hIT]; arr_tac e3) ?_
        refine quiet_never hp hsE.pos hsE.steps (V' := enc.wacc / 100 * (v * enc.Tcod)) (ge' := 0) ?_ hVlt le_rfl (hlast _)
        simp [bumps, bump, ← heq]
    · exact Fits.single hp hsE (a := R) (by simp [arriving, e3, e4, stdPar, predSpikes]) rfl
    · refine Fits.pair hp hsE (a := R + 2 + 1 / 100) (b := R + 2 + C) (by linarith) ?_ rfl
      arr_tac e3
  · intro log h
    exact h 5 (by norm_num)

/-- **C82**, `InvertingMemoryNetwork`: given `v`, a recall at any time from one synaptic delay after the second input spike on is
answered with `1 - v`, up to one time step and the neuron delay of 1/100 ms that the network adds to its first output spike. -/
theorem C82_inverting_memory (H : TimeHeap K) {exp : K → K} {enc : Encoder K} (h1 : 1 ≤ enc.Tmin) (h2 : 0 < enc.Tcod) {dt : K} (hs : Sane exp dt)
    (h5 : enc.Tmax + 2 * dt ≤ 500) (name : Option String) {v : K} (hv0 : 0 ≤ v) (hv1 : v ≤ 1) (t0 : K)
    {R : K} (hR : enc.Tmin + v * enc.Tcod + 1 < R) :
    let p := (invertingMemoryNetwork enc name World.empty).1
    let w := (invertingMemoryNetwork enc name World.empty).2
    PredEnds H exp enc dt w p.mod [.value v p.input t0, .spike p.recall R] (fun log =>
      ∃ a b, a < b ∧ log p.output = some [a, b] ∧
        enc.Tmin + (1 - v) * enc.Tcod - 1 / 100 ≤ b - a ∧ b - a < enc.Tmin + (1 - v) * enc.Tcod - 1 / 100 + dt) := by
  intro p w
  obtain ⟨N, st, a, b⟩ := pred_invmemory H h1 h2 hs h5 name hv0 hv1 t0 hR
  have hJ : 0 ≤ (1 - v) * enc.Tcod := mul_nonneg (by linarith) h2.le
  have b1 := le_up hs.pos (enc.Tmin + (1 - v) * enc.Tcod)
  have b2 := up_lt hs.pos (enc.Tmin + (1 - v) * enc.Tcod)
  refine ⟨N, st, a, _, _, ?_, b, ?_, ?_⟩ <;> linarith

/-- A concrete case: the default encoder, 1/4 inverted. -/
example : PredEnds (sortedHeap _) (fun _ => 0) ⟨10, 100⟩ (1 / 100) (invertingMemoryNetwork (⟨10, 100⟩ : Encoder ℚ) none World.empty).2 0
    [.value (1 / 4) 0 0, .spike 4 150] (fun log => ∃ a b, a < b ∧ log 5 = some [a, b] ∧ 85 - 1 / 100 ≤ b - a ∧ b - a < 85) := by
  obtain ⟨N, st, a, x, y, b, c, d, e⟩ := C82_inverting_memory (sortedHeap _) (exp := fun _ => (0 : ℚ)) (enc := ⟨10, 100⟩) (by norm_num) (by norm_num)
    (dt := 1 / 100) sane0 (by norm_num [Encoder.Tmax]) none (v := 1 / 4) (by norm_num) (by norm_num) 0 (R := 150) (by norm_num)
  norm_num at d e
  exact ⟨N, st, a, x, y, b, c, by linarith, by linarith⟩

/-! ## The theorems of this file on concrete cases -/

/-- `C81_memory` on a value that is not a whole number of steps: 1/3, recalled at 150. -/
example : PredEnds (sortedHeap _) (fun _ => 0) ⟨10, 100⟩ (1 / 100) (memoryNetwork (⟨10, 100⟩ : Encoder ℚ) none World.empty).2 0
    [.value (1 / 3) 0 0, .spike 5 150] (fun log => Shows ⟨10, 100⟩ (1 / 100) (log 7) (1 / 3) ∧
      ∃ r, log 6 = some [r] ∧ (⟨10, 100⟩ : Encoder ℚ).Tmax + 3 ≤ r ∧ r < (⟨10, 100⟩ : Encoder ℚ).Tmax + 3 + 1 / 100) :=
  C81_memory (sortedHeap _) (exp := fun _ => (0 : ℚ)) (enc := ⟨10, 100⟩) (by norm_num) (by norm_num) sane0 (by norm_num)
    (by norm_num [Encoder.Tmax]) none (v := 1 / 3) (by norm_num) (by norm_num) 0 (R := 150) (by norm_num [Encoder.Tmax])

end Axon
