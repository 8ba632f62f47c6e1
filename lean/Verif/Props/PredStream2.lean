import Verif.Props.PredStream
import Verif.Proofs.PredMem
import Verif.Proofs.PredSubBlock
import Verif.Props.PredSub
import Verif.Props.PredNets

/-!
# C95: registers and streams of differences in the predictive simulator
-/
set_option linter.unusedSectionVars false
namespace Axon
open Spec
variable {K : Type*} [Field K] [LinearOrder K] [IsStrictOrderedRing K] [FloorRing K]
variable {E : PEnv K} {enc : Encoder K}

theorem arriving_perm {net net' : Net K} (h : net.syns.Perm net'.syns) (inj : List (ℕ × K)) (LS : ℕ → List K) (n : ℕ) (hp : net.par n = net'.par n) :
    (arriving net inj LS n).Perm (arriving net' inj LS n) := by
  unfold arriving
  rw [hp]
  exact (List.Perm.refl _).append ((h.filter _).flatMap_right _)

set_option maxHeartbeats 1000000 in
/-- A memory comes to rest after a recall. -/
theorem mem_rests {a b R v : K} (h1 : 1 ≤ enc.Tmin) (h2 : 0 < enc.Tcod) (hs : Sane E.exp E.dt) (hd : E.dt ≤ 1) (h5 : enc.Tmax + 2 * E.dt ≤ 500)
    (e3 : E.net.syns = (memSyns enc).reverse) (e4 : ∀ x < 8, E.net.par x = stdPar) (hv0 : 0 ≤ v) (hv1 : v ≤ 1) (hb : b = a + enc.Tmin + v * enc.Tcod)
    (hR : a + up E.dt enc.Tmax + 2 < R) {C : K} (hC : C = up E.dt (enc.Tmin + v * enc.Tcod - (up E.dt enc.Tmax - enc.Tmax))) 
    {B : K} (hB : R + 3 + enc.Tmax + E.dt ≤ B) (x : ℕ) (hx : x < 8) :
    Rests E [(0, a), (0, b), (5, R)] (memLS a b (a + up E.dt enc.Tmax + 3) [R + 1 + C] [R] [R + 2, R + 2 + C]) x ∧
    Within E.net [(0, a), (0, b), (5, R)] (memLS a b (a + up E.dt enc.Tmax + 3) [R + 1 + C] [R] [R + 2, R + 2 + C]) a B x := by
  have hfit : Fits E [(0, a), (0, b), (5, R)] (memLS a b (a + up E.dt enc.Tmax + 3) [R + 1 + C] [R] [R + 2, R + 2 + C]) x :=
    Fits.move (E' := E.only (memSyns enc)) rfl rfl (e4 x hx).symm rfl
      (arriving_perm (by rw [e3]; exact (List.reverse_perm _).symm) _ _ _ (e4 x hx).symm)
      (mem_fits (E := E.only (memSyns enc)) h1 h2 hs hd h5 rfl (fun _ _ => rfl) hv0 hv1 hb hR hC x hx)
  have hdt := hs.pos
  have hTm : enc.Tmax = enc.Tmin + enc.Tcod := rfl
  have hI0 := mul_nonneg hv0 h2.le
  have hI1 : v * enc.Tcod ≤ 1 * enc.Tcod := mul_le_mul_of_nonneg_right hv1 h2.le
  have hA1 := le_up hdt enc.Tmax
  have hA2 := up_lt hdt enc.Tmax
  set A := up E.dt enc.Tmax with hAdef
  have hC1 := le_up hdt (enc.Tmin + v * enc.Tcod - (A - enc.Tmax))
  have hC2 := up_lt hdt (enc.Tmin + v * enc.Tcod - (A - enc.Tmax))
  rw [← hC] at hC1 hC2
  rw [memSyns_eq] at e3
  have hp := e4 x hx
  clear_value A
  clear hC
  interval_cases x
  · refine hfit.useV hp hs [(a, 10), (b, 10)] ?_ ?_ (by simp [arriving, e3, e4, stdPar]) ?_
    · simp; refine ⟨?_, ?_, ?_⟩ <;> linarith
    · simp [memLS]; constructor <;> linarith
    · simp [memLS, lastOr]; linarith
  · refine hfit.useV hp hs [(a + 1, 10), (a + 2, -10), (b + 1, 10)] ?_ ?_ (by arr_tac2 e3 memLS) ?_
    · simp; refine ⟨?_, ?_, ?_, ?_⟩ <;> linarith
    · simp [memLS]; linarith
    · simp only [memLS, lastOr, List.getD_cons_succ, List.getD_cons_zero, List.map_cons, List.map_nil, List.sum_cons, List.sum_nil]
      rw [if_neg (by linarith), if_pos (by linarith), if_pos (by linarith)]; ring
  · refine hfit.useV hp hs [(a + 1, 5), (b + 1, 5)] ?_ ?_ (by arr_tac2 e3 memLS) ?_
    · simp; refine ⟨?_, ?_, ?_⟩ <;> linarith
    · simp [memLS]; linarith
    · simp only [memLS, lastOr, List.getD_cons_succ, List.getD_cons_zero, List.map_cons, List.map_nil, List.sum_cons, List.sum_nil]
      rw [if_neg (by linarith), if_neg (by linarith)]; ring
  · refine hfit.useS hp [.hit (a + 2) .ge enc.wacc] (by arr_tac2 e3 memLS) rfl ?_ ?_
    · simp [Item.time]; linarith
    · linarith
  · refine hfit.useS hp [.hit (b + 3) .ge enc.wacc, .hit (a + A + 3) .ge (-enc.wacc), .hit (R + 1) .ge enc.wacc] (by arr_tac2 e3 memLS) rfl ?_ ?_
    · simp [Item.time]; refine ⟨⟨?_, ?_⟩, ⟨?_, ?_⟩, ?_, ?_⟩ <;> linarith
    · linarith
  · refine hfit.useV hp hs [(R, 10)] ?_ ?_ (by simp [arriving, e3, e4, stdPar]) ?_
    · simp; refine ⟨?_, ?_⟩ <;> linarith
    · simp [memLS]; linarith
    · simp [memLS, lastOr]
  · refine hfit.useV hp hs [(a + A + 3, 10)] ?_ ?_ (by arr_tac2 e3 memLS) ?_
    · simp; refine ⟨?_, ?_⟩ <;> linarith
    · simp [memLS]; linarith
    · simp [memLS, lastOr]
  · refine hfit.useV hp hs [(R + 2, 10), (R + 2 + C, 10)] ?_ ?_ (by arr_tac2 e3 memLS) ?_
    · simp; refine ⟨⟨?_, ?_⟩, ?_, ?_⟩ <;> linarith
    · simp [memLS]; constructor <;> linarith
    · simp only [memLS, lastOr, List.getD_cons_succ, List.getD_cons_zero, List.map_cons, List.map_nil, List.sum_cons, List.sum_nil]
      rw [if_neg (by linarith), if_neg (by linarith)]; ring

theorem mem_syns_rev (enc : Encoder K) (name : Option String) : (memoryNetwork enc name World.empty).2.syns.reverse = (memSyns enc).reverse := rfl

/-- **C95**, `MemoryNetwork` as a register: any number of values in `[0, 1]`, each stored at some time, recalled at least `Tmax + dt + 2` ms later, and the next
one stored at least `Tmax + dt + 3` ms after the recall: the recalls answer with the values stored just before, in order, each within `dt`,
starting 2 ms after the recall. -/
theorem C95_register (H : TimeHeap K) {exp : K → K} {enc : Encoder K} (h1 : 1 ≤ enc.Tmin) (h2 : 0 < enc.Tcod) {dt : K} (hs : Sane exp dt)
    (hd : dt ≤ 1) (h5 : enc.Tmax + 2 * dt ≤ 500) (name : Option String) (ops : List (Stored K)) (hv : ∀ o ∈ ops, 0 ≤ o.v ∧ o.v ≤ 1)
    (hR : ∀ o ∈ ops, o.t + enc.Tmax + dt + 2 ≤ o.r) (hsep : ops.Pairwise (fun o o' => o.r + enc.Tmax + dt + 3 < o'.t)) :
    let p := (memoryNetwork enc name World.empty).1
    let w := (memoryNetwork enc name World.empty).2
    PredEnds H exp enc dt w p.mod (ops.flatMap (fun o => o.given enc p.input p.recall)) (fun log =>
      ∃ answers, log p.output = some (stream answers) ∧
        List.Forall₂ (fun o r => r.1 = o.r + 2 ∧ |r.2 - r.1 - (enc.Tmin + o.v * enc.Tcod)| < dt) ops answers) := by
  intro p w
  have hdt := hs.pos
  have hA1 := le_up hdt enc.Tmax
  have hA2 := up_lt hdt enc.Tmax
  have hsyn : w.syns.reverse = (memSyns enc).reverse := mem_syns_rev enc name
  have hpos : ∀ s ∈ w.syns, 0 < s.delay := by
    intro s hs
    rw [← List.mem_reverse, hsyn, memSyns_eq, List.mem_reverse] at hs
    fin_cases hs <;> simp only <;> norm_num
  let b : Stored K → K := fun o => o.t + (enc.Tmin + o.v * enc.Tcod)
  let C : Stored K → K := fun o => up dt (enc.Tmin + o.v * enc.Tcod - (up dt enc.Tmax - enc.Tmax))
  refine LibOK.predMany (memory_lib enc name) H enc hdt hpos ops _ ?_ ?_
    (fun o => memLS o.t (b o) (o.t + up dt enc.Tmax + 3) [o.r + 1 + C o] [o.r] [o.r + 2, o.r + 2 + C o])
    (fun o _ x hx => getD_none _ hx) Stored.t (fun o => o.r + enc.Tmax + dt + 3) hsep ?_ ?_
  · intro o _ c hc
    simp only [Stored.given, List.mem_cons, List.not_mem_nil, or_false] at hc
    rcases hc with rfl | rfl | rfl <;> trivial
  · intro o _ q hq
    simp only [Stored.given, predSpikes, List.flatMap_cons, List.flatMap_nil, List.cons_append, List.nil_append, List.mem_cons, List.not_mem_nil, or_false] at hq
    rcases hq with rfl | rfl | rfl <;> first | exact (by decide : 0 < 8) | exact (by decide : 5 < 8)
  · intro o ho E e1 e2 e3 e4 x hx
    obtain ⟨u1, u2⟩ := hv o ho
    have := hR o ho
    subst e2
    exact mem_rests h1 h2 (by rw [e1]; exact hs) hd h5 (e3.trans hsyn) e4 u1 u2 (add_assoc _ _ _).symm (by linarith) rfl (by linarith) x hx
  · intro log hl
    refine ⟨ops.map (fun o => (o.r + 2, o.r + 2 + C o)), ?_, ?_⟩
    · refine (hl 7 (by norm_num)).trans ?_
      rw [stream, List.flatMap_map]
      rfl
    · rw [List.forall₂_map_right_iff, List.forall₂_same]
      intro o ho
      have c1 : _ ≤ C o := le_up hdt (enc.Tmin + o.v * enc.Tcod - (up dt enc.Tmax - enc.Tmax))
      have c2 : C o < _ := up_lt hdt (enc.Tmin + o.v * enc.Tcod - (up dt enc.Tmax - enc.Tmax))
      refine ⟨rfl, ?_⟩
      rw [abs_lt]
      constructor <;> linarith

/-- Three values through one register. -/
example : [(⟨0, 1 / 4, 120⟩ : Stored ℚ), ⟨300, 1, 500⟩, ⟨700, 0, 900⟩].Pairwise (fun o o' => o.r + (⟨10, 100⟩ : Encoder ℚ).Tmax + 1 / 100 + 3 < o'.t) ∧
    ∀ o ∈ [(⟨0, 1 / 4, 120⟩ : Stored ℚ), ⟨300, 1, 500⟩, ⟨700, 0, 900⟩], o.t + (⟨10, 100⟩ : Encoder ℚ).Tmax + 1 / 100 + 2 ≤ o.r := by decide +kernel

/-- Closes the conditions of `Fits.useV`, if the times can be compared. -/
macro "use_tac" h:term:max p:term:max f:ident : tactic => `(tactic| (
  refine ⟨?_, ?_, ?_, ?_⟩
  · simp only [List.mem_cons, List.not_mem_nil, or_false, forall_eq_or_imp, forall_eq]; repeat' (first | linarith | apply And.intro)
  · simp only [$f:ident, List.getD_cons_succ, List.getD_cons_zero, List.mem_cons, List.not_mem_nil, or_false, forall_eq_or_imp, forall_eq, false_imp_iff, implies_true]
    repeat' (first | linarith | apply And.intro)
  · simp [arriving, $h:term, $p:term, $f:ident, Volley.items, stdPar] <;> try arr_finish
  · simp only [$f:ident, lastOr, List.getD_cons_succ, List.getD_cons_zero, List.map_cons, List.map_nil, List.sum_cons, List.sum_nil]
    repeat' (first | (exfalso; linarith; done) | split)
    all_goals first | ring1 | (norm_num; done) | (exfalso; linarith)))

/-- `Fits.useV` with its conditions in one piece. -/
theorem Fits.useV' {n : ℕ} (hpar : E.net.par n = stdPar) (hs : Sane E.exp E.dt) {inj : List (ℕ × K)} {LS : ℕ → List K}
    (h : Fits E inj LS n) (ws : List (K × K)) {A B : K} (hw : (∀ p ∈ ws, A ≤ p.1 ∧ p.1 ≤ B) ∧ (∀ y ∈ LS n, y ≤ B) ∧
    (ws.map (fun p => Item.hit p.1 .V p.2)).Perm (arriving E.net inj LS n) ∧
    (ws.map (fun p => if lastOr (A - 1) (LS n) < p.1 then p.2 else 0)).sum = 0) : Rests E inj LS n ∧ Within E.net inj LS A B n :=
  h.useV hpar hs ws hw.1 hw.2.1 hw.2.2.1 hw.2.2.2

/-- The trains of a subtractor. -/
def subTr (a1 b1 a2 b2 Tm : K) : ℕ → List K :=
  if b2 ≤ b1 then
    if 1 / 100 ≤ b1 - b2 then subLS a1 b1 a2 b2 [] ([b2 + 2]) ([b2 + 402 / 100, b1 + Tm + 402 / 100]) [] []
    else subLS a1 b1 a2 b2 [] [] ([b2 + 402 / 100, b1 + Tm + 402 / 100]) [] ([b1 + 101 / 100])
  else subLS a1 b1 a2 b2 ([b1 + 2]) [] [] ([b1 + 402 / 100, b2 + Tm + 402 / 100]) []

theorem subTr_six (a1 b1 a2 b2 Tm : K) : subTr a1 b1 a2 b2 Tm 6 = if b2 ≤ b1 then [b2 + 402 / 100, b1 + Tm + 402 / 100] else [] := by
  unfold subTr; split
  · split <;> rfl
  · rfl

theorem subTr_seven (a1 b1 a2 b2 Tm : K) : subTr a1 b1 a2 b2 Tm 7 = if b2 ≤ b1 then [] else [b1 + 402 / 100, b2 + Tm + 402 / 100] := by
  unfold subTr; split
  · split <;> rfl
  · rfl

theorem subTr_none (a1 b1 a2 b2 Tm : K) {x : ℕ} (hx : 9 ≤ x) : subTr a1 b1 a2 b2 Tm x = [] := by
  unfold subTr; split
  · split <;> exact getD_none _ hx
  · exact getD_none _ hx

set_option maxHeartbeats 4000000 in
/-- A subtractor comes to rest, unless the difference is in the dead zone. -/
theorem sub_rests {a1 b1 a2 b2 : K} (h1 : 1 ≤ enc.Tmin) (hs : Sane E.exp E.dt) (e3 : E.net.syns = psubSyns enc) (e4 : ∀ x < 9, E.net.par x = stdPar) (hb1 : a1 < b1) (hb2 : a2 < b2)
    (h : b2 ≤ b1 ∨ 1 / 100 ≤ b2 - b1) {A B : K} (hA1 : A ≤ a1) (hA2 : A ≤ a2) (hB1 : b1 + enc.Tmin + 6 ≤ B) (hB2 : b2 + enc.Tmin + 6 ≤ B) (x : ℕ) (hx : x < 9) :
    Rests E [(0, a1), (0, b1), (1, a2), (1, b2)] (subTr a1 b1 a2 b2 enc.Tmin) x ∧
    Within E.net [(0, a1), (0, b1), (1, a2), (1, b2)] (subTr a1 b1 a2 b2 enc.Tmin) A B x := by
  unfold subTr
  have e3' := e3
  unfold psubSyns at e3'
  by_cases hle : b2 ≤ b1
  · rw [if_pos hle]
    by_cases hf : 1 / 100 ≤ b1 - b2
    · rw [if_pos hf]
      have hfit := sub_fits_plus h1 hs e3 e4 hb1 hb2 hf x hx
      have hp := e4 x hx
      generalize enc.Tmin = Tm at *
      interval_cases x
      · refine hfit.useV' hp hs [(a1, 10), (b1, 10)] ?_
        use_tac e3' e4 subLS
      · refine hfit.useV' hp hs [(a2, 10), (b2, 10)] ?_
        use_tac e3' e4 subLS
      · refine hfit.useV' hp hs [(a1 + 1, 5), (b1 + 1, 5)] ?_
        use_tac e3' e4 subLS
      · refine hfit.useV' hp hs [(a2 + 1, 5), (b2 + 1, 5)] ?_
        use_tac e3' e4 subLS
      · refine hfit.useV' hp hs [(b1 + 2, 10), (b2 + 2, -10)] ?_
        use_tac e3' e4 subLS
      · refine hfit.useV' hp hs [(b2 + 2, 10), (b1 + 2, -10), (b2 + 402 / 100 + 1, 5), (b1 + Tm + 402 / 100 + 1, 5)] ?_
        use_tac e3' e4 subLS
      · refine hfit.useV' hp hs [(b1 + Tm + 402 / 100, 10), (b2 + 402 / 100, 10)] ?_
        use_tac e3' e4 subLS
      · refine hfit.useV' hp hs [(b2 + Tm + 402 / 100, 10), (b1 + 402 / 100, 10), (b2 + 2 + 1, -20)] ?_
        use_tac e3' e4 subLS
      · refine hfit.useV' hp hs [(b1 + 102 / 100, -5), (b2 + 102 / 100, -5), (b1 + 101 / 100, 5), (b2 + 101 / 100, 5)] ?_
        use_tac e3' e4 subLS
    · rw [if_neg hf]
      have hf := not_le.mp hf
      have hle' : 0 ≤ b1 - b2 := by linarith
      have hfit := sub_fits_near h1 hs e3 e4 hb1 hb2 hle' hf x hx
      have hp := e4 x hx
      generalize enc.Tmin = Tm at *
      interval_cases x
      · refine hfit.useV' hp hs [(a1, 10), (b1, 10)] ?_
        use_tac e3' e4 subLS
      · refine hfit.useV' hp hs [(a2, 10), (b2, 10)] ?_
        use_tac e3' e4 subLS
      · refine hfit.useV' hp hs [(a1 + 1, 5), (b1 + 1, 5)] ?_
        use_tac e3' e4 subLS
      · refine hfit.useV' hp hs [(a2 + 1, 5), (b2 + 1, 5)] ?_
        use_tac e3' e4 subLS
      · refine hfit.useV' hp hs [(b1 + 2, 10), (b2 + 2, -10)] ?_
        use_tac e3' e4 subLS
      · refine hfit.useV' hp hs [(b2 + 2, 10), (b1 + 2, -10), (b2 + 402 / 100 + 1, 5), (b1 + Tm + 402 / 100 + 1, 5), (b1 + 101 / 100 + 1 / 100, -10)] ?_
        use_tac e3' e4 subLS
      · refine hfit.useV' hp hs [(b1 + Tm + 402 / 100, 10), (b2 + 402 / 100, 10)] ?_
        use_tac e3' e4 subLS
      · refine hfit.useV' hp hs [(b2 + Tm + 402 / 100, 10), (b1 + 402 / 100, 10), (b1 + 101 / 100 + 1 / 100, -20)] ?_
        use_tac e3' e4 subLS
      · refine hfit.useV' hp hs [(b1 + 102 / 100, -5), (b2 + 102 / 100, -5), (b1 + 101 / 100, 5), (b2 + 101 / 100, 5), (b1 + 101 / 100 + 1 / 100, 10)] ?_
        use_tac e3' e4 subLS
  · have hf : 1 / 100 ≤ b2 - b1 := h.resolve_left hle
    rw [if_neg hle]
    clear h
    · skip
      have hfit := sub_fits_minus h1 hs e3 e4 hb1 hb2 hf x hx
      have hp := e4 x hx
      generalize enc.Tmin = Tm at *
      interval_cases x
      · refine hfit.useV' hp hs [(a1, 10), (b1, 10)] ?_
        use_tac e3' e4 subLS
      · refine hfit.useV' hp hs [(a2, 10), (b2, 10)] ?_
        use_tac e3' e4 subLS
      · refine hfit.useV' hp hs [(a1 + 1, 5), (b1 + 1, 5)] ?_
        use_tac e3' e4 subLS
      · refine hfit.useV' hp hs [(a2 + 1, 5), (b2 + 1, 5)] ?_
        use_tac e3' e4 subLS
      · refine hfit.useV' hp hs [(b1 + 2, 10), (b2 + 2, -10), (b1 + 402 / 100 + 1, 5), (b2 + Tm + 402 / 100 + 1, 5)] ?_
        use_tac e3' e4 subLS
      · refine hfit.useV' hp hs [(b2 + 2, 10), (b1 + 2, -10)] ?_
        use_tac e3' e4 subLS
      · refine hfit.useV' hp hs [(b1 + Tm + 402 / 100, 10), (b2 + 402 / 100, 10), (b1 + 2 + 1, -20)] ?_
        use_tac e3' e4 subLS
      · refine hfit.useV' hp hs [(b2 + Tm + 402 / 100, 10), (b1 + 402 / 100, 10)] ?_
        use_tac e3' e4 subLS
      · refine hfit.useV' hp hs [(b1 + 102 / 100, -5), (b2 + 102 / 100, -5), (b1 + 101 / 100, 5), (b2 + 101 / 100, 5)] ?_
        use_tac e3' e4 subLS

/-- **C95**, `SubtractorNetwork`: any number of pairs of values in `[0, 1]`, the two values of a pair given at the same time, the next pair no sooner than
twice `Tmin` plus `Tcod` plus 6 ms later, and no difference in the dead zone of C85: the differences that are not negative come out on the plus rail and the
negative ones on the minus rail, each rail in order, exact to the encoding. -/
theorem C95_differences (H : TimeHeap K) {exp : K → K} {enc : Encoder K} (h1 : 1 ≤ enc.Tmin) (h2 : 0 < enc.Tcod) {dt : K} (hs : Sane exp dt)
    (name : Option String) (ops : List (TwoVals K)) (hv : ∀ o ∈ ops, (0 ≤ o.v1 ∧ o.v1 ≤ 1) ∧ (0 ≤ o.v2 ∧ o.v2 ≤ 1) ∧ o.t1 = o.t2)
    (hdead : ∀ o ∈ ops, o.v2 ≤ o.v1 ∨ 1 / 100 ≤ (o.v2 - o.v1) * enc.Tcod)
    (hsep : ops.Pairwise (fun o o' => o.last + 2 * enc.Tmin + enc.Tcod + 6 < o'.first)) :
    let p := (subtractorNetwork enc name World.empty).1
    let w := (subtractorNetwork enc name World.empty).2
    PredEnds H exp enc dt w p.mod (ops.flatMap (fun o => o.given enc p.input1 p.input2)) (fun log =>
      (∃ answers, log p.outputPlus = some (stream answers) ∧ List.Forall₂ (fun o r => o.last < r.1 ∧ r.2 - r.1 = enc.Tmin + (o.v1 - o.v2) * enc.Tcod)
        (ops.filter (fun o => o.v2 ≤ o.v1)) answers) ∧
      (∃ answers, log p.outputMinus = some (stream answers) ∧ List.Forall₂ (fun o r => o.last < r.1 ∧ r.2 - r.1 = enc.Tmin + (o.v2 - o.v1) * enc.Tcod)
        (ops.filter (fun o => o.v1 < o.v2)) answers)) := by
  intro p w
  have hdt := hs.pos
  have hsyn : w.syns.reverse = psubSyns enc := rfl
  have hpos : ∀ s ∈ w.syns, 0 < s.delay := by
    intro s hs
    rw [← List.mem_reverse, hsyn] at hs
    unfold psubSyns at hs
    fin_cases hs <;> simp only <;> first | linarith | norm_num
  let b1 : TwoVals K → K := fun o => o.t1 + (enc.Tmin + o.v1 * enc.Tcod)
  let b2 : TwoVals K → K := fun o => o.t2 + (enc.Tmin + o.v2 * enc.Tcod)
  have hb : ∀ o ∈ ops, (b2 o ≤ b1 o ↔ o.v2 ≤ o.v1) ∧ b1 o - b2 o = (o.v1 - o.v2) * enc.Tcod ∧ o.t1 < b1 o ∧ o.t2 < b2 o ∧
      b1 o ≤ o.last + enc.Tmin + enc.Tcod ∧ b2 o ≤ o.last + enc.Tmin + enc.Tcod ∧ o.last < b1 o ∧ o.last < b2 o := by
    intro o ho
    obtain ⟨u1, u2, u3⟩ := hv o ho
    have w1 := mul_nonneg u1.1 h2.le
    have w2 := mul_nonneg u2.1 h2.le
    have x1 : o.v1 * enc.Tcod ≤ enc.Tcod := mul_le_of_le_one_left h2.le u1.2
    have x2 : o.v2 * enc.Tcod ≤ enc.Tcod := mul_le_of_le_one_left h2.le u2.2
    have hl : o.last = o.t2 := by rw [TwoVals.last, u3, max_self]
    have hd : b1 o - b2 o = (o.v1 - o.v2) * enc.Tcod := by simp only [b1, b2, u3]; ring
    refine ⟨?_, hd, ?_, ?_, ?_, ?_, ?_, ?_⟩
    · rw [← sub_nonneg, hd, ← sub_nonneg (b := o.v2)]
      exact ⟨fun h => by by_contra hc; nlinarith, fun h => mul_nonneg h h2.le⟩
    all_goals simp only [b1, b2]; linarith
  refine LibOK.predMany (subtractor_lib enc name) H enc hdt hpos ops _ ?_ ?_ (fun o => subTr o.t1 (b1 o) o.t2 (b2 o) enc.Tmin)
    (fun o _ x hx => subTr_none _ _ _ _ _ hx) TwoVals.first (fun o => o.last + 2 * enc.Tmin + enc.Tcod + 6) hsep ?_ ?_
  · intro o _ c hc
    simp only [TwoVals.given, List.mem_cons, List.not_mem_nil, or_false] at hc
    rcases hc with rfl | rfl | rfl | rfl <;> trivial
  · intro o _ q hq
    simp only [TwoVals.given, predSpikes, List.flatMap_cons, List.flatMap_nil, List.cons_append, List.nil_append, List.mem_cons, List.not_mem_nil, or_false] at hq
    rcases hq with rfl | rfl | rfl | rfl <;> first | exact (by decide : 0 < 9) | exact (by decide : 1 < 9)
  · intro o ho E e1 e2 e3 e4 x hx
    obtain ⟨c1, c2, c3, c4, c5, c6, -, -⟩ := hb o ho
    subst e2
    refine sub_rests h1 (by rw [e1]; exact hs) (e3.trans hsyn) e4 c3 c4 ?_ (min_le_left _ _) (min_le_right _ _) (by linarith) (by linarith) x hx
    rcases hdead o ho with h | h
    · exact .inl (c1.mpr h)
    · right; linarith
  · intro log hl
    have key : ∀ (q : TwoVals K → Prop) [DecidablePred q] (f : TwoVals K → K × K), ops.flatMap (fun o => if q o then [(f o).1, (f o).2] else []) = stream ((ops.filter (fun o => q o)).map f) := by
      intro q _ f
      clear hl hb hdead hsep hv
      induction ops with
      | nil => rfl
      | cons o os ih =>
        by_cases ho : q o
        · simp [ho, ih, stream]
        · simp [ho, ih, stream]
    refine ⟨⟨(ops.filter (fun o => o.v2 ≤ o.v1)).map (fun o => (b2 o + 402 / 100, b1 o + enc.Tmin + 402 / 100)), ?_, ?_⟩,
      ⟨(ops.filter (fun o => o.v1 < o.v2)).map (fun o => (b1 o + 402 / 100, b2 o + enc.Tmin + 402 / 100)), ?_, ?_⟩⟩
    · refine (hl 6 (by norm_num)).trans ?_
      rw [← key]
      refine congrArg some (List.flatMap_congr fun o ho => ?_)
      rw [subTr_six]
      exact if_congr (hb o ho).1 rfl rfl
    · rw [List.forall₂_map_right_iff, List.forall₂_same]
      intro o ho
      obtain ⟨c1, c2, c3, c4, c5, c6, c7, c8⟩ := hb o (List.mem_filter.mp ho).1
      constructor <;> simp only <;> linarith
    · refine (hl 7 (by norm_num)).trans ?_
      rw [← key]
      refine congrArg some (List.flatMap_congr fun o ho => ?_)
      rw [subTr_seven, ← ite_not]
      exact if_congr ((not_congr (hb o ho).1).trans not_le) rfl rfl
    · rw [List.forall₂_map_right_iff, List.forall₂_same]
      intro o ho
      obtain ⟨c1, c2, c3, c4, c5, c6, c7, c8⟩ := hb o (List.mem_filter.mp ho).1
      constructor <;> simp only <;> linarith

/-- Three differences in a row, of both signs and zero. -/
example : [(⟨0, 3 / 4, 0, 1 / 4⟩ : TwoVals ℚ), ⟨200, 1 / 3, 200, 1⟩, ⟨400, 1, 400, 1⟩].Pairwise (fun o o' => o.last + 2 * 10 + 100 + 6 < o'.first) ∧
    ∀ o ∈ [(⟨0, 3 / 4, 0, 1 / 4⟩ : TwoVals ℚ), ⟨200, 1 / 3, 200, 1⟩, ⟨400, 1, 400, 1⟩], (0 ≤ o.v1 ∧ o.v1 ≤ 1) ∧ (0 ≤ o.v2 ∧ o.v2 ≤ 1) ∧ o.t1 = o.t2 ∧
      (o.v2 ≤ o.v1 ∨ 1 / 100 ≤ (o.v2 - o.v1) * 100) := by decide +kernel

end Axon
