import Verif.Proofs.PredMachine
import Verif.Props.PredStream2
import Verif.Props.PredNets2
import Verif.Props.PredLin

/-! # A signed memory used again and again, in the predictive simulator -/
set_option linter.unusedSectionVars false
namespace Axon
open Spec
variable {K : Type*} [Field K] [LinearOrder K] [IsStrictOrderedRing K] [FloorRing K]

/-- The synapses of the signed memory. -/
def psmemSyns (enc : Encoder K) : List (Synapse K) :=
  [⟨8, 9, 10, 1, .V⟩, ⟨8, 10, 1 / 2 * 10, 1, .V⟩, ⟨9, 9, -10, 1, .V⟩, ⟨9, 11, enc.wacc, 1, .ge⟩,
    ⟨10, 12, enc.wacc, 2 * 1, .ge⟩, ⟨11, 12, -enc.wacc, 1, .ge⟩, ⟨13, 12, enc.wacc, 1, .ge⟩, ⟨13, 15, 10, 2 * 1, .V⟩, ⟨12, 15, 10, 1, .V⟩,
    ⟨11, 14, 10, 1, .V⟩,
    ⟨0, 2, 10, 1, .V⟩, ⟨1, 3, 10, 1, .V⟩, ⟨0, 3, 1 / 4 * 10, 1, .V⟩, ⟨1, 2, 1 / 4 * 10, 1, .V⟩, ⟨2, 3, 1 / 2 * -10, 1, .V⟩,
    ⟨3, 2, 1 / 2 * -10, 1, .V⟩, ⟨4, 2, 1 / 2 * 10, 1, .V⟩, ⟨4, 3, 1 / 2 * 10, 1, .V⟩, ⟨0, 8, 10, 1, .V⟩, ⟨1, 8, 10, 1, .V⟩,
    ⟨4, 13, 10, 1, .V⟩, ⟨15, 5, 10, 1, .V⟩, ⟨15, 6, 10, 1, .V⟩, ⟨2, 6, 2 * -10, 1, .V⟩, ⟨3, 5, 2 * -10, 1, .V⟩, ⟨15, 7, 10, 1, .V⟩]

theorem smem_syns (enc : Encoder K) (name : Option String) : (signedMemoryNetwork enc name World.empty).2.syns.reverse = psmemSyns enc := rfl

/-- The state in which one use leaves a signed memory: how many values the rails are going to swallow, and whether the two `ready` neurons are half charged. -/
structure SMState where
  p : ℕ
  q : ℕ
  hp : Bool
  hm : Bool

/-- The voltages of the neurons in a state. -/
def SMState.volt (s : SMState) (x : ℕ) : K :=
  [0, 0, if s.hp then 5 else 0, if s.hm then 5 else 0, 0, -20 * (s.p : K), -20 * (s.q : K)].getD x 0

/-- What a use does to the state. -/
def SMState.next (s : SMState) (neg : Bool) : SMState := if neg then ⟨s.p + 1, s.q - 1, s.hp, true⟩ else ⟨s.p - 1, s.q + 1, true, s.hm⟩

/-- What the neurons do in one use. -/
def smemLS (neg fire : Bool) (a b R A C : K) : ℕ → List K := fun x =>
  [if neg then [] else [a, b], if neg then [a, b] else [], if neg then [] else [a + 1, b + 1], if neg then [a + 1, b + 1] else [], [R],
    if neg then [] else if fire then [R + 4, R + 4 + C] else [], if neg then if fire then [R + 4, R + 4 + C] else [] else [],
    [R + 4, R + 4 + C], [a + 1, b + 1], [a + 2], [b + 2], [a + A + 3], [R + 2 + C], [R + 1], [a + A + 4], [R + 3, R + 3 + C]].getD x []

/-- Whether the value of a use comes out. -/
def SMState.fires (s : SMState) (neg : Bool) : Bool := if neg then s.q == 0 else s.p == 0

local macro "gtac" : tactic => `(tactic| (
  simp only [smemLS, List.map_cons, List.map_nil, List.pairwise_cons, List.getD_cons_succ, List.getD_cons_zero, List.mem_cons, List.not_mem_nil, or_false, forall_eq_or_imp, forall_eq, false_imp_iff, implies_true, Bool.false_eq_true, if_true, if_false, List.Pairwise.nil, and_true]
  repeat' (first | linarith | apply And.intro)))

local macro "atac" h:term:max p:term:max : tactic => `(tactic| (
  simp [arriving, $h:term, $p:term, smemLS, stdPar] <;> try arr_finish))

local macro "mtac" h:term:max p:term:max : tactic => `(tactic| (
  simp [arriving, $h:term, $p:term, smemLS, memLS, stdPar, PEnv.only, memSyns_eq] <;> try arr_finish))

theorem rail_same (p : ℕ) (t u : K) : vrun (-20 * (p : K)) [(t, 10), (u, 10)] = (if (p == 0) = true then [t, u] else []) ∧
    vend (-20 * (p : K)) [(t, 10), (u, 10)] = -20 * ((p - 1 : ℕ) : K) := by
  rcases p with _ | k
  · simp [vrun, vend]
  · have hk : (0 : K) ≤ k := Nat.cast_nonneg _
    have n1 : ¬ (10 : K) ≤ -20 * ((k + 1 : ℕ) : K) + 10 := by push_cast; linarith
    have n2 : ¬ (10 : K) ≤ -20 * ((k + 1 : ℕ) : K) + 10 + 10 := by push_cast; linarith
    constructor
    · simp only [vrun, if_neg n1, if_neg n2]; rfl
    · simp only [vend, if_neg n1, if_neg n2]; rw [Nat.add_sub_cancel]; push_cast; ring

theorem rail_other (p : ℕ) (t u x y : K) : vrun (-20 * (p : K)) [(t, -20), (u, -20), (x, 10), (y, 10)] = [] ∧
    vend (-20 * (p : K)) [(t, -20), (u, -20), (x, 10), (y, 10)] = -20 * ((p + 1 : ℕ) : K) := by
  have hk : (0 : K) ≤ p := Nat.cast_nonneg _
  have n1 : ¬ (10 : K) ≤ -20 * (p : K) + -20 := by linarith
  have n2 : ¬ (10 : K) ≤ -20 * (p : K) + -20 + -20 := by linarith
  have n3 : ¬ (10 : K) ≤ -20 * (p : K) + -20 + -20 + 10 := by linarith
  have n4 : ¬ (10 : K) ≤ -20 * (p : K) + -20 + -20 + 10 + 10 := by linarith
  constructor
  · simp only [vrun, if_neg n1, if_neg n2, if_neg n3, if_neg n4]
  · simp only [vend, if_neg n1, if_neg n2, if_neg n3, if_neg n4]; push_cast; ring

local macro "rtac" : tactic => `(tactic| (
  simp [vrun, vend, smemLS, SMState.volt, SMState.next, SMState.fires]))

set_option maxHeartbeats 4000000 in
/-- One use of a signed memory. -/
theorem smem_goes {E : PEnv K} {enc : Encoder K} (neg : Bool) (s : SMState) {a b R v : K} (h1 : 1 < enc.Tmin) (h2 : 0 < enc.Tcod) (hs : Sane E.exp E.dt)
    (hd : E.dt ≤ 1) (h5 : enc.Tmax + 2 * E.dt ≤ 500)
    (e3 : E.net.syns = psmemSyns enc) (e4 : ∀ x < 16, E.net.par x = stdPar) (hv0 : 0 ≤ v) (hv1 : v ≤ 1) (hb : b = a + enc.Tmin + v * enc.Tcod)
    (hR : a + up E.dt enc.Tmax + 2 < R) {C : K} (hC : C = up E.dt (enc.Tmin + v * enc.Tcod - (up E.dt enc.Tmax - enc.Tmax)))
    {B : K} (hB : R + 4 + enc.Tmax + E.dt ≤ B) (x : ℕ) (hx : x < 16) :
    Goes E (s.volt x) ((s.next neg).volt x) 0 [(if neg then 1 else 0, a), (if neg then 1 else 0, b), (4, R)]
      (smemLS neg (s.fires neg) a b R (up E.dt enc.Tmax) C) x ∧
    Within E.net [(if neg then 1 else 0, a), (if neg then 1 else 0, b), (4, R)] (smemLS neg (s.fires neg) a b R (up E.dt enc.Tmax) C) a B x := by
  have hmem : ∀ y < 8, Rests (E.only (memSyns enc).reverse) [(0, a + 1), (0, b + 1), (5, R + 1)]
      (memLS (a + 1) (b + 1) (a + 1 + up E.dt enc.Tmax + 3) [R + 1 + 1 + C] [R + 1] [R + 1 + 2, R + 1 + 2 + C]) y ∧
      Within (E.only (memSyns enc).reverse).net [(0, a + 1), (0, b + 1), (5, R + 1)]
      (memLS (a + 1) (b + 1) (a + 1 + up E.dt enc.Tmax + 3) [R + 1 + 1 + C] [R + 1] [R + 1 + 2, R + 1 + 2 + C]) (a + 1) B y :=
    fun y hy => mem_rests (E := E.only (memSyns enc).reverse) h1.le h2 hs hd h5 rfl (fun _ _ => rfl) hv0 hv1 (by rw [hb]; ring)
      (show a + 1 + up E.dt enc.Tmax + 2 < R + 1 by linarith) hC (show R + 1 + 3 + enc.Tmax + E.dt ≤ B by linarith) y hy
  have hdt := hs.pos
  have hTm : enc.Tmax = enc.Tmin + enc.Tcod := rfl
  have hI0 := mul_nonneg hv0 h2.le
  have hI1 : v * enc.Tcod ≤ 1 * enc.Tcod := mul_le_mul_of_nonneg_right hv1 h2.le
  have hA1 := le_up hdt enc.Tmax
  have hA2 := up_lt hdt enc.Tmax
  set A := up E.dt enc.Tmax with hAdef
  have hC1 := le_up hdt (enc.Tmin + v * enc.Tcod - (A - enc.Tmax))
  have hC2 := up_lt hdt (enc.Tmin + v * enc.Tcod - (A - enc.Tmax))
  rw [← hC] at hC1 hC2
  have hp := e4 x hx
  unfold psmemSyns at e3
  clear_value A
  clear hC
  have hmove : ∀ y < 8, smemLS neg (s.fires neg) a b R A C (y + 8) =
        memLS (a + 1) (b + 1) (a + 1 + A + 3) [R + 1 + 1 + C] [R + 1] [R + 1 + 2, R + 1 + 2 + C] y →
      (arriving (E.only (memSyns enc).reverse).net [(0, a + 1), (0, b + 1), (5, R + 1)]
        (memLS (a + 1) (b + 1) (a + 1 + A + 3) [R + 1 + 1 + C] [R + 1] [R + 1 + 2, R + 1 + 2 + C]) y).Perm
        (arriving E.net [(if neg then 1 else 0, a), (if neg then 1 else 0, b), (4, R)] (smemLS neg (s.fires neg) a b R A C) (y + 8)) →
      Goes E 0 0 0 [(if neg then 1 else 0, a), (if neg then 1 else 0, b), (4, R)] (smemLS neg (s.fires neg) a b R A C) (y + 8) ∧
      Within E.net [(if neg then 1 else 0, a), (if neg then 1 else 0, b), (4, R)] (smemLS neg (s.fires neg) a b R A C) a B (y + 8) := by
    intro y hy hL ha
    obtain ⟨m1, m2⟩ := hmem y hy
    refine ⟨RestsAs.goes (E' := E.only (memSyns enc).reverse) (E := E) (n := y + 8) rfl rfl (e4 (y + 8) (by omega)).symm hL.symm ha m1, ?_⟩
    have := m2.move hL.symm ha
    exact ⟨fun i hi => ⟨by have := (this.1 i hi).1; linarith, (this.1 i hi).2⟩, this.2⟩
  clear hmem
  obtain ⟨p, q, c, d⟩ := s
  cases neg with
  | false =>
    interval_cases x
    · refine Goes.ofV' hp hs [(a, 10), (b, 10)] ?_ ?_ ?_ ?_ ?_ ?_
      · gtac
      · atac e3 e4
      · rtac
      · rtac
      · gtac
      · gtac
    · refine Goes.ofV' hp hs [] ?_ ?_ ?_ ?_ ?_ ?_
      · gtac
      · atac e3 e4
      · rtac
      · rtac
      · gtac
      · gtac
    · refine Goes.ofV' hp hs [(a + 1, 10), (b + 1, 10), (R + 1, 5)] ?_ ?_ ?_ ?_ ?_ ?_
      · gtac
      · atac e3 e4
      · cases c <;> norm_num [vrun, vend, smemLS, SMState.volt, SMState.next, SMState.fires]
      · cases c <;> norm_num [vrun, vend, smemLS, SMState.volt, SMState.next, SMState.fires]
      · gtac
      · gtac
    · refine Goes.ofV' hp hs [(a + 1, 5 / 2), (a + 2, -5), (b + 1, 5 / 2), (b + 2, -5), (R + 1, 5)] ?_ ?_ ?_ ?_ ?_ ?_
      · gtac
      · atac e3 e4
      · cases d <;> norm_num [vrun, vend, smemLS, SMState.volt, SMState.next, SMState.fires]
      · cases d <;> norm_num [vrun, vend, smemLS, SMState.volt, SMState.next, SMState.fires]
      · gtac
      · gtac
    · refine Goes.ofV' hp hs [(R, 10)] ?_ ?_ ?_ ?_ ?_ ?_
      · gtac
      · atac e3 e4
      · rtac
      · rtac
      · gtac
      · gtac
    · refine Goes.ofV' hp hs [(R + 4, 10), (R + 4 + C, 10)] ?_ ?_ ?_ ?_ ?_ ?_
      · gtac
      · atac e3 e4
      · exact (rail_same p _ _).1
      · exact (rail_same p _ _).2
      · gtac
      · intro y hy
        have hy : y ∈ if (SMState.fires ⟨p, q, c, d⟩ false) = true then [R + 4, R + 4 + C] else [] := hy
        split_ifs at hy <;> simp only [List.mem_cons, List.not_mem_nil, or_false] at hy
        rcases hy with rfl | rfl <;> linarith
    · refine Goes.ofV' hp hs [(a + 2, -20), (b + 2, -20), (R + 4, 10), (R + 4 + C, 10)] ?_ ?_ ?_ ?_ ?_ ?_
      · gtac
      · atac e3 e4
      · exact (rail_other q _ _ _ _).1
      · exact (rail_other q _ _ _ _).2
      · gtac
      · gtac
    · refine Goes.ofV' hp hs [(R + 4, 10), (R + 4 + C, 10)] ?_ ?_ ?_ ?_ ?_ ?_
      · gtac
      · atac e3 e4
      · rtac
      · rtac
      · gtac
      · gtac
    · exact hmove 0 (by norm_num) (by simp [smemLS, memLS]; try ring_nf) (by mtac e3 e4)
    · exact hmove 1 (by norm_num) (by simp [smemLS, memLS]; try ring_nf) (by mtac e3 e4)
    · exact hmove 2 (by norm_num) (by simp [smemLS, memLS]; try ring_nf) (by mtac e3 e4)
    · exact hmove 3 (by norm_num) (by simp [smemLS, memLS]; try ring_nf) (by mtac e3 e4)
    · exact hmove 4 (by norm_num) (by simp [smemLS, memLS]; try ring_nf) (by mtac e3 e4)
    · exact hmove 5 (by norm_num) (by simp [smemLS, memLS]; try ring_nf) (by mtac e3 e4)
    · exact hmove 6 (by norm_num) (by simp [smemLS, memLS]; try ring_nf) (by mtac e3 e4)
    · exact hmove 7 (by norm_num) (by simp [smemLS, memLS]; try ring_nf) (by mtac e3 e4)
  | true =>
    interval_cases x
    · refine Goes.ofV' hp hs [] ?_ ?_ ?_ ?_ ?_ ?_
      · gtac
      · atac e3 e4
      · rtac
      · rtac
      · gtac
      · gtac
    · refine Goes.ofV' hp hs [(a, 10), (b, 10)] ?_ ?_ ?_ ?_ ?_ ?_
      · gtac
      · atac e3 e4
      · rtac
      · rtac
      · gtac
      · gtac
    · refine Goes.ofV' hp hs [(a + 1, 5 / 2), (a + 2, -5), (b + 1, 5 / 2), (b + 2, -5), (R + 1, 5)] ?_ ?_ ?_ ?_ ?_ ?_
      · gtac
      · atac e3 e4
      · cases c <;> norm_num [vrun, vend, smemLS, SMState.volt, SMState.next, SMState.fires]
      · cases c <;> norm_num [vrun, vend, smemLS, SMState.volt, SMState.next, SMState.fires]
      · gtac
      · gtac
    · refine Goes.ofV' hp hs [(a + 1, 10), (b + 1, 10), (R + 1, 5)] ?_ ?_ ?_ ?_ ?_ ?_
      · gtac
      · atac e3 e4
      · cases d <;> norm_num [vrun, vend, smemLS, SMState.volt, SMState.next, SMState.fires]
      · cases d <;> norm_num [vrun, vend, smemLS, SMState.volt, SMState.next, SMState.fires]
      · gtac
      · gtac
    · refine Goes.ofV' hp hs [(R, 10)] ?_ ?_ ?_ ?_ ?_ ?_
      · gtac
      · atac e3 e4
      · rtac
      · rtac
      · gtac
      · gtac
    · refine Goes.ofV' hp hs [(a + 2, -20), (b + 2, -20), (R + 4, 10), (R + 4 + C, 10)] ?_ ?_ ?_ ?_ ?_ ?_
      · gtac
      · atac e3 e4
      · exact (rail_other p _ _ _ _).1
      · exact (rail_other p _ _ _ _).2
      · gtac
      · gtac
    · refine Goes.ofV' hp hs [(R + 4, 10), (R + 4 + C, 10)] ?_ ?_ ?_ ?_ ?_ ?_
      · gtac
      · atac e3 e4
      · exact (rail_same q _ _).1
      · exact (rail_same q _ _).2
      · gtac
      · intro y hy
        have hy : y ∈ if (SMState.fires ⟨p, q, c, d⟩ true) = true then [R + 4, R + 4 + C] else [] := hy
        split_ifs at hy <;> simp only [List.mem_cons, List.not_mem_nil, or_false] at hy
        rcases hy with rfl | rfl <;> linarith
    · refine Goes.ofV' hp hs [(R + 4, 10), (R + 4 + C, 10)] ?_ ?_ ?_ ?_ ?_ ?_
      · gtac
      · atac e3 e4
      · rtac
      · rtac
      · gtac
      · gtac
    · exact hmove 0 (by norm_num) (by simp [smemLS, memLS]; try ring_nf) (by mtac e3 e4)
    · exact hmove 1 (by norm_num) (by simp [smemLS, memLS]; try ring_nf) (by mtac e3 e4)
    · exact hmove 2 (by norm_num) (by simp [smemLS, memLS]; try ring_nf) (by mtac e3 e4)
    · exact hmove 3 (by norm_num) (by simp [smemLS, memLS]; try ring_nf) (by mtac e3 e4)
    · exact hmove 4 (by norm_num) (by simp [smemLS, memLS]; try ring_nf) (by mtac e3 e4)
    · exact hmove 5 (by norm_num) (by simp [smemLS, memLS]; try ring_nf) (by mtac e3 e4)
    · exact hmove 6 (by norm_num) (by simp [smemLS, memLS]; try ring_nf) (by mtac e3 e4)
    · exact hmove 7 (by norm_num) (by simp [smemLS, memLS]; try ring_nf) (by mtac e3 e4)

/-- The state of the signed memory along a sequence of values determines what comes out. -/
theorem smem_machine (g : Stored K → Bool → ℕ → List K) (ans : Stored K → K × K) (hp : ∀ o fire, g o fire 5 = if 0 ≤ o.v then if fire then [(ans o).1, (ans o).2] else [] else [])
    (hm : ∀ o fire, g o fire 6 = if 0 ≤ o.v then [] else if fire then [(ans o).1, (ans o).2] else []) (ops : List (Stored K)) : ∀ s : SMState,
    machine (fun s o => s.next (decide (o.v < 0))) (fun s o => g o (s.fires (decide (o.v < 0)))) s ops 5 = stream ((comeOut s.p s.q ops).1.map ans) ∧
    machine (fun s o => s.next (decide (o.v < 0))) (fun s o => g o (s.fires (decide (o.v < 0)))) s ops 6 = stream ((comeOut s.p s.q ops).2.map ans) := by
  induction ops with
  | nil => intro s; exact ⟨rfl, rfl⟩
  | cons o os ih =>
    intro s
    obtain ⟨i1, i2⟩ := ih (s.next (decide (o.v < 0)))
    rw [machine, machine, i1, i2, hp, hm]
    by_cases h : 0 ≤ o.v
    · rw [decide_eq_false (not_lt.mpr h)]
      simp only [comeOut, if_pos h, SMState.next, SMState.fires, Bool.false_eq_true, if_false]
      by_cases h0 : s.p = 0 <;> simp [h0, stream]
    · rw [decide_eq_true (not_le.mp h)]
      simp only [comeOut, if_neg h, SMState.next, SMState.fires, if_true]
      by_cases h0 : s.q = 0 <;> simp [h0, stream]

set_option maxHeartbeats 1000000 in
/-- **C96**, `SignedMemoryNetwork` as a register: any number of signed values, each stored at some time, recalled at least `Tmax + dt + 2` ms later, and the next
one stored at least `Tmax + dt + 4` ms after the recall.  The `ready` neuron answers every recall with the magnitude stored just before, but on the
output rails only the values of `comeOut` appear: every value makes the other rail swallow a value later on. -/
theorem C96_signed_register (H : TimeHeap K) {exp : K → K} {enc : Encoder K} (h1 : 1 < enc.Tmin) (h2 : 0 < enc.Tcod) {dt : K} (hs : Sane exp dt)
    (hd : dt ≤ 1) (h5 : enc.Tmax + 2 * dt ≤ 500) (name : Option String) (ops : List (Stored K)) (hv : ∀ o ∈ ops, |o.v| ≤ 1)
    (hR : ∀ o ∈ ops, o.t + enc.Tmax + dt + 2 ≤ o.r) (hsep : ops.Pairwise (fun o o' => o.r + enc.Tmax + dt + 4 < o'.t)) :
    let p := (signedMemoryNetwork enc name World.empty).1
    let w := (signedMemoryNetwork enc name World.empty).2
    PredEnds H exp enc dt w p.mod (ops.flatMap (fun o => o.givenSigned enc p.inputPos p.inputNeg p.recall)) (fun log =>
      ∃ plus minus ready, log p.outputPos = some (stream plus) ∧ log p.outputNeg = some (stream minus) ∧ log p.ready = some (stream ready) ∧
        SAnswers enc dt (comeOut 0 0 ops).1 plus ∧ SAnswers enc dt (comeOut 0 0 ops).2 minus ∧ SAnswers enc dt ops ready) := by
  intro p w
  have hdt := hs.pos
  have hA1 := le_up hdt enc.Tmax
  have hA2 := up_lt hdt enc.Tmax
  have hpos : ∀ s ∈ w.syns, 0 < s.delay := by
    intro s hs
    rw [← List.mem_reverse, smem_syns enc name] at hs
    unfold psmemSyns at hs
    fin_cases hs <;> simp only <;> norm_num
  let b : Stored K → K := fun o => o.t + (enc.Tmin + |o.v| * enc.Tcod)
  let C : Stored K → K := fun o => up dt (enc.Tmin + |o.v| * enc.Tcod - (up dt enc.Tmax - enc.Tmax))
  let g : Stored K → Bool → ℕ → List K := fun o fire => smemLS (decide (o.v < 0)) fire o.t (b o) o.r (up dt enc.Tmax) (C o)
  let ans : Stored K → K × K := fun o => (o.r + 4, o.r + 4 + C o)
  have hinj : ∀ o : Stored K, (o.givenSigned enc p.inputPos p.inputNeg p.recall).flatMap (predSpikes enc) =
      [(if decide (o.v < 0) = true then 1 else 0, o.t), (if decide (o.v < 0) = true then 1 else 0, b o), (4, o.r)] := by
    intro o
    by_cases h : 0 ≤ o.v
    · have h' : ¬ o.v < 0 := not_lt.mpr h
      simp [Stored.givenSigned, h, h', predSpikes, b]
      exact ⟨rfl, rfl⟩
    · have h' : o.v < 0 := not_le.mp h
      simp [Stored.givenSigned, h, h', predSpikes, b]
      exact ⟨rfl, rfl⟩
  have hans : ∀ os : List (Stored K), SAnswers enc dt os (os.map ans) := by
    intro os
    unfold SAnswers
    rw [List.forall₂_map_right_iff, List.forall₂_same]
    intro o ho
    have c1 : _ ≤ C o := le_up hdt (enc.Tmin + |o.v| * enc.Tcod - (up dt enc.Tmax - enc.Tmax))
    have c2 : C o < _ := up_lt hdt (enc.Tmin + |o.v| * enc.Tcod - (up dt enc.Tmax - enc.Tmax))
    refine ⟨rfl, ?_⟩
    simp only [ans]
    rw [abs_lt]
    constructor <;> linarith
  refine LibOK.predMachine (signedMemory_lib enc name) H enc hdt hpos (⟨0, 0, false, false⟩ : SMState) (fun s o => s.next (decide (o.v < 0)))
    (fun s x => s.volt x) ?_ ops _ ?_ ?_ (fun s o => g o (s.fires (decide (o.v < 0))))
    (fun s o x hx => getD_none _ hx) Stored.t (fun o => o.r + enc.Tmax + dt + 4) hsep ?_ ?_
  · intro x hx
    interval_cases x <;> simp [SMState.volt]
  · intro o _ c hc
    simp only [Stored.givenSigned, List.mem_cons, List.not_mem_nil, or_false] at hc
    rcases hc with rfl | rfl | rfl <;> trivial
  · intro o _ q hq
    rw [hinj] at hq
    simp only [List.mem_cons, List.not_mem_nil, or_false] at hq
    rcases hq with rfl | rfl | rfl <;> simp only <;> (try split_ifs) <;> norm_num
  · intro o ho E e1 e2 e3 e4 s x hx
    have := hR o ho
    have := hv o ho
    subst e2
    rw [hinj]
    exact smem_goes (decide (o.v < 0)) s h1 h2 (by rw [e1]; exact hs) hd h5 (e3.trans (smem_syns enc name)) e4 (abs_nonneg _) (hv o ho) (add_assoc _ _ _).symm
      (by linarith) rfl (by linarith) x hx
  · intro log hl
    obtain ⟨m1, m2⟩ := smem_machine g ans
      (by intro o fire; by_cases h : 0 ≤ o.v
          · simp [g, smemLS, h, not_lt.mpr h, ans]
          · simp [g, smemLS, h, not_le.mp h])
      (by intro o fire; by_cases h : 0 ≤ o.v
          · simp [g, smemLS, h, not_lt.mpr h]
          · simp [g, smemLS, h, not_le.mp h, ans]) ops ⟨0, 0, false, false⟩
    refine ⟨(comeOut 0 0 ops).1.map ans, (comeOut 0 0 ops).2.map ans, ops.map ans, (hl 5 (by norm_num)).trans (congrArg some m1), (hl 6 (by norm_num)).trans (congrArg some m2),
      (hl 7 (by norm_num)).trans (congrArg some ?_), hans _, hans _, hans _⟩
    generalize (⟨0, 0, false, false⟩ : SMState) = s
    clear hl hR hsep hv m1 m2
    induction ops generalizing s with
    | nil => rfl
    | cons o os ih =>
      rw [machine, ih]
      rfl

/-- Values of one sign all come out on their rail. -/
theorem comeOut_nonneg (ops : List (Stored K)) (h : ∀ o ∈ ops, 0 ≤ o.v) : ∀ q, comeOut 0 q ops = (ops, []) := by
  induction ops with
  | nil => intro q; rfl
  | cons o os ih =>
    intro q
    have := ih (fun o ho => h o (by simp [ho])) (q + 1)
    simp [comeOut, h o (by simp), this]

theorem comeOut_neg (ops : List (Stored K)) (h : ∀ o ∈ ops, o.v < 0) : ∀ p, comeOut p 0 ops = ([], ops) := by
  induction ops with
  | nil => intro q; rfl
  | cons o os ih =>
    intro q
    have := ih (fun o ho => h o (by simp [ho])) (q + 1)
    simp [comeOut, not_le.mpr (h o (by simp)), this]

/-- **C96**, one sign: if all stored values have the same sign, every recall is answered on the rail of this sign with the value stored just before. -/
theorem C96_one_sign (H : TimeHeap K) {exp : K → K} {enc : Encoder K} (h1 : 1 < enc.Tmin) (h2 : 0 < enc.Tcod) {dt : K} (hs : Sane exp dt)
    (hd : dt ≤ 1) (h5 : enc.Tmax + 2 * dt ≤ 500) (name : Option String) (ops : List (Stored K)) (hv : ∀ o ∈ ops, |o.v| ≤ 1)
    (hR : ∀ o ∈ ops, o.t + enc.Tmax + dt + 2 ≤ o.r) (hsep : ops.Pairwise (fun o o' => o.r + enc.Tmax + dt + 4 < o'.t))
    (neg : Bool) (hsign : ∀ o ∈ ops, o.v < 0 ↔ neg = true) :
    let p := (signedMemoryNetwork enc name World.empty).1
    let w := (signedMemoryNetwork enc name World.empty).2
    PredEnds H exp enc dt w p.mod (ops.flatMap (fun o => o.givenSigned enc p.inputPos p.inputNeg p.recall)) (fun log =>
      ∃ answers, log (if neg then p.outputNeg else p.outputPos) = some (stream answers) ∧ log (if neg then p.outputPos else p.outputNeg) = some [] ∧
        SAnswers enc dt ops answers) := by
  intro p w
  refine PredEnds.weaken ?_ (C96_signed_register H h1 h2 hs hd h5 name ops hv hR hsep)
  rintro log ⟨plus, minus, ready, a1, a2, -, b1, b2, -⟩
  cases neg with
  | false =>
    rw [comeOut_nonneg ops fun o ho => not_lt.mp (by simp [hsign o ho])] at b1 b2
    obtain rfl : minus = [] := by cases b2; rfl
    exact ⟨plus, a1, a2, b1⟩
  | true =>
    rw [comeOut_neg ops fun o ho => (hsign o ho).mpr rfl] at b1 b2
    obtain rfl : plus = [] := by cases b1; rfl
    exact ⟨minus, a2, a1, b2⟩

/-- **C96**, the defect: after a value of one sign has been stored and recalled, the first value of the other sign is lost: its recall is answered on no rail. -/
theorem C96_loses (H : TimeHeap K) {exp : K → K} {enc : Encoder K} (h1 : 1 < enc.Tmin) (h2 : 0 < enc.Tcod) {dt : K} (hs : Sane exp dt)
    (hd : dt ≤ 1) (h5 : enc.Tmax + 2 * dt ≤ 500) (name : Option String) (o1 o2 : Stored K) (hv1 : |o1.v| ≤ 1) (hv2 : |o2.v| ≤ 1)
    (hR1 : o1.t + enc.Tmax + dt + 2 ≤ o1.r) (hR2 : o2.t + enc.Tmax + dt + 2 ≤ o2.r) (hsep : o1.r + enc.Tmax + dt + 4 < o2.t)
    (hs1 : 0 ≤ o1.v) (hs2 : o2.v < 0) :
    let p := (signedMemoryNetwork enc name World.empty).1
    let w := (signedMemoryNetwork enc name World.empty).2
    PredEnds H exp enc dt w p.mod (o1.givenSigned enc p.inputPos p.inputNeg p.recall ++ o2.givenSigned enc p.inputPos p.inputNeg p.recall) (fun log =>
      ∃ answer, log p.outputPos = some [answer.1, answer.2] ∧ log p.outputNeg = some [] ∧ SAnswers enc dt [o1] [answer]) := by
  intro p w
  have key := C96_signed_register H h1 h2 hs hd h5 name [o1, o2] (by simp [hv1, hv2]) (by simp [hR1, hR2]) (by simp [hsep])
  have e : ([o1, o2] : List (Stored K)).flatMap (fun o => o.givenSigned enc p.inputPos p.inputNeg p.recall) =
    o1.givenSigned enc p.inputPos p.inputNeg p.recall ++ o2.givenSigned enc p.inputPos p.inputNeg p.recall := by simp
  have hc : comeOut 0 0 [o1, o2] = ([o1], []) := by simp [comeOut, hs1, not_le.mpr hs2]
  simp only [hc] at key
  rw [e] at key
  refine PredEnds.weaken ?_ key
  rintro log ⟨plus, minus, ready, a1, a2, -, b1, b2, -⟩
  obtain rfl : minus = [] := by cases b2; rfl
  match plus, b1 with
  | [r], b1 => exact ⟨r, a1, a2, b1⟩

/-- 1/2 is stored and recalled, then -1/4 is stored and recalled twice: the hypotheses hold, and only the last answer is on the minus rail. -/
example : [(⟨0, 1 / 2, 120⟩ : Stored ℚ), ⟨300, -1 / 4, 500⟩, ⟨700, -1 / 4, 900⟩].Pairwise (fun o o' => o.r + (⟨10, 100⟩ : Encoder ℚ).Tmax + 1 / 100 + 4 < o'.t) ∧
    (∀ o ∈ [(⟨0, 1 / 2, 120⟩ : Stored ℚ), ⟨300, -1 / 4, 500⟩, ⟨700, -1 / 4, 900⟩], o.t + (⟨10, 100⟩ : Encoder ℚ).Tmax + 1 / 100 + 2 ≤ o.r) ∧
    ((comeOut 0 0 [(⟨0, 1 / 2, 120⟩ : Stored ℚ), ⟨300, -1 / 4, 500⟩, ⟨700, -1 / 4, 900⟩]).2.map (fun o => o.r)) = [900] := by decide +kernel

end Axon
