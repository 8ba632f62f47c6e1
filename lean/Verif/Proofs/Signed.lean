import Verif.Proofs.Multiplier
import Verif.Proofs.ScalarMul
import Verif.Props.ScalarMul
import Verif.Props.Multiplier

/-! # The sign logic of the signed multipliers -/
set_option linter.unusedSectionVars false
set_option linter.unusedSimpArgs false
namespace Axon
open Spec
variable {K : Type*} [Field K] [LinearOrder K] [IsStrictOrderedRing K] [FloorRing K]

/-- The steps `l` if the condition holds, no steps otherwise. -/
def on (c : Bool) (l : List ℕ) : List ℕ := if c then l else []

@[simp] theorem on_true (l : List ℕ) : on true l = l := rfl
@[simp] theorem on_false (l : List ℕ) : on false l = [] := rfl
theorem beq_tt : (true == true) = true := rfl
theorem beq_tf : (true == false) = false := rfl
theorem beq_ft : (false == true) = false := rfl
theorem beq_ff : (false == false) = true := rfl
theorem bne_tt : (true != true) = false := rfl
theorem bne_tf : (true != false) = true := rfl
theorem bne_ft : (false != true) = true := rfl
theorem bne_ff : (false != false) = false := rfl

section run
variable {net : Net K} {dt : K} {inj : List (ℕ × K)} {s0 : ℕ → NState K} {S : ℕ → ℕ → NState K}
  {F : ℕ → ℕ → Bool}

/-- The four sign neurons: exactly the one that matches the rails fires, once, when both values are complete. -/
theorem signs (hr : IsRun net dt inj s0 S F) (hdt : 0 < dt) {i1p i1m i2p i2m g1 g2 g3 g4 : ℕ}
    (s1 : IsStd net s0 g1) (s2 : IsStd net s0 g2) (s3 : IsStd net s0 g3) (s4 : IsStd net s0 g4)
    (n1 : injTimes inj g1 = []) (n2 : injTimes inj g2 = []) (n3 : injTimes inj g3 = []) (n4 : injTimes inj g4 = [])
    (L1 : InS net g1 [⟨g3, g1, 1 / 2 * -10, 1, .V⟩, ⟨g2, g1, 1 / 2 * -10, 1, .V⟩, ⟨i2p, g1, 1 / 4 * 10, 1, .V⟩, ⟨i1p, g1, 1 / 4 * 10, 1, .V⟩])
    (L2 : InS net g2 [⟨g4, g2, 1 / 2 * -10, 1, .V⟩, ⟨g1, g2, 1 / 2 * -10, 1, .V⟩, ⟨i2p, g2, 1 / 4 * 10, 1, .V⟩, ⟨i1m, g2, 1 / 4 * 10, 1, .V⟩])
    (L3 : InS net g3 [⟨g4, g3, 1 / 2 * -10, 1, .V⟩, ⟨g1, g3, 1 / 2 * -10, 1, .V⟩, ⟨i2m, g3, 1 / 4 * 10, 1, .V⟩, ⟨i1p, g3, 1 / 4 * 10, 1, .V⟩])
    (L4 : InS net g4 [⟨g3, g4, 1 / 2 * -10, 1, .V⟩, ⟨g2, g4, 1 / 2 * -10, 1, .V⟩, ⟨i2m, g4, 1 / 4 * 10, 1, .V⟩, ⟨i1m, g4, 1 / 4 * 10, 1, .V⟩])
    (m1 m2 : Bool) {a1 b1 a2 b2 : ℕ} (h1 : 1 ≤ a1) (h1' : a1 ≤ b1) (h2 : 1 ≤ a2) (h2' : a2 ≤ b2)
    (I1p : Arr dt inj F i1p 1 (on (!m1) [a1, b1])) (I1m : Arr dt inj F i1m 1 (on m1 [a1, b1]))
    (I2p : Arr dt inj F i2p 1 (on (!m2) [a2, b2])) (I2m : Arr dt inj F i2m 1 (on m2 [a2, b2])) :
    Train F g1 (on (!m1 && !m2) [max b1 b2]) ∧ Train F g2 (on (m1 && !m2) [max b1 b2]) ∧
    Train F g3 (on (!m1 && m2) [max b1 b2]) ∧ Train F g4 (on (m1 && m2) [max b1 b2]) := by
  have hd := one_le_dly dt (1 : K)
  have key : ∀ n, TrainTo F n g1 (on (!m1 && !m2) [max b1 b2]) ∧ TrainTo F n g2 (on (m1 && !m2) [max b1 b2]) ∧
    TrainTo F n g3 (on (!m1 && m2) [max b1 b2]) ∧ TrainTo F n g4 (on (m1 && m2) [max b1 b2]) := by
    intro n
    induction n with
    | zero =>
      refine ⟨?_, ?_, ?_, ?_⟩ <;>
      · intro i hi; rw [show i = 0 by omega, (hr.start _).2]
        cases m1 <;> cases m2 <;> simp <;> omega
    | succ n ih =>
      obtain ⟨t1, t2, t3, t4⟩ := ih
      cases m1 <;> cases m2 <;>
        simp only [Bool.not_false, Bool.not_true, Bool.and_self, Bool.and_true, Bool.and_false, Bool.true_and, Bool.false_and, on_true, on_false] at t1 t2 t3 t4 I1p I1m I2p I2m ⊢ <;>
      · have A1 := t1.arr hdt (by simp) n1 (1 : K)
        have A2 := t2.arr hdt (by simp) n2 (1 : K)
        have A3 := t3.arr hdt (by simp) n3 (1 : K)
        have A4 := t4.arr hdt (by simp) n4 (1 : K)
        simp only [List.map_cons, List.map_nil] at A1 A2 A3 A4
        have v1 := VIn.of (dt := dt) (inj := inj) (F := F) (n := n + 1) L1 [(_, _), (_, _), (_, _), (_, _)] [-2, -2, 1, 1] (by rfl) (by simp)
          (by norm_num) (by
            intro p hp; simp only [List.mem_cons, List.not_mem_nil, or_false] at hp
            rcases hp with rfl | rfl | rfl | rfl
            · exact A3
            · exact A2
            · exact I2p.to _
            · exact I1p.to _)
        have v2 := VIn.of (dt := dt) (inj := inj) (F := F) (n := n + 1) L2 [(_, _), (_, _), (_, _), (_, _)] [-2, -2, 1, 1] (by rfl) (by simp)
          (by norm_num) (by
            intro p hp; simp only [List.mem_cons, List.not_mem_nil, or_false] at hp
            rcases hp with rfl | rfl | rfl | rfl
            · exact A4
            · exact A1
            · exact I2p.to _
            · exact I1m.to _)
        have v3 := VIn.of (dt := dt) (inj := inj) (F := F) (n := n + 1) L3 [(_, _), (_, _), (_, _), (_, _)] [-2, -2, 1, 1] (by rfl) (by simp)
          (by norm_num) (by
            intro p hp; simp only [List.mem_cons, List.not_mem_nil, or_false] at hp
            rcases hp with rfl | rfl | rfl | rfl
            · exact A4
            · exact A1
            · exact I2m.to _
            · exact I1p.to _)
        have v4 := VIn.of (dt := dt) (inj := inj) (F := F) (n := n + 1) L4 [(_, _), (_, _), (_, _), (_, _)] [-2, -2, 1, 1] (by rfl) (by simp)
          (by norm_num) (by
            intro p hp; simp only [List.mem_cons, List.not_mem_nil, or_false] at hp
            rcases hp with rfl | rfl | rfl | rfl
            · exact A3
            · exact A2
            · exact I2m.to _
            · exact I1m.to _)
        refine ⟨?_, ?_, ?_, ?_⟩
        · first
          | exact v1.none hr s1 (by intro i _; vz_omega)
          | exact v1.one hr s1 (by omega) (by intro i _ _; vz_omega) (by vz_omega) (by intro i _; vz_omega)
        · first
          | exact v2.none hr s2 (by intro i _; vz_omega)
          | exact v2.one hr s2 (by omega) (by intro i _ _; vz_omega) (by vz_omega) (by intro i _; vz_omega)
        · first
          | exact v3.none hr s3 (by intro i _; vz_omega)
          | exact v3.one hr s3 (by omega) (by intro i _ _; vz_omega) (by vz_omega) (by intro i _; vz_omega)
        · first
          | exact v4.none hr s4 (by intro i _; vz_omega)
          | exact v4.one hr s4 (by omega) (by intro i _ _; vz_omega) (by vz_omega) (by intro i _; vz_omega)
  exact ⟨Train.of fun n => (key n).1, Train.of fun n => (key n).2.1, Train.of fun n => (key n).2.2.1, Train.of fun n => (key n).2.2.2⟩

/-- An output rail with two possible inhibitors and one source. -/
theorem rail3 (hr : IsRun net dt inj s0 S F) {x u v s : ℕ} (hx : IsStd net s0 x)
    (L : InS net x [⟨u, x, 2 * -10, 1, .V⟩, ⟨v, x, 2 * -10, 1, .V⟩, ⟨s, x, 10, 1, .V⟩]) (c d : Bool) (hcd : c = true → d = false)
    {A p q : ℕ} (hA : 1 ≤ A) (hAp : A < p) (hpq : p < q) (U : Arr dt inj F u 1 (on c [A])) (V : Arr dt inj F v 1 (on d [A]))
    (O : Arr dt inj F s 1 [p, q]) : Train F x (on (!c && !d) [p, q]) := by
  refine Train.of fun n => ?_
  cases c <;> cases d <;>
    simp only [Bool.not_false, Bool.not_true, Bool.and_self, Bool.and_true, Bool.and_false, Bool.true_and, Bool.false_and, on_true, on_false] at U V ⊢
  all_goals
    try (exact absurd (hcd rfl) (by decide))
  all_goals
    have v1 := VIn.of (dt := dt) (inj := inj) (F := F) (n := n) L [(_, _), (_, _), (_, _)] [-8, -8, 4] (by rfl) (by simp)
      (by norm_num) (by
        intro p hp; simp only [List.mem_cons, List.not_mem_nil, or_false] at hp
        rcases hp with rfl | rfl | rfl
        · exact U.to _
        · exact V.to _
        · exact O.to _)
  · exact v1.two hr hx (by omega) hpq (by intro i _ _; vz_omega) (by vz_omega) (by intro i _ _; vz_omega) (by vz_omega) (by intro i _; vz_omega)
  · exact v1.none hr hx (by intro i _; vz_omega)
  · exact v1.none hr hx (by intro i _; vz_omega)

/-- What an accumulator of a logarithm is charged with when the interval between its two input spikes is that of `v` up to `ε`. -/
theorem charge_of {dt : K} (hdt : 0 < dt) {enc : Encoder K} (h1 : 0 < enc.Tmin) (h2 : 0 < enc.Tcod) {v ε : K} {a b : ℕ}
    (hI : |((b : K) * dt - (a : K) * dt) - (enc.Tmin + v * enc.Tcod)| ≤ ε) (hv : ε + dt ≤ v * enc.Tcod) :
    a + dly dt (1 + enc.Tmin) < b + dly dt 1 ∧
    |((b + dly dt 1 - (a + dly dt (1 + enc.Tmin)) : ℕ) : K) * dt / enc.Tcod - v| < (ε + dt) / enc.Tcod := by
  rw [abs_le] at hI
  obtain ⟨d1, d2⟩ := dly_bd hdt (one_pos (α := K))
  obtain ⟨f1, f2⟩ := dly_bd hdt (show 0 < 1 + enc.Tmin by linarith)
  have hlt : a + dly dt (1 + enc.Tmin) < b + dly dt 1 := by
    refine step_lt hdt ?_
    push_cast; linarith
  refine ⟨hlt, ?_⟩
  rw [Nat.cast_sub hlt.le, abs_lt]
  push_cast
  constructor
  · rw [lt_sub_iff_add_lt, lt_div_iff₀ h2, add_mul, neg_mul, div_mul_cancel₀ _ h2.ne']; linarith
  · rw [sub_lt_iff_lt_add, div_lt_iff₀ h2, add_mul, div_mul_cancel₀ _ h2.ne']; linarith

/-- Error of the multiplier's decay: it stops at a whole number of steps. -/
def decayErr (enc : Encoder K) (dt : K) : K := enc.Tcod * (1 / (1 - dt / 20) ^ 2 - 1)

/-- `MulIn.product` for input intervals that are those of `v1`, `v2` up to `ε1`, `ε2`. -/
theorem MulIn.values_full {enc : Encoder K} {x a1 b1 a2 b2 y1 z1 y2 z2 : ℕ} (hr : IsRun net dt inj s0 S F) (hdt : 0 < dt) (hdt' : dt < 20)
    (hT : 0 < enc.Tcod) (hTm : 2 * dt ≤ enc.Tmin)
    (h : MulIn net s0 dt inj F enc x a1 b1 a2 b2 y1 z1 y2 z2) {v1 v2 ε1 ε2 : K} 
    (hI1 : |((b1 : K) * dt - (a1 : K) * dt) - (enc.Tmin + v1 * enc.Tcod)| ≤ ε1)
    (hI2 : |((b2 : K) * dt - (a2 : K) * dt) - (enc.Tmin + v2 * enc.Tcod)| ≤ ε2)
    (hv1 : ε1 + dt ≤ v1 * enc.Tcod) (hv1' : v1 * enc.Tcod + (ε1 + dt) ≤ enc.Tcod)
    (hv2 : ε2 + dt ≤ v2 * enc.Tcod) (hv2' : v2 * enc.Tcod + (ε2 + dt) ≤ enc.Tcod)
    {M : ℕ} (hM : left dt M ≤ (v1 - (ε1 + dt) / enc.Tcod) * (v2 - (ε2 + dt) / enc.Tcod))
    (hz : max b1 b2 + 4 * dly dt 1 + dly dt 2 + M ≤ max z1 z2 + 1) :
    ∃ p q, Train F (x + 11) [p, q] ∧ Train F (x + 5) [] ∧ p < q ∧ (max b1 b2 + 3 * dly dt 1 + dly dt 2 ≤ p ∧ p + 1 ≤ max b1 b2 + 3 * dly dt 1 + dly dt 2 + M) ∧
      q ≤ max b1 b2 + 4 * dly dt 1 + M + ⌈enc.Tcod / dt⌉₊ + dly dt (1 + enc.Tmin) - 2 ∧
      |((q : K) * dt - (p : K) * dt) - (enc.Tmin + v1 * v2 * enc.Tcod)| ≤ ε1 + ε2 + 4 * dt + decayErr enc dt ∧ ∀ k ∈ [2, 3, 4, 6, 7, 8, 9, 10], Fires F (x + k) 1 := by
  have h1 : 0 < enc.Tmin := by linarith
  have hε1 : 0 ≤ ε1 := (abs_nonneg _).trans hI1
  have hε2 : 0 ≤ ε2 := (abs_nonneg _).trans hI2
  obtain ⟨k1, k2⟩ := charge_of hdt h1 hT hI1 hv1
  obtain ⟨l1, l2⟩ := charge_of hdt h1 hT hI2 hv2
  obtain ⟨X1, hX1⟩ : ∃ X1, X1 = ((b1 + dly dt 1 - (a1 + dly dt (1 + enc.Tmin)) : ℕ) : K) * dt / enc.Tcod := ⟨_, rfl⟩
  obtain ⟨X2, hX2⟩ : ∃ X2, X2 = ((b2 + dly dt 1 - (a2 + dly dt (1 + enc.Tmin)) : ℕ) : K) * dt / enc.Tcod := ⟨_, rfl⟩
  rw [← hX1] at k2
  rw [← hX2] at l2
  have k3 := abs_lt.mp k2
  have l3 := abs_lt.mp l2
  have u1 : (ε1 + dt) / enc.Tcod ≤ v1 := by rwa [div_le_iff₀ hT]
  have u2 : (ε2 + dt) / enc.Tcod ≤ v2 := by rwa [div_le_iff₀ hT]
  have w1 : v1 + (ε1 + dt) / enc.Tcod ≤ 1 := by
    rw [← le_sub_iff_add_le', div_le_iff₀ hT, sub_mul]; linarith
  have w2 : v2 + (ε2 + dt) / enc.Tcod ≤ 1 := by
    rw [← le_sub_iff_add_le', div_le_iff₀ hT, sub_mul]; linarith
  have z1 : 0 ≤ (ε1 + dt) / enc.Tcod := by positivity
  have z2 : 0 ≤ (ε2 + dt) / enc.Tcod := by positivity
  have hprod : (v1 - (ε1 + dt) / enc.Tcod) * (v2 - (ε2 + dt) / enc.Tcod) ≤ X1 * X2 :=
    mul_le_mul (by linarith) (by linarith) (by linarith) (by linarith)
  obtain ⟨p, q, t11, t5, hpq, hp, hq, herr⟩ := h.product hr hdt hdt' hT hTm k1 l1 hX1 hX2 (by linarith) (by linarith) (hM.trans hprod) hz
  refine ⟨p, q, t11, t5, hpq, hp, hq, ?_, h.fires hr hdt hdt' hT k1 l1 hX1 hX2 (by linarith) (by linarith)⟩
  have hP : |X1 * X2 - v1 * v2| ≤ (ε1 + dt) / enc.Tcod + (ε2 + dt) / enc.Tcod := by
    have e : X1 * X2 - v1 * v2 = (X1 - v1) * X2 + v1 * (X2 - v2) := by ring
    rw [e]
    refine (abs_add_le _ _).trans ?_
    rw [abs_mul, abs_mul, abs_of_nonneg (show 0 ≤ X2 by linarith), abs_of_nonneg (show 0 ≤ v1 by linarith)]
    have := mul_le_of_le_one_right (abs_nonneg (X1 - v1)) (show X2 ≤ 1 by linarith)
    have := mul_le_of_le_one_left (abs_nonneg (X2 - v2)) (show v1 ≤ 1 by linarith)
    linarith
  rw [abs_le] at herr hP ⊢
  have hp1 := mul_le_mul_of_nonneg_right hP.1 hT.le
  have hp2 := mul_le_mul_of_nonneg_right hP.2 hT.le
  rw [neg_mul, add_mul, div_mul_cancel₀ _ hT.ne', div_mul_cancel₀ _ hT.ne'] at hp1
  rw [add_mul, div_mul_cancel₀ _ hT.ne', div_mul_cancel₀ _ hT.ne'] at hp2
  unfold decayErr
  constructor <;> linarith

/-- `MulIn.product` for input intervals that are those of `v1`, `v2` up to `ε1`, `ε2`. -/
theorem MulIn.values {enc : Encoder K} {x a1 b1 a2 b2 y1 z1 y2 z2 : ℕ} (hr : IsRun net dt inj s0 S F) (hdt : 0 < dt) (hdt' : dt < 20)
    (hT : 0 < enc.Tcod) (hTm : 2 * dt ≤ enc.Tmin)
    (h : MulIn net s0 dt inj F enc x a1 b1 a2 b2 y1 z1 y2 z2) {v1 v2 ε1 ε2 : K} 
    (hI1 : |((b1 : K) * dt - (a1 : K) * dt) - (enc.Tmin + v1 * enc.Tcod)| ≤ ε1)
    (hI2 : |((b2 : K) * dt - (a2 : K) * dt) - (enc.Tmin + v2 * enc.Tcod)| ≤ ε2)
    (hv1 : ε1 + dt ≤ v1 * enc.Tcod) (hv1' : v1 * enc.Tcod + (ε1 + dt) ≤ enc.Tcod)
    (hv2 : ε2 + dt ≤ v2 * enc.Tcod) (hv2' : v2 * enc.Tcod + (ε2 + dt) ≤ enc.Tcod)
    {M : ℕ} (hM : left dt M ≤ (v1 - (ε1 + dt) / enc.Tcod) * (v2 - (ε2 + dt) / enc.Tcod))
    (hz : max b1 b2 + 4 * dly dt 1 + dly dt 2 + M ≤ max z1 z2 + 1) :
    ∃ p q, Train F (x + 11) [p, q] ∧ Train F (x + 5) [] ∧ p < q ∧ (max b1 b2 + 3 * dly dt 1 + dly dt 2 ≤ p ∧ p + 1 ≤ max b1 b2 + 3 * dly dt 1 + dly dt 2 + M) ∧
      q ≤ max b1 b2 + 4 * dly dt 1 + M + ⌈enc.Tcod / dt⌉₊ + dly dt (1 + enc.Tmin) - 2 ∧
      |((q : K) * dt - (p : K) * dt) - (enc.Tmin + v1 * v2 * enc.Tcod)| ≤ ε1 + ε2 + 4 * dt + decayErr enc dt := by
  obtain ⟨p, q, h1, h2, h3, h4, h5, h6, -⟩ := h.values_full hr hdt hdt' hT hTm hI1 hI2 hv1 hv1' hv2 hv2' hM hz
  exact ⟨p, q, h1, h2, h3, h4, h5, h6⟩

/-- The two rails of each operand are merged into the unsigned multiplier. -/
theorem smul_front {enc : Encoder K} (hr : IsRun net dt inj s0 S F) (hdt : 0 < dt) {x i1p i1m i2p i2m : ℕ}
    (emb : Embeds net s0 inj x (mulSyns enc) [2, 3, 4, 5, 6, 7, 8, 9, 10, 11]) (s1 : IsStd net s0 x) (s2 : IsStd net s0 (x + 1))
    (n1 : injTimes inj x = []) (n2 : injTimes inj (x + 1) = [])
    (L1 : InS net x [⟨i1m, x, 10, 1, .V⟩, ⟨i1p, x, 10, 1, .V⟩]) (L2 : InS net (x + 1) [⟨i2m, x + 1, 10, 1, .V⟩, ⟨i2p, x + 1, 10, 1, .V⟩])
    (m1 m2 : Bool) {a1 b1 a2 b2 : ℕ} (h1 : 1 ≤ a1) (h1' : a1 + dly dt 1 ≤ b1) (h2 : 1 ≤ a2) (h2' : a2 + dly dt 1 ≤ b2)
    (I1p : Arr dt inj F i1p 1 (on (!m1) [a1, b1])) (I1m : Arr dt inj F i1m 1 (on m1 [a1, b1]))
    (I2p : Arr dt inj F i2p 1 (on (!m2) [a2, b2])) (I2m : Arr dt inj F i2m 1 (on m2 [a2, b2])) :
    MulIn net s0 dt inj F enc x (a1 + dly dt 1) (b1 + dly dt 1) (a2 + dly dt 1) (b2 + dly dt 1)
      (a1 + dly dt 350) (b1 + dly dt 350) (a2 + dly dt 350) (b2 + dly dt 350) := by
  have hd := one_le_dly dt (1 : K)
  have hd2 := one_le_dly dt (350 : K)
  have t1 : Train F x [a1, b1] := by
    refine relay2 hr s1 (le_refl 10) (le_refl 10) L1 I1m I1p ?_ ?_ ?_ <;> cases m1 <;> simp <;> omega
  have t2 : Train F (x + 1) [a2, b2] := by
    refine relay2 hr s2 (le_refl 10) (le_refl 10) L2 I2m I2p ?_ ?_ ?_ <;> cases m2 <;> simp <;> omega
  exact ⟨emb, t1.arr2 hdt (by omega) n1 1, t2.arr2 hdt (by omega) n2 1, t1.arr2 hdt (by omega) n1 350, t2.arr2 hdt (by omega) n2 350,
    by omega, by omega, by omega, by omega, by omega, by omega, by omega, by omega⟩

/-- The synapses of a `SignedMultiplierNormNetwork`. -/
def smulnSyns (f : K) (enc : Encoder K) : List (Synapse K) := (signedMultiplierNormNetwork enc f none World.empty).2.syns

/-- How often the neurons of a `SignedMultiplierNormNetwork` fire; `m1`, `m2`: the operands are negative. -/
def smulnFires (m1 m2 : Bool) : List ℕ :=
  [2, 2, 1, 1, 1, 0, 1, 1, 1, 1, 1, 2, 2, 1, 1, 1, 1, 2, bif m1 then 0 else 2, bif m1 then 2 else 0, bif m2 then 0 else 2, bif m2 then 2 else 0,
   bif m1 == m2 then 2 else 0, bif m1 != m2 then 2 else 0, bif !m1 && !m2 then 1 else 0, bif m1 && !m2 then 1 else 0, bif !m1 && m2 then 1 else 0,
   bif m1 && m2 then 1 else 0]

/-- Error of a `SignedMultiplierNormNetwork(f)` whose inputs are off by `ε1` and `ε2`. -/
def mulErr (f : K) (enc : Encoder K) (dt ε1 ε2 : K) : K := f * (ε1 + ε2 + 6 * dt + decayErr enc dt) + 2 * dt

theorem decayErr_nonneg {enc : Encoder K} (h2 : 0 < enc.Tcod) (hdt : 0 < dt) (hdt' : dt < 20) : 0 ≤ decayErr enc dt := by
  unfold decayErr
  have h1 : 0 < 1 - dt / 20 := by linarith
  have : (1 - dt / 20) ^ 2 ≤ 1 := pow_le_one₀ h1.le (by linarith)
  have : 1 ≤ 1 / (1 - dt / 20) ^ 2 := by rw [le_div_iff₀ (pow_pos h1 2)]; linarith
  exact mul_nonneg h2.le (by linarith)

set_option maxHeartbeats 2000000 in
/-- The second half of a signed multiplier with scaling: what the multiplier emits is scaled and put on the rail of the right sign. -/
theorem smuln_back_full {f : K} {enc : Encoder K} (hr : IsRun net dt inj s0 S F) (hdt : 0 < dt) (hf : 0 < f)
    (h2 : 0 < enc.Tcod) (hd : dt ≤ enc.Tmin) {x : ℕ}
    (hE : Embeds net s0 inj x (smulnSyns f enc) [0, 1, 2, 3, 4, 5, 6, 7, 8, 9, 10, 11, 12, 13, 14, 15, 16, 17, 22, 23, 24, 25, 26, 27])
    (m1 m2 : Bool) {a1 b1 a2 b2 : ℕ} (h1 : 1 ≤ a1) (h1' : a1 ≤ b1) (h2a : 1 ≤ a2) (h2' : a2 ≤ b2)
    (I1p : Arr dt inj F (x + 18) 1 (on (!m1) [a1, b1])) (I1m : Arr dt inj F (x + 19) 1 (on m1 [a1, b1]))
    (I2p : Arr dt inj F (x + 20) 1 (on (!m2) [a2, b2])) (I2m : Arr dt inj F (x + 21) 1 (on m2 [a2, b2]))
    {p q : ℕ} (t11 : Train F (x + 11) [p, q]) (hp : max b1 b2 < p) (hgap : p + dly dt 1 ≤ q) {v ε : K} (hv : 0 ≤ v) (hε : 0 ≤ ε)
    (hI : |((q : K) * dt - (p : K) * dt) - (enc.Tmin + v * enc.Tcod)| ≤ ε)
    (hlow : dly dt (1 + enc.Tmin) + dly dt 1 ≤ (q - p) + dly dt 2) (hfv : f * v ≤ 1) (hfε : f * (2 * dt + ε) ≤ enc.Tmin) :
    ∃ P Q, Train F (x + 22) (on (m1 == m2) [P, Q]) ∧ Train F (x + 23) (on (m1 != m2) [P, Q]) ∧ p ≤ P ∧ P < Q ∧
      |((Q : K) * dt - (P : K) * dt) - (enc.Tmin + f * v * enc.Tcod)| ≤ f * (2 * dt + ε) + 2 * dt ∧
      (Q : K) * dt ≤ (p : K) * dt + enc.Tmax / f + enc.Tcod + 3 * enc.Tmin + 6 + 7 * dt ∧
      ∀ k < 28, 11 < k → (k < 18 ∨ 21 < k) → Fires F (x + k) ((smulnFires m1 m2).getD k 0) := by
  have hTm0 : 0 < enc.Tmin := by linarith
  have hTmax : 0 < enc.Tmax := add_pos hTm0 h2
  have hd1 := one_le_dly dt (1 : K)
  have ES : Embeds net s0 inj (x + 12) (smulSyns f enc) [1, 2, 3, 4, 5] :=
    hE.sub 12 (by simp) (by intro k hk; simp at hk; rcases hk with rfl | rfl | rfl | rfl | rfl <;> rfl)
  obtain ⟨g1, g2, g3, g4⟩ := signs hr hdt (hE.std 24 (by simp)) (hE.std 25 (by simp)) (hE.std 26 (by simp)) (hE.std 27 (by simp))
    (hE.noinj 24 (by simp)) (hE.noinj 25 (by simp)) (hE.noinj 26 (by simp)) (hE.noinj 27 (by simp))
    (i1p := x + 18) (i1m := x + 19) (i2p := x + 20) (i2m := x + 21)
    (hE.ins 24 (by simp)) (hE.ins 25 (by simp)) (hE.ins 26 (by simp)) (hE.ins 27 (by simp)) m1 m2 h1 (by omega) h2a (by omega) I1p I1m I2p I2m
  obtain ⟨d1, d2⟩ := dly_bd hdt (one_pos (α := K))
  obtain ⟨e1, e2⟩ := dly_bd hdt (two_pos (α := K))
  have t12 : Train F (x + 12) [p + dly dt 1, q + dly dt 1] :=
    relay1 hr (hE.std 12 (by simp)) (le_refl 10) (hE.ins 12 (by simp)) (t11.arr2 hdt (by omega) (hE.noinj 11 (by simp)) 1) (by simp; omega)
  have a12 := t12.arr2 hdt (by omega) (hE.noinj 12 (by simp)) 1
  have hI' : |(((q + dly dt 1 + dly dt 1 : ℕ) : K) * dt - ((p + dly dt 1 + dly dt 1 : ℕ) : K) * dt) - (enc.Tmin + v * enc.Tcod)| ≤ ε := by
    push_cast
    rwa [show ((q : K) + dly dt (1 : K) + dly dt (1 : K)) * dt - (p + dly dt (1 : K) + dly dt (1 : K)) * dt = q * dt - p * dt by ring]
  have hlow' : dly dt (1 + enc.Tmin) + dly dt 1 ≤ (q + dly dt 1 + dly dt 1 - (p + dly dt 1 + dly dt 1)) + dly dt 2 := by
    rwa [show q + dly dt (1 : K) + dly dt 1 - (p + dly dt 1 + dly dt 1) = q - p by omega]
  obtain ⟨s1, s2, s3, s4⟩ := scal_times hdt hf hTm0 h2 hd hv hfv hε hfε (by omega) hI' hlow' rfl rfl rfl rfl
  obtain ⟨⟨t5, q1⟩, fs⟩ := scal_core_full hr hdt hf hTmax ES a12 (by omega) (by omega) rfl rfl rfl s1 s2 rfl
  obtain ⟨u1, u2⟩ := s3 q1
  obtain ⟨P, hP⟩ : ∃ P, P = p + dly dt 1 + dly dt 1 + dly dt (1 + enc.Tmin) + ⌈enc.Tmax / f / dt⌉₊ - 1 + dly dt 2 := ⟨_, rfl⟩
  rw [← hP] at t5 u1 u2
  generalize (p + dly dt 1 + dly dt 1 + dly dt (1 + enc.Tmin) + ⌈enc.Tmax / f / dt⌉₊ - 1 + dly dt 1 +
    ⌈enc.Tmax / dt - f * ((p + dly dt 1 + dly dt 1 + dly dt (1 + enc.Tmin) + ⌈enc.Tmax / f / dt⌉₊ - 1 + dly dt 1 - (q + dly dt 1 + dly dt 1 + dly dt 2) : ℕ) : K)⌉₊ - 1 +
      dly dt (1 + enc.Tmin)) = Q at *
  have hPp : p < P := by omega
  have t5' : Train F (x + 17) [P, Q] := t5
  have a17 := t5'.arr2 hdt (by omega) (hE.noinj 17 (by simp)) 1
  have G1 : Arr dt inj F (x + 24) 1 (on (!m1 && !m2) [max b1 b2 + dly dt 1]) := by
    have := g1.arr hdt (by cases m1 <;> cases m2 <;> simp) (hE.noinj 24 (by simp)) 1
    revert this; cases m1 <;> cases m2 <;> exact id
  have G2 : Arr dt inj F (x + 25) 1 (on (m1 && !m2) [max b1 b2 + dly dt 1]) := by
    have := g2.arr hdt (by cases m1 <;> cases m2 <;> simp) (hE.noinj 25 (by simp)) 1
    revert this; cases m1 <;> cases m2 <;> exact id
  have G3 : Arr dt inj F (x + 26) 1 (on (!m1 && m2) [max b1 b2 + dly dt 1]) := by
    have := g3.arr hdt (by cases m1 <;> cases m2 <;> simp) (hE.noinj 26 (by simp)) 1
    revert this; cases m1 <;> cases m2 <;> exact id
  have G4 : Arr dt inj F (x + 27) 1 (on (m1 && m2) [max b1 b2 + dly dt 1]) := by
    have := g4.arr hdt (by cases m1 <;> cases m2 <;> simp) (hE.noinj 27 (by simp)) 1
    revert this; cases m1 <;> cases m2 <;> exact id
  have o1 := rail3 hr (hE.std 22 (by simp)) (u := x + 26) (v := x + 25) (s := x + 17) (hE.ins 22 (by simp)) _ _ (by cases m1 <;> cases m2 <;> simp)
    (by omega) (by omega) (by omega) G3 G2 a17
  have o2 := rail3 hr (hE.std 23 (by simp)) (u := x + 27) (v := x + 24) (s := x + 17) (hE.ins 23 (by simp)) _ _ (by cases m1 <;> cases m2 <;> simp)
    (by omega) (by omega) (by omega) G4 G1 a17
  have o1' : Train F (x + 22) (on (m1 == m2) [P + dly dt 1, Q + dly dt 1]) := by revert o1; cases m1 <;> cases m2 <;> exact id
  have o2' : Train F (x + 23) (on (m1 != m2) [P + dly dt 1, Q + dly dt 1]) := by revert o2; cases m1 <;> cases m2 <;> exact id
  refine ⟨P + dly dt 1, Q + dly dt 1, o1', o2', by omega, by omega, ?_, ?_, ?_⟩
  · push_cast
    rwa [show ((Q : K) + dly dt (1 : K)) * dt - (P + dly dt (1 : K)) * dt = Q * dt - P * dt by ring]
  · have hfvT : f * v * enc.Tcod ≤ enc.Tcod := mul_le_of_le_one_left h2.le hfv
    push_cast at s4 ⊢
    linarith
  · intro k hk hk' hk''
    have on1 : ∀ {y : ℕ} {c : Bool} {a : ℕ}, Train F y (on c [a]) → Fires F y (bif c then 1 else 0) := by
      intro y c a h; cases c
      · exact h.fires0
      · exact h.fires1
    have on2 : ∀ {y : ℕ} {c : Bool} {a b : ℕ}, Train F y (on c [a, b]) → a < b → Fires F y (bif c then 2 else 0) := by
      intro y c a b h hab; cases c
      · exact h.fires0
      · exact h.fires2 hab
    interval_cases k <;> first | omega | skip
    · exact t12.fires2 (by omega)
    · exact fs 0 (by omega)
    · exact fs 1 (by omega)
    · exact fs 2 (by omega)
    · exact fs 3 (by omega)
    · exact t5'.fires2 (by omega)
    · exact on2 o1' (by omega)
    · exact on2 o2' (by omega)
    · cases m1 <;> cases m2 <;> first | exact g1.fires0 | exact g1.fires1
    · cases m1 <;> cases m2 <;> first | exact g2.fires0 | exact g2.fires1
    · cases m1 <;> cases m2 <;> first | exact g3.fires0 | exact g3.fires1
    · cases m1 <;> cases m2 <;> first | exact g4.fires0 | exact g4.fires1

/-- The second half of a signed multiplier with scaling: what the multiplier emits is scaled and put on the rail of the right sign. -/
theorem smuln_back {f : K} {enc : Encoder K} (hr : IsRun net dt inj s0 S F) (hdt : 0 < dt) (hf : 0 < f)
    (h2 : 0 < enc.Tcod) (hd : dt ≤ enc.Tmin) {x : ℕ}
    (hE : Embeds net s0 inj x (smulnSyns f enc) [0, 1, 2, 3, 4, 5, 6, 7, 8, 9, 10, 11, 12, 13, 14, 15, 16, 17, 22, 23, 24, 25, 26, 27])
    (m1 m2 : Bool) {a1 b1 a2 b2 : ℕ} (h1 : 1 ≤ a1) (h1' : a1 ≤ b1) (h2a : 1 ≤ a2) (h2' : a2 ≤ b2)
    (I1p : Arr dt inj F (x + 18) 1 (on (!m1) [a1, b1])) (I1m : Arr dt inj F (x + 19) 1 (on m1 [a1, b1]))
    (I2p : Arr dt inj F (x + 20) 1 (on (!m2) [a2, b2])) (I2m : Arr dt inj F (x + 21) 1 (on m2 [a2, b2]))
    {p q : ℕ} (t11 : Train F (x + 11) [p, q]) (hp : max b1 b2 < p) (hgap : p + dly dt 1 ≤ q) {v ε : K} (hv : 0 ≤ v) (hε : 0 ≤ ε)
    (hI : |((q : K) * dt - (p : K) * dt) - (enc.Tmin + v * enc.Tcod)| ≤ ε)
    (hlow : dly dt (1 + enc.Tmin) + dly dt 1 ≤ (q - p) + dly dt 2) (hfv : f * v ≤ 1) (hfε : f * (2 * dt + ε) ≤ enc.Tmin) :
    ∃ P Q, Train F (x + 22) (on (m1 == m2) [P, Q]) ∧ Train F (x + 23) (on (m1 != m2) [P, Q]) ∧ p ≤ P ∧ P < Q ∧
      |((Q : K) * dt - (P : K) * dt) - (enc.Tmin + f * v * enc.Tcod)| ≤ f * (2 * dt + ε) + 2 * dt ∧
      (Q : K) * dt ≤ (p : K) * dt + enc.Tmax / f + enc.Tcod + 3 * enc.Tmin + 6 + 7 * dt := by
  obtain ⟨P, Q, o1, o2, o3, o4, o5, o6, -⟩ := smuln_back_full hr hdt hf h2 hd hE m1 m2 h1 h1' h2a h2' I1p I1m I2p I2m t11 hp hgap hv hε hI hlow hfv hfε
  exact ⟨P, Q, o1, o2, o3, o4, o5, o6⟩

set_option maxHeartbeats 2000000 in
/-- A signed multiplier with scaling: `f * v1 * v2` on the rail of the right sign. -/
theorem smuln_core_full {f : K} {enc : Encoder K} (hr : IsRun net dt inj s0 S F) (hdt : 0 < dt) (hdt' : dt < 20) (hf : 0 < f)
    (h2 : 0 < enc.Tcod) (hd : 1 + dt ≤ enc.Tmin) (hTm : 2 * dt ≤ enc.Tmin) {x : ℕ}
    (hE : Embeds net s0 inj x (smulnSyns f enc) [0, 1, 2, 3, 4, 5, 6, 7, 8, 9, 10, 11, 12, 13, 14, 15, 16, 17, 22, 23, 24, 25, 26, 27])
    (m1 m2 : Bool) {a1 b1 a2 b2 : ℕ} (h1 : 1 ≤ a1) (h1' : a1 + dly dt 1 ≤ b1) (h2a : 1 ≤ a2) (h2' : a2 + dly dt 1 ≤ b2)
    (I1p : Arr dt inj F (x + 18) 1 (on (!m1) [a1, b1])) (I1m : Arr dt inj F (x + 19) 1 (on m1 [a1, b1]))
    (I2p : Arr dt inj F (x + 20) 1 (on (!m2) [a2, b2])) (I2m : Arr dt inj F (x + 21) 1 (on m2 [a2, b2]))
    {v1 v2 ε1 ε2 : K} 
    (hI1 : |((b1 : K) * dt - (a1 : K) * dt) - (enc.Tmin + v1 * enc.Tcod)| ≤ ε1)
    (hI2 : |((b2 : K) * dt - (a2 : K) * dt) - (enc.Tmin + v2 * enc.Tcod)| ≤ ε2)
    (hv1 : ε1 + dt ≤ v1 * enc.Tcod) (hv1' : v1 * enc.Tcod + (ε1 + dt) ≤ enc.Tcod)
    (hv2 : ε2 + dt ≤ v2 * enc.Tcod) (hv2' : v2 * enc.Tcod + (ε2 + dt) ≤ enc.Tcod)
    {M : ℕ} (hM : left dt M ≤ (v1 - (ε1 + dt) / enc.Tcod) * (v2 - (ε2 + dt) / enc.Tcod)) (hM' : ((M : K) + 6) * dt ≤ 343)
    (hfv : f * (v1 * v2) ≤ 1) (hfε : f * (ε1 + ε2 + 6 * dt + decayErr enc dt) ≤ enc.Tmin)
    (hlo : ε1 + ε2 + 6 * dt + decayErr enc dt ≤ v1 * v2 * enc.Tcod) :
    ∃ p q, Train F (x + 22) (on (m1 == m2) [p, q]) ∧ Train F (x + 23) (on (m1 != m2) [p, q]) ∧ 1 ≤ p ∧ p < q ∧
      |((q : K) * dt - (p : K) * dt) - (enc.Tmin + f * (v1 * v2) * enc.Tcod)| ≤ mulErr f enc dt ε1 ε2 ∧
      (q : K) * dt ≤ ((max b1 b2 : ℕ) : K) * dt + 355 + 4 * enc.Tmin + 2 * enc.Tcod + enc.Tmax / f + 10 * dt ∧
      ∀ k < 28, (k < 18 ∨ 21 < k) → Fires F (x + k) ((smulnFires m1 m2).getD k 0) := by
  have hTm0 : 0 < enc.Tmin := by linarith
  have hTmax : 0 < enc.Tmax := add_pos hTm0 h2
  have hε1 : 0 ≤ ε1 := (abs_nonneg _).trans hI1
  have hε2 : 0 ≤ ε2 := (abs_nonneg _).trans hI2
  have hD := decayErr_nonneg h2 hdt hdt'
  have hd1 := one_le_dly dt (1 : K)
  have EM : Embeds net s0 inj x (mulSyns enc) [2, 3, 4, 5, 6, 7, 8, 9, 10, 11] :=
    hE.sub 0 (by simp) (by intro k hk; simp at hk; rcases hk with rfl | rfl | rfl | rfl | rfl | rfl | rfl | rfl | rfl | rfl <;> rfl)
  have hm := smul_front hr hdt EM (hE.std 0 (by simp)) (hE.std 1 (by simp)) (hE.noinj 0 (by simp)) (hE.noinj 1 (by simp))
    (i1p := x + 18) (i1m := x + 19) (i2p := x + 20) (i2m := x + 21) (hE.ins 0 (by simp)) (hE.ins 1 (by simp)) m1 m2 h1 h1' h2a h2' I1p I1m I2p I2m
  obtain ⟨d1, d2⟩ := dly_bd hdt (one_pos (α := K))
  obtain ⟨e1, e2⟩ := dly_bd hdt (two_pos (α := K))
  obtain ⟨f1, f2⟩ := dly_bd hdt (show (0 : K) < 350 by norm_num)
  obtain ⟨f3, f4⟩ := dly_bd hdt (show 0 < 1 + enc.Tmin by linarith)
  have hz : max (b1 + dly dt 1) (b2 + dly dt 1) + 4 * dly dt 1 + dly dt 2 + M ≤ max (b1 + dly dt 350) (b2 + dly dt 350) + 1 := by
    have : 5 * dly dt (1 : K) + dly dt 2 + M ≤ dly dt 350 + 1 := by
      refine step_le hdt ?_
      push_cast; linarith
    omega
  obtain ⟨p, q, t11, t5, hpq, hp, hq, herr, fm⟩ := hm.values_full hr hdt hdt' h2 hTm (v1 := v1) (v2 := v2) (ε1 := ε1) (ε2 := ε2)
    (by push_cast; rwa [show ((b1 : K) + dly dt (1 : K)) * dt - (a1 + dly dt (1 : K)) * dt = b1 * dt - a1 * dt by ring])
    (by push_cast; rwa [show ((b2 : K) + dly dt (1 : K)) * dt - (a2 + dly dt (1 : K)) * dt = b2 * dt - a2 * dt by ring])
    hv1 hv1' hv2 hv2' hM hz
  have hgap : p + dly dt 1 ≤ q := by
    rw [abs_le] at herr
    refine step_le hdt ?_
    push_cast; linarith
  have hv12 : 0 ≤ v1 * v2 := by
    have : 0 ≤ v1 * enc.Tcod := by linarith
    have : 0 ≤ v2 * enc.Tcod := by linarith
    exact mul_nonneg (nonneg_of_mul_nonneg_left ‹0 ≤ v1 * enc.Tcod› h2) (nonneg_of_mul_nonneg_left this h2)
  have hlow : dly dt (1 + enc.Tmin) + dly dt 1 ≤ (q - p) + dly dt 2 := by
    rw [abs_le] at herr
    refine step_le hdt ?_
    push_cast [Nat.cast_sub hpq.le]; linarith
  obtain ⟨P, Q, o1, o2, hpP, hPQ, hE', hQ, fb⟩ := smuln_back_full hr hdt hf h2 (by linarith) hE m1 m2 h1 (by omega) h2a (by omega) I1p I1m I2p I2m t11 (by omega) hgap hv12
    (by linarith) herr hlow hfv (by refine le_trans (le_of_eq ?_) hfε; ring)
  refine ⟨P, Q, o1, o2, by omega, hPQ, ?_, ?_, ?_⟩
  · refine hE'.trans (le_of_eq ?_)
    unfold mulErr; ring
  · have hcl := Nat.ceil_lt_add_one (show 0 ≤ enc.Tcod / dt by positivity)
    have hcl' := mul_lt_mul_of_pos_right hcl hdt
    rw [add_mul, div_mul_cancel₀ _ hdt.ne', one_mul] at hcl'
    have hdm := one_le_dly dt (1 + enc.Tmin)
    have hpK : p + 2 ≤ max b1 b2 + 5 * dly dt 1 + M + ⌈enc.Tcod / dt⌉₊ + dly dt (1 + enc.Tmin) := by omega
    have hpK' : ((p : K) + 2) * dt ≤ (((max b1 b2 + 5 * dly dt 1 + M + ⌈enc.Tcod / dt⌉₊ + dly dt (1 + enc.Tmin) : ℕ)) : K) * dt :=
      mul_le_mul_of_nonneg_right (by exact_mod_cast hpK) hdt.le
    generalize max b1 b2 = B at *
    push_cast at hpK' ⊢
    linarith
  · intro k hk hk'
    by_cases h11 : 11 < k
    · exact fb k hk h11 hk'
    · have f0 : Fires F (x + 0) 2 := (Train.of_arr (T := [a1, b1]) hdt (hE.noinj 0 (by simp)) hm.in1 rfl).fires2 (by omega)
      have f1 : Fires F (x + 1) 2 := (Train.of_arr (T := [a2, b2]) hdt (hE.noinj 1 (by simp)) hm.in2 rfl).fires2 (by omega)
      interval_cases k
      · exact f0
      · exact f1
      · exact fm 2 (by simp)
      · exact fm 3 (by simp)
      · exact fm 4 (by simp)
      · exact t5.fires0
      · exact fm 6 (by simp)
      · exact fm 7 (by simp)
      · exact fm 8 (by simp)
      · exact fm 9 (by simp)
      · exact fm 10 (by simp)
      · exact t11.fires2 hpq

/-- A signed multiplier with scaling: `f * v1 * v2` on the rail of the right sign. -/
theorem smuln_core {f : K} {enc : Encoder K} (hr : IsRun net dt inj s0 S F) (hdt : 0 < dt) (hdt' : dt < 20) (hf : 0 < f)
    (h2 : 0 < enc.Tcod) (hd : 1 + dt ≤ enc.Tmin) (hTm : 2 * dt ≤ enc.Tmin) {x : ℕ}
    (hE : Embeds net s0 inj x (smulnSyns f enc) [0, 1, 2, 3, 4, 5, 6, 7, 8, 9, 10, 11, 12, 13, 14, 15, 16, 17, 22, 23, 24, 25, 26, 27])
    (m1 m2 : Bool) {a1 b1 a2 b2 : ℕ} (h1 : 1 ≤ a1) (h1' : a1 + dly dt 1 ≤ b1) (h2a : 1 ≤ a2) (h2' : a2 + dly dt 1 ≤ b2)
    (I1p : Arr dt inj F (x + 18) 1 (on (!m1) [a1, b1])) (I1m : Arr dt inj F (x + 19) 1 (on m1 [a1, b1]))
    (I2p : Arr dt inj F (x + 20) 1 (on (!m2) [a2, b2])) (I2m : Arr dt inj F (x + 21) 1 (on m2 [a2, b2]))
    {v1 v2 ε1 ε2 : K} 
    (hI1 : |((b1 : K) * dt - (a1 : K) * dt) - (enc.Tmin + v1 * enc.Tcod)| ≤ ε1)
    (hI2 : |((b2 : K) * dt - (a2 : K) * dt) - (enc.Tmin + v2 * enc.Tcod)| ≤ ε2)
    (hv1 : ε1 + dt ≤ v1 * enc.Tcod) (hv1' : v1 * enc.Tcod + (ε1 + dt) ≤ enc.Tcod)
    (hv2 : ε2 + dt ≤ v2 * enc.Tcod) (hv2' : v2 * enc.Tcod + (ε2 + dt) ≤ enc.Tcod)
    {M : ℕ} (hM : left dt M ≤ (v1 - (ε1 + dt) / enc.Tcod) * (v2 - (ε2 + dt) / enc.Tcod)) (hM' : ((M : K) + 6) * dt ≤ 343)
    (hfv : f * (v1 * v2) ≤ 1) (hfε : f * (ε1 + ε2 + 6 * dt + decayErr enc dt) ≤ enc.Tmin)
    (hlo : ε1 + ε2 + 6 * dt + decayErr enc dt ≤ v1 * v2 * enc.Tcod) :
    ∃ p q, Train F (x + 22) (on (m1 == m2) [p, q]) ∧ Train F (x + 23) (on (m1 != m2) [p, q]) ∧ 1 ≤ p ∧ p < q ∧
      |((q : K) * dt - (p : K) * dt) - (enc.Tmin + f * (v1 * v2) * enc.Tcod)| ≤ mulErr f enc dt ε1 ε2 ∧
      (q : K) * dt ≤ ((max b1 b2 : ℕ) : K) * dt + 355 + 4 * enc.Tmin + 2 * enc.Tcod + enc.Tmax / f + 10 * dt := by
  obtain ⟨P, Q, o1, o2, o3, o4, o5, o6, -⟩ := smuln_core_full hr hdt hdt' hf h2 hd hTm hE m1 m2 h1 h1' h2a h2' I1p I1m I2p I2m hI1 hI2 hv1 hv1' hv2 hv2'
    hM hM' hfv hfε hlo
  exact ⟨P, Q, o1, o2, o3, o4, o5, o6⟩

/-- If one operand leaves its logarithm uncharged and the other one does not fill its own, the second logarithm is silent. -/
theorem MulIn.none8 {enc : Encoder K} {x a1 b1 a2 b2 y1 z1 y2 z2 : ℕ} (hr : IsRun net dt inj s0 S F) (hdt : 0 < dt) (hdt' : dt < 20)
    (hT : 0 < enc.Tcod) (h : MulIn net s0 dt inj F enc x a1 b1 a2 b2 y1 z1 y2 z2)
    (hX1 : ((b1 + dly dt 1 - (a1 + dly dt (1 + enc.Tmin)) : ℕ) : K) * dt / enc.Tcod < 1)
    (hX2 : ((b2 + dly dt 1 - (a2 + dly dt (1 + enc.Tmin)) : ℕ) : K) * dt / enc.Tcod < 1)
    (h0 : b1 + dly dt 1 ≤ a1 + dly dt (1 + enc.Tmin) ∨ b2 + dly dt 1 ≤ a2 + dly dt (1 + enc.Tmin)) : Train F (x + 8) [] := by
  have hw : enc.waccBar = (10 * 100 / enc.Tcod : K) := rfl
  have hw0 : 0 ≤ enc.waccBar := by rw [hw]; positivity
  have hd1 := one_le_dly dt (1 : K)
  have hdm := one_le_dly dt (1 + enc.Tmin)
  have hd2 : Train F (x + 4) [] → Train F (x + 8) [] := by
    intro t4
    refine h.log2_none hr hdt t4 hw0 ?_
    rw [show ∀ n : ℕ, enc.waccBar * dt / 100 * (n : K) = 10 * ((n : K) * dt / enc.Tcod) by intro n; rw [hw]; ring]
    linarith
  by_cases h4 : a1 + dly dt (1 + enc.Tmin) < b1 + dly dt 1
  · have hb := h0.resolve_left (by omega)
    obtain ⟨X1, hX1e⟩ : ∃ X1, X1 = ((b1 + dly dt 1 - (a1 + dly dt (1 + enc.Tmin)) : ℕ) : K) * dt / enc.Tcod := ⟨_, rfl⟩
    have hX1p : 0 < X1 := by
      rw [hX1e]
      have : (0 : K) < ((b1 + dly dt 1 - (a1 + dly dt (1 + enc.Tmin)) : ℕ) : K) := by exact_mod_cast (by omega)
      positivity
    obtain ⟨n1, hn1⟩ := decay_exists hdt hdt' hX1p
    have t4 := log_acc hr hdt hdt' (h.emb.std 4 (by simp)) hw0 (h.log1 hr hdt) (by omega) h4.le (by omega)
      (X := X1) (by rw [hX1e, hw]; ring) (by rw [hX1e]; exact hX1) hn1
    exact log_acc_none hr hdt hdt' (h.emb.std 8 (by simp)) hw0 (h.log2 hr hdt t4) (by omega) hb
  · exact hd2 (log_acc_none hr hdt hdt' (h.emb.std 4 (by simp)) hw0 (h.log1 hr hdt) (by omega) (by omega))

/-- The synapses of a `SignedMultiplierNetwork`. -/
def smulxSyns (enc : Encoder K) : List (Synapse K) := (signedMultiplierNetwork enc none World.empty).2.syns

/-- The outer part of a `SignedMultiplierNetwork`. -/
structure SMulIn (net : Net K) (s0 : ℕ → NState K) (dt : K) (inj : List (ℕ × K)) (F : ℕ → ℕ → Bool) (enc : Encoder K) (x : ℕ)
    (m1 m2 : Bool) (a1 b1 a2 b2 y1 z1 y2 z2 : ℕ) : Prop where
  emb : Embeds net s0 inj x (smulxSyns enc) [0, 1, 2, 3, 4, 5, 6, 7, 8, 9, 10, 11, 16, 17, 18, 19, 20, 21, 22]
  a1_pos : 1 ≤ a1
  gap1 : a1 + dly dt 1 ≤ b1
  a2_pos : 1 ≤ a2
  gap2 : a2 + dly dt 1 ≤ b2
  I1p : Arr dt inj F (x + 12) 1 (on (!m1) [a1, b1])
  I1m : Arr dt inj F (x + 13) 1 (on m1 [a1, b1])
  I2p : Arr dt inj F (x + 14) 1 (on (!m2) [a2, b2])
  I2m : Arr dt inj F (x + 15) 1 (on m2 [a2, b2])
  J1p : Arr dt inj F (x + 12) 350 (on (!m1) [y1, z1])
  J1m : Arr dt inj F (x + 13) 350 (on m1 [y1, z1])
  J2p : Arr dt inj F (x + 14) 350 (on (!m2) [y2, z2])
  J2m : Arr dt inj F (x + 15) 350 (on m2 [y2, z2])
  y1_pos : 1 ≤ y1
  y2_pos : 1 ≤ y2
  yz1 : y1 ≤ z1
  yz2 : y2 ≤ z2

variable {enc : Encoder K} {x a1 b1 a2 b2 y1 z1 y2 z2 : ℕ} {m1 m2 : Bool}

theorem SMulIn.mul (hr : IsRun net dt inj s0 S F) (hdt : 0 < dt) (h : SMulIn net s0 dt inj F enc x m1 m2 a1 b1 a2 b2 y1 z1 y2 z2) :
    MulIn net s0 dt inj F enc x (a1 + dly dt 1) (b1 + dly dt 1) (a2 + dly dt 1) (b2 + dly dt 1)
      (a1 + dly dt 350) (b1 + dly dt 350) (a2 + dly dt 350) (b2 + dly dt 350) :=
  smul_front hr hdt (h.emb.sub 0 (by simp) (by intro k hk; simp at hk; rcases hk with rfl | rfl | rfl | rfl | rfl | rfl | rfl | rfl | rfl | rfl <;> rfl))
    (h.emb.std 0 (by simp)) (h.emb.std 1 (by simp)) (h.emb.noinj 0 (by simp)) (h.emb.noinj 1 (by simp))
    (i1p := x + 12) (i1m := x + 13) (i2p := x + 14) (i2m := x + 15) (h.emb.ins 0 (by simp)) (h.emb.ins 1 (by simp)) m1 m2
    h.a1_pos h.gap1 h.a2_pos h.gap2 h.I1p h.I1m h.I2p h.I2m

theorem SMulIn.signs (hr : IsRun net dt inj s0 S F) (hdt : 0 < dt) (h : SMulIn net s0 dt inj F enc x m1 m2 a1 b1 a2 b2 y1 z1 y2 z2) :
    Arr dt inj F (x + 19) 1 (on (!m1 && !m2) [max b1 b2 + dly dt 1]) ∧ Arr dt inj F (x + 20) 1 (on (m1 && !m2) [max b1 b2 + dly dt 1]) ∧
    Arr dt inj F (x + 21) 1 (on (!m1 && m2) [max b1 b2 + dly dt 1]) ∧ Arr dt inj F (x + 22) 1 (on (m1 && m2) [max b1 b2 + dly dt 1]) := by
  have hd1 := one_le_dly dt (1 : K)
  have hE := h.emb
  have := h.gap1
  have := h.gap2
  obtain ⟨g1, g2, g3, g4⟩ := Axon.signs hr hdt (hE.std 19 (by simp)) (hE.std 20 (by simp)) (hE.std 21 (by simp)) (hE.std 22 (by simp))
    (hE.noinj 19 (by simp)) (hE.noinj 20 (by simp)) (hE.noinj 21 (by simp)) (hE.noinj 22 (by simp))
    (i1p := x + 12) (i1m := x + 13) (i2p := x + 14) (i2m := x + 15)
    (hE.ins 19 (by simp)) (hE.ins 20 (by simp)) (hE.ins 21 (by simp)) (hE.ins 22 (by simp)) m1 m2 h.a1_pos (by omega) h.a2_pos (by omega)
    h.I1p h.I1m h.I2p h.I2m
  refine ⟨?_, ?_, ?_, ?_⟩
  · have := g1.arr hdt (by cases m1 <;> cases m2 <;> simp) (hE.noinj 19 (by simp)) 1
    revert this; cases m1 <;> cases m2 <;> exact id
  · have := g2.arr hdt (by cases m1 <;> cases m2 <;> simp) (hE.noinj 20 (by simp)) 1
    revert this; cases m1 <;> cases m2 <;> exact id
  · have := g3.arr hdt (by cases m1 <;> cases m2 <;> simp) (hE.noinj 21 (by simp)) 1
    revert this; cases m1 <;> cases m2 <;> exact id
  · have := g4.arr hdt (by cases m1 <;> cases m2 <;> simp) (hE.noinj 22 (by simp)) 1
    revert this; cases m1 <;> cases m2 <;> exact id

/-- The output stage of a `SignedMultiplierNetwork` whose inner multiplier answers in time. -/
theorem SMulIn.out (hr : IsRun net dt inj s0 S F) (hdt : 0 < dt) (h : SMulIn net s0 dt inj F enc x m1 m2 a1 b1 a2 b2 y1 z1 y2 z2)
    {p q : ℕ} (t11 : Train F (x + 11) [p, q]) (hp : max b1 b2 < p) (hpq : p < q) (hz : p + dly dt 1 + dly dt 1 ≤ max z1 z2) :
    Train F (x + 16) (on (m1 == m2) [p + dly dt 1, q + dly dt 1]) ∧ Train F (x + 17) (on (m1 != m2) [p + dly dt 1, q + dly dt 1]) ∧
    Train F (x + 18) [] := by
  have hd1 := one_le_dly dt (1 : K)
  obtain ⟨G1, G2, G3, G4⟩ := h.signs hr hdt
  have a11 := t11.arr2 hdt (by omega) (h.emb.noinj 11 (by simp)) 1
  have hy1 := h.y1_pos
  have hy2 := h.y2_pos
  have hyz1 := h.yz1
  have hyz2 := h.yz2
  have o2 := rail3 hr (h.emb.std 17 (by simp)) (u := x + 22) (v := x + 19) (s := x + 11) (h.emb.ins 17 (by simp)) _ _ (by cases m1 <;> cases m2 <;> simp)
    (by omega) (by omega) (by omega) G4 G1 a11
  replace o2 : Train F (x + 17) (on (m1 != m2) [p + dly dt 1, q + dly dt 1]) := by
    revert o2; cases m1 <;> cases m2 <;> exact id
  have i16 : InS net (x + 16) [⟨x + 18, x + 16, 10, 1 + enc.Tmin, .V⟩, ⟨x + 18, x + 16, 10, 1, .V⟩, ⟨x + 21, x + 16, 2 * -10, 1, .V⟩,
    ⟨x + 20, x + 16, 2 * -10, 1, .V⟩, ⟨x + 11, x + 16, 10, 1, .V⟩] := h.emb.ins 16 (by simp)
  have i18 : InS net (x + 18) [⟨x + 17, x + 18, -10 / 2, 1, .V⟩, ⟨x + 16, x + 18, -10 / 2, 1, .V⟩, ⟨x + 15, x + 18, 10 / 4, 350, .V⟩,
    ⟨x + 14, x + 18, 10 / 4, 350, .V⟩, ⟨x + 13, x + 18, 10 / 4, 350, .V⟩, ⟨x + 12, x + 18, 10 / 4, 350, .V⟩] := h.emb.ins 18 (by simp)
  have a17 := o2.arr hdt (by cases m1 <;> cases m2 <;> simp <;> omega) (h.emb.noinj 17 (by simp)) 1
  have outTo : ∀ n, TrainTo F n (x + 18) [] → TrainTo F (n + 1) (x + 16) (on (m1 == m2) [p + dly dt 1, q + dly dt 1]) := by
    intro n hn
    have z1 := hn.arr hdt (by simp) (h.emb.noinj 18 (by simp)) (1 + enc.Tmin)
    have z2 := hn.arr hdt (by simp) (h.emb.noinj 18 (by simp)) (1 : K)
    simp only [List.map_nil] at z1 z2
    cases m1 <;> cases m2 <;>
      simp only [Bool.not_false, Bool.not_true, Bool.and_self, Bool.and_true, Bool.and_false, Bool.true_and, Bool.false_and, on_true, on_false,
        beq_tt, beq_tf, beq_ft, beq_ff] at G2 G3 ⊢ <;>
    · have v1 := VIn.of (dt := dt) (inj := inj) (F := F) (n := n + 1) i16 [(_, _), (_, _), (_, _), (_, _), (_, _)] [4, 4, -8, -8, 4] (by rfl) (by simp)
        (by norm_num) (by
          intro p hp; simp only [List.mem_cons, List.not_mem_nil, or_false] at hp
          rcases hp with rfl | rfl | rfl | rfl | rfl
          · exact z1
          · exact z2
          · exact G3.to _
          · exact G2.to _
          · exact a11.to _)
      first
      | exact v1.none hr (h.emb.std 16 (by simp)) (by intro i _; vz_omega)
      | exact v1.two hr (h.emb.std 16 (by simp)) (by omega) (by omega) (by intro i _ _; vz_omega) (by vz_omega) (by intro i _ _; vz_omega) (by vz_omega) (by intro i _; vz_omega)
  have key : ∀ n, TrainTo F n (x + 18) [] := by
    intro n
    induction n with
    | zero => intro i hi; rw [show i = 0 by omega, (hr.start _).2]; simp
    | succ n ih =>
      have a16 := (outTo n ih).arr hdt (by cases m1 <;> cases m2 <;> simp <;> omega) (h.emb.noinj 16 (by simp)) 1
      have J1p := h.J1p
      have J1m := h.J1m
      have J2p := h.J2p
      have J2m := h.J2m
      cases m1 <;> cases m2 <;>
      simp only [Bool.not_false, Bool.not_true, on_true, on_false, beq_tt, beq_tf, beq_ft, beq_ff, bne_tt, bne_tf, bne_ft, bne_ff, List.map_nil, List.map_cons] at a16 a17 J1p J1m J2p J2m ⊢ <;>
      · have hv := VIn.of (dt := dt) (inj := inj) (F := F) (n := n + 1) i18 [(_, _), (_, _), (_, _), (_, _), (_, _), (_, _)] [-2, -2, 1, 1, 1, 1] (by rfl) (by simp)
          (by norm_num) (by
            intro p hp; simp only [List.mem_cons, List.not_mem_nil, or_false] at hp
            rcases hp with rfl | rfl | rfl | rfl | rfl | rfl
            · exact a17.to _
            · exact a16.mono (by omega)
            · exact J2m.to _
            · exact J2p.to _
            · exact J1m.to _
            · exact J1p.to _)
        refine hv.none hr (h.emb.std 18 (by simp)) ?_
        intro i _
        vz_omega
  exact ⟨Train.of fun n => (outTo n (key n)).mono (by omega), o2, Train.of key⟩

set_option maxHeartbeats 4000000 in
/-- The output stage of a `SignedMultiplierNetwork` when both zero detectors (the inner and the outer one) answer. -/
theorem SMulIn.zero (hr : IsRun net dt inj s0 S F) (hdt : 0 < dt) (h : SMulIn net s0 dt inj F enc x m1 m2 a1 b1 a2 b2 y1 z1 y2 z2)
    {p q Z : ℕ} (t11 : Train F (x + 11) [p, q]) (hZ : Z = max z1 z2) (hb : max b1 b2 + dly dt 1 < Z) (h1 : Z < p)
    (h2 : p + dly dt 1 < Z + dly dt (1 + enc.Tmin)) (h3 : Z + dly dt (1 + enc.Tmin) < q + dly dt 1) :
    Train F (x + 16) (if m1 = m2 then [Z + dly dt 1, p + dly dt 1, Z + dly dt (1 + enc.Tmin), q + dly dt 1] else
      [Z + dly dt (1 + enc.Tmin), q + dly dt 1]) ∧ Train F (x + 17) (on (m1 != m2) [p + dly dt 1, q + dly dt 1]) := by
  have hd1 := one_le_dly dt (1 : K)
  obtain ⟨G1, G2, G3, G4⟩ := h.signs hr hdt
  have a11 := t11.arr2 hdt (by omega) (h.emb.noinj 11 (by simp)) 1
  have hy1 := h.y1_pos
  have hy2 := h.y2_pos
  have hyz1 := h.yz1
  have hyz2 := h.yz2
  have o2 := rail3 hr (h.emb.std 17 (by simp)) (u := x + 22) (v := x + 19) (s := x + 11) (h.emb.ins 17 (by simp)) _ _ (by cases m1 <;> cases m2 <;> simp)
    (by omega) (by omega) (by omega) G4 G1 a11
  replace o2 : Train F (x + 17) (on (m1 != m2) [p + dly dt 1, q + dly dt 1]) := by
    revert o2; cases m1 <;> cases m2 <;> exact id
  have i16 : InS net (x + 16) [⟨x + 18, x + 16, 10, 1 + enc.Tmin, .V⟩, ⟨x + 18, x + 16, 10, 1, .V⟩, ⟨x + 21, x + 16, 2 * -10, 1, .V⟩,
    ⟨x + 20, x + 16, 2 * -10, 1, .V⟩, ⟨x + 11, x + 16, 10, 1, .V⟩] := h.emb.ins 16 (by simp)
  have i18 : InS net (x + 18) [⟨x + 17, x + 18, -10 / 2, 1, .V⟩, ⟨x + 16, x + 18, -10 / 2, 1, .V⟩, ⟨x + 15, x + 18, 10 / 4, 350, .V⟩,
    ⟨x + 14, x + 18, 10 / 4, 350, .V⟩, ⟨x + 13, x + 18, 10 / 4, 350, .V⟩, ⟨x + 12, x + 18, 10 / 4, 350, .V⟩] := h.emb.ins 18 (by simp)
  have a17 := o2.arr hdt (by cases m1 <;> cases m2 <;> simp <;> omega) (h.emb.noinj 17 (by simp)) 1
  have outTo : ∀ n, TrainTo F n (x + 18) [Z] → TrainTo F (n + 1) (x + 16) (if m1 = m2 then [Z + dly dt 1, p + dly dt 1, Z + dly dt (1 + enc.Tmin), q + dly dt 1] else
      [Z + dly dt (1 + enc.Tmin), q + dly dt 1]) := by
    intro n hn
    have z1 := hn.arr hdt (by simp) (h.emb.noinj 18 (by simp)) (1 + enc.Tmin)
    have z2 := hn.arr hdt (by simp) (h.emb.noinj 18 (by simp)) (1 : K)
    simp only [List.map_nil, List.map_cons] at z1 z2
    have hin : ∀ (G3 : Arr dt inj F (x + 21) 1 []) (G2 : Arr dt inj F (x + 20) 1 []), TrainTo F (n + 1) (x + 16) [Z + dly dt 1, p + dly dt 1, Z + dly dt (1 + enc.Tmin), q + dly dt 1] := by
      intro G3 G2
      have hin := inE_of (dt := dt) (inj := inj) (F := F) (n := n + 1) i16 .V [(_, [Z + dly dt (1 + enc.Tmin)]), (_, [Z + dly dt 1]), (_, []), (_, []), (_, [p + dly dt 1, q + dly dt 1])] (by rfl) (by
        intro p hp; simp only [List.mem_cons, List.not_mem_nil, or_false] at hp
        rcases hp with rfl | rfl | rfl | rfl | rfl
        · exact z1
        · exact z2
        · exact G3.to _
        · exact G2.to _
        · exact a11.to _)
      refine relay_train hr (h.emb.std 16 (by simp)) i16 (by simp) hin ?_ ?_
      · intro e he
        simp only [evs, List.flatMap_cons, List.flatMap_nil, List.map_nil, List.map_cons, List.nil_append, List.cons_append,
          List.mem_cons, List.not_mem_nil, or_false] at he
        rcases he with rfl | rfl | rfl | rfl
        · exact ⟨le_rfl, by show 1 ≤ Z + dly dt (1 + enc.Tmin); omega⟩
        · exact ⟨le_rfl, by show 1 ≤ Z + dly dt 1; omega⟩
        · exact ⟨le_rfl, by show 1 ≤ p + dly dt 1; omega⟩
        · exact ⟨le_rfl, by show 1 ≤ q + dly dt 1; omega⟩
      · intro i
        simp only [evs, List.flatMap_cons, List.flatMap_nil, List.map_nil, List.map_cons, List.nil_append, List.cons_append,
          List.mem_cons, List.not_mem_nil, or_false]
        tauto
    cases m1 <;> cases m2 <;>
      simp only [Bool.not_false, Bool.not_true, Bool.and_self, Bool.and_true, Bool.and_false, Bool.true_and, Bool.false_and, on_true, on_false,
        if_true, if_false, Bool.false_eq_true, Bool.true_eq_false] at G2 G3 ⊢
    · exact hin G3 G2
    · have v1 := VIn.of (dt := dt) (inj := inj) (F := F) (n := n + 1) i16 [(_, _), (_, _), (_, _), (_, _), (_, _)] [4, 4, -8, -8, 4] (by rfl) (by simp)
        (by norm_num) (by
          intro p hp; simp only [List.mem_cons, List.not_mem_nil, or_false] at hp
          rcases hp with rfl | rfl | rfl | rfl | rfl
          · exact z1
          · exact z2
          · exact G3.to _
          · exact G2.to _
          · exact a11.to _)
      exact v1.two hr (h.emb.std 16 (by simp)) (by omega) (by omega) (by intro i _ _; vz_omega) (by vz_omega) (by intro i _ _; vz_omega) (by vz_omega) (by intro i _; vz_omega)
    · have v1 := VIn.of (dt := dt) (inj := inj) (F := F) (n := n + 1) i16 [(_, _), (_, _), (_, _), (_, _), (_, _)] [4, 4, -8, -8, 4] (by rfl) (by simp)
        (by norm_num) (by
          intro p hp; simp only [List.mem_cons, List.not_mem_nil, or_false] at hp
          rcases hp with rfl | rfl | rfl | rfl | rfl
          · exact z1
          · exact z2
          · exact G3.to _
          · exact G2.to _
          · exact a11.to _)
      exact v1.two hr (h.emb.std 16 (by simp)) (by omega) (by omega) (by intro i _ _; vz_omega) (by vz_omega) (by intro i _ _; vz_omega) (by vz_omega) (by intro i _; vz_omega)
    · exact hin G3 G2
  have key : ∀ n, TrainTo F n (x + 18) [Z] := by
    intro n
    induction n with
    | zero => intro i hi; rw [show i = 0 by omega, (hr.start _).2]; simp; omega
    | succ n ih =>
      have a16 := (outTo n ih).arr hdt (by cases m1 <;> cases m2 <;> simp <;> omega) (h.emb.noinj 16 (by simp)) 1
      have J1p := h.J1p
      have J1m := h.J1m
      have J2p := h.J2p
      have J2m := h.J2m
      cases m1 <;> cases m2 <;>
      simp only [Bool.not_false, Bool.not_true, on_true, on_false, beq_tt, beq_tf, beq_ft, beq_ff, bne_tt, bne_tf, bne_ft, bne_ff, List.map_nil, List.map_cons,
        if_true, if_false, Bool.false_eq_true, Bool.true_eq_false] at a16 a17 J1p J1m J2p J2m ⊢ <;>
      · have hv := VIn.of (dt := dt) (inj := inj) (F := F) (n := n + 1) i18 [(_, _), (_, _), (_, _), (_, _), (_, _), (_, _)] [-2, -2, 1, 1, 1, 1] (by rfl) (by simp)
          (by norm_num) (by
            intro p hp; simp only [List.mem_cons, List.not_mem_nil, or_false] at hp
            rcases hp with rfl | rfl | rfl | rfl | rfl | rfl
            · exact a17.to _
            · exact a16.mono (by omega)
            · exact J2m.to _
            · exact J2p.to _
            · exact J1m.to _
            · exact J1p.to _)
        refine hv.one hr (h.emb.std 18 (by simp)) (by omega) ?_ ?_ ?_
        · intro i _ _
          vz_omega
        · vz_omega
        · intro i _; vz_omega
  exact ⟨Train.of fun n => (outTo n (key n)).mono (by omega), o2⟩

end run
end Axon
