import Verif.Proofs.LogExp
import Verif.Proofs.Subtractor
import Verif.Proofs.Silent

/-! # The divider -/
set_option linter.unusedSectionVars false
namespace Axon
open Spec
variable {K : Type*} [Field K] [LinearOrder K] [IsStrictOrderedRing K] [FloorRing K]

/-- The synapses of a `DivNetwork`. -/
def divSyns (enc : Encoder K) : List (Synapse K) := (divNetwork enc none World.empty).2.syns

/-- The neurons of a `DivNetwork` other than its inputs 0 and 5. -/
def divInner : List ℕ := [1, 2, 3, 4, 6, 7, 8, 9, 10, 11, 12, 13, 14, 15, 16, 17, 18, 19, 20, 21, 22, 23, 24]

section run
variable {net : Net K} {dt : K} {inj : List (ℕ × K)} {s0 : ℕ → NState K} {S : ℕ → ℕ → NState K}
  {F : ℕ → ℕ → Bool}

/-- Inputs of the accumulator of a logarithm whose decay is started by another neuron `s`. -/
theorem branch_in {acc f l s : ℕ} {w Tm : K} (ia : InS net acc [⟨s, acc, 1, 1, .gate⟩, ⟨s, acc, 50, 1, .gf⟩, ⟨l, acc, -w, 1, .ge⟩,
      ⟨f, acc, w, 1 + Tm, .ge⟩]) {a b Z : ℕ} (p1 : ∀ D, Arr dt inj F f D [a + dly dt D]) (p2 : ∀ D, Arr dt inj F l D [b + dly dt D])
    (p3 : ∀ D, Arr dt inj F s D [Z + dly dt D]) :
    LogIn net dt inj F acc w (a + dly dt (1 + Tm)) (b + dly dt 1) (Z + dly dt 1) := by
  refine ⟨?_, ?_, ?_, ?_⟩
  · intro n; exact inE_nil ia .V (by simp)
  · intro n
    have := inE_of (dt := dt) (inj := inj) (F := F) (n := n) ia .ge [(_, [b + dly dt 1]), (_, [a + dly dt (1 + Tm)])] (by rfl) (by
      intro p hp; simp only [List.mem_cons, List.not_mem_nil, or_false] at hp
      rcases hp with rfl | rfl
      · exact (p2 1).to _
      · exact (p1 _).to _)
    intro i hi
    rw [this i hi]
    exact evAt_perm (List.Perm.swap _ _ _) i
  · intro n
    exact inE_of (n := n) ia .gf [(_, [_])] (by rfl) (by
      intro p hp; simp only [List.mem_cons, List.not_mem_nil, or_false] at hp; subst hp; exact (p3 1).to _)
  · intro n
    exact inE_of (n := n) ia .gate [(_, [_])] (by rfl) (by
      intro p hp; simp only [List.mem_cons, List.not_mem_nil, or_false] at hp; subst hp; exact (p3 1).to _)

/-- Spikes of the output of one branch. -/
theorem branch_out (hr : IsRun net dt inj s0 S F) (hdt : 0 < dt) {acc out s : ℕ} {Tm : K} (ho : IsStd net s0 out)
    (hai : injTimes inj acc = []) (io : InS net out [⟨acc, out, 10, 1 + Tm, .V⟩, ⟨s, out, 10, 2 * 1, .V⟩])
    {Z Q : ℕ} (p3 : ∀ D, Arr dt inj F s D [Z + dly dt D]) (ta : Train F acc [Q]) :
    Train F out [Z + dly dt (2 * 1), Q + dly dt (1 + Tm)] := by
  have a3 := ta.arr1 hdt hai (1 + Tm)
  have := one_le_dly dt (1 + Tm)
  have := one_le_dly dt (2 : K)
  exact relay2 hr ho (le_refl 10) (le_refl 10) io a3 (p3 _) (by simp; omega) (by simp; omega) (by
    intro i; simp only [List.mem_cons, List.not_mem_nil, or_false]; exact or_comm)

/-- A divider at base `x` whose inputs spike so that arrivals over the delay of 1 are in steps `a1 < b1` and `a2 < b2`. -/
structure DivIn (net : Net K) (s0 : ℕ → NState K) (dt : K) (inj : List (ℕ × K)) (F : ℕ → ℕ → Bool) (enc : Encoder K) (x : ℕ)
    (a1 b1 a2 b2 : ℕ) : Prop where
  emb : Embeds net s0 inj x (divSyns enc) divInner
  in1 : Arr dt inj F x 1 [a1, b1]
  in2 : Arr dt inj F (x + 5) 1 [a2, b2]
  a1_pos : 1 ≤ a1
  a2_pos : 1 ≤ a2
  gap1 : a1 + dly dt 1 ≤ b1
  gap2 : a2 + dly dt 1 ≤ b2

variable {enc : Encoder K} {x a1 b1 a2 b2 : ℕ}

/-- First stage: the firsts, the lasts, the sync neuron. -/
theorem DivIn.front (hr : IsRun net dt inj s0 S F) (hdt : 0 < dt) (h : DivIn net s0 dt inj F enc x a1 b1 a2 b2) :
    LogIn net dt inj F (x + 3) enc.waccBar (a1 + dly dt (1 + enc.Tmin)) (b1 + dly dt 1) (max b1 b2 + dly dt 1 + dly dt 1) ∧
    LogIn net dt inj F (x + 8) enc.waccBar (a2 + dly dt (1 + enc.Tmin)) (b2 + dly dt 1) (max b1 b2 + dly dt 1 + dly dt 1) ∧
    (∀ D, Arr dt inj F (x + 10) D [max b1 b2 + dly dt 1 + dly dt D]) := by
  obtain ⟨p1, p2⟩ := firstlast hr hdt (h.emb.std 1 (by simp [divInner])) (h.emb.std 2 (by simp [divInner])) (h.emb.noinj 1 (by simp [divInner]))
    (h.emb.noinj 2 (by simp [divInner])) (h.emb.ins 1 (by simp [divInner])) (h.emb.ins 2 (by simp [divInner])) h.in1 h.a1_pos h.gap1
  obtain ⟨q1, q2⟩ := firstlast hr hdt (h.emb.std 6 (by simp [divInner])) (h.emb.std 7 (by simp [divInner])) (h.emb.noinj 6 (by simp [divInner]))
    (h.emb.noinj 7 (by simp [divInner])) (h.emb.ins 6 (by simp [divInner])) (h.emb.ins 7 (by simp [divInner])) h.in2 h.a2_pos h.gap2
  have i10 : InS net (x + 10) [⟨x + 7, x + 10, 1 / 2 * 10, 1, .V⟩, ⟨x + 2, x + 10, 1 / 2 * 10, 1, .V⟩] := h.emb.ins 10 (by simp [divInner])
  have hd1 := one_le_dly dt (1 : K)
  have t10 : Train F (x + 10) [max b1 b2 + dly dt 1] := by
    refine Train.of fun n => ?_
    have hv := VIn.of (dt := dt) (inj := inj) (F := F) (n := n) i10 [(_, [b2 + dly dt 1]), (_, [b1 + dly dt 1])] [2, 2] (by rfl) (by simp)
      (by norm_num) (by
        intro p hp; simp only [List.mem_cons, List.not_mem_nil, or_false] at hp
        rcases hp with rfl | rfl
        · exact (q2 1).to _
        · exact (p2 1).to _)
    rcases le_total b1 b2 with hle | hle
    · rw [max_eq_right hle]
      refine hv.one hr (h.emb.std 10 (by simp [divInner])) (by omega) ?_ ?_ ?_
      · intro i _ _; vz_omega
      · vz_omega
      · intro i _; vz_omega
    · rw [max_eq_left hle]
      refine hv.one hr (h.emb.std 10 (by simp [divInner])) (by omega) ?_ ?_ ?_
      · intro i _ _; vz_omega
      · vz_omega
      · intro i _; vz_omega
  have s := fun D => t10.arr1 hdt (h.emb.noinj 10 (by simp [divInner])) D
  have i3 : InS net (x + 3) [⟨x + 10, x + 3, 1, 1, .gate⟩, ⟨x + 10, x + 3, 50, 1, .gf⟩, ⟨x + 2, x + 3, -enc.waccBar, 1, .ge⟩,
      ⟨x + 1, x + 3, enc.waccBar, 1 + enc.Tmin, .ge⟩] := by
    have := h.emb.ins 3 (by simp [divInner])
    have e : ((insOf (divSyns enc) 3).map (Synapse.shift x)) = [⟨x + 10, x + 3, 1, 1, .gate⟩, ⟨x + 10, x + 3, 10 * 100 / 20, 1, .gf⟩,
      ⟨x + 2, x + 3, -enc.waccBar, 1, .ge⟩, ⟨x + 1, x + 3, enc.waccBar, 1 + enc.Tmin, .ge⟩] := rfl
    rwa [e, show (10 * 100 / 20 : K) = 50 by norm_num] at this
  have i8 : InS net (x + 8) [⟨x + 10, x + 8, 1, 1, .gate⟩, ⟨x + 10, x + 8, 50, 1, .gf⟩, ⟨x + 7, x + 8, -enc.waccBar, 1, .ge⟩,
      ⟨x + 6, x + 8, enc.waccBar, 1 + enc.Tmin, .ge⟩] := by
    have := h.emb.ins 8 (by simp [divInner])
    have e : ((insOf (divSyns enc) 8).map (Synapse.shift x)) = [⟨x + 10, x + 8, 1, 1, .gate⟩, ⟨x + 10, x + 8, 10 * 100 / 20, 1, .gf⟩,
      ⟨x + 7, x + 8, -enc.waccBar, 1, .ge⟩, ⟨x + 6, x + 8, enc.waccBar, 1 + enc.Tmin, .ge⟩] := rfl
    rwa [e, show (10 * 100 / 20 : K) = 50 by norm_num] at this
  exact ⟨branch_in i3 p1 p2 s, branch_in i8 q1 q2 s, s⟩

/-- The inputs of the subtractor, given the spikes of the two accumulators. -/
theorem DivIn.logs (hr : IsRun net dt inj s0 S F) (hdt : 0 < dt) (h : DivIn net s0 dt inj F enc x a1 b1 a2 b2) {Q1 Q2 : ℕ}
    (t3 : Train F (x + 3) [Q1]) (t8 : Train F (x + 8) [Q2]) (h1 : max b1 b2 + dly dt 1 + dly dt (2 * 1) < Q1 + dly dt (1 + enc.Tmin))
    (h2 : max b1 b2 + dly dt 1 + dly dt (2 * 1) < Q2 + dly dt (1 + enc.Tmin)) :
    Arr dt inj F (x + 11) 1 [max b1 b2 + dly dt 1 + dly dt (2 * 1) + dly dt 1 + dly dt 1, Q1 + dly dt (1 + enc.Tmin) + dly dt 1 + dly dt 1] ∧
    Arr dt inj F (x + 12) 1 [max b1 b2 + dly dt 1 + dly dt (2 * 1) + dly dt 1 + dly dt 1, Q2 + dly dt (1 + enc.Tmin) + dly dt 1 + dly dt 1] := by
  obtain ⟨-, -, s⟩ := h.front hr hdt
  have o4 := branch_out hr hdt (h.emb.std 4 (by simp [divInner])) (h.emb.noinj 3 (by simp [divInner])) (h.emb.ins 4 (by simp [divInner])) s t3
  have o9 := branch_out hr hdt (h.emb.std 9 (by simp [divInner])) (h.emb.noinj 8 (by simp [divInner])) (h.emb.ins 9 (by simp [divInner])) s t8
  have a4 := o4.arr2 hdt h1 (h.emb.noinj 4 (by simp [divInner])) 1
  have a9 := o9.arr2 hdt h2 (h.emb.noinj 9 (by simp [divInner])) 1
  have hd1 := one_le_dly dt (1 : K)
  have i11 : InS net (x + 11) [⟨x + 4, x + 11, 10, 1, .V⟩] := h.emb.ins 11 (by simp [divInner])
  have i12 : InS net (x + 12) [⟨x + 9, x + 12, 10, 1, .V⟩] := h.emb.ins 12 (by simp [divInner])
  have t11 := relay1 hr (h.emb.std 11 (by simp [divInner])) (le_refl 10) i11 a4 (by simp; omega)
  have t12 := relay1 hr (h.emb.std 12 (by simp [divInner])) (le_refl 10) i12 a9 (by simp; omega)
  exact ⟨t11.arr2 hdt (by omega) (h.emb.noinj 11 (by simp [divInner])) 1, t12.arr2 hdt (by omega) (h.emb.noinj 12 (by simp [divInner])) 1⟩

theorem DivIn.sub_emb (h : DivIn net s0 dt inj F enc x a1 b1 a2 b2) : Embeds net s0 inj (x + 11) (subSyns enc) [2, 3, 4, 5, 6, 7, 8] :=
  h.emb.sub 11 (by simp [divInner]) (by
    intro k hk; simp only [List.mem_cons, List.not_mem_nil, or_false] at hk
    rcases hk with rfl | rfl | rfl | rfl | rfl | rfl | rfl <;> rfl)

theorem DivIn.exp_emb (h : DivIn net s0 dt inj F enc x a1 b1 a2 b2) : Embeds net s0 inj (x + 20) (expSyns enc) [1, 2, 3, 4] :=
  h.emb.sub 20 (by simp [divInner]) (by
    intro k hk; simp only [List.mem_cons, List.not_mem_nil, or_false] at hk
    rcases hk with rfl | rfl | rfl | rfl <;> rfl)

theorem DivIn.i20 (h : DivIn net s0 dt inj F enc x a1 b1 a2 b2) : InS net (x + 20) [⟨x + 17, x + 20, 10, 1, .V⟩] := h.emb.ins 20 (by simp [divInner])

/-- The second half: subtraction and exponential, when the accumulators fire `m` steps apart. -/
theorem DivIn.back (hr : IsRun net dt inj s0 S F) (hdt : 0 < dt) (hdt' : dt < 1 / 50) (hT : dt < enc.Tcod) (hTm : 1 + dt ≤ enc.Tmin)
    (h : DivIn net s0 dt inj F enc x a1 b1 a2 b2) {Q1 Q2 : ℕ}
    (t3 : Train F (x + 3) [Q1]) (t8 : Train F (x + 8) [Q2]) (hQ : max b1 b2 + dly dt 1 + dly dt (2 * 1) < Q2 + dly dt (1 + enc.Tmin)) (hle : Q2 ≤ Q1) :
    ∃ p q n, Train F (x + 24) [p, q] ∧ p < q ∧ (n ≤ Q1 - Q2 + 1 ∧ Q1 - Q2 ≤ n + 1) ∧
      q + 1 ≤ Q1 + 5 * dly dt 1 + 2 * dly dt (1 + enc.Tmin) + dly dt (enc.Tmin + (3 * 1 + 2 * (1 / 100))) + ⌈enc.Tcod / dt⌉₊ ∧
      |((q : K) * dt - (p : K) * dt) - (enc.Tmin + rho dt ^ n * enc.Tcod)| ≤ 2 * dt := by
  have hT0 : 0 < enc.Tcod := hdt.trans hT
  have hd20 : dt < 20 := by linarith
  obtain ⟨d1, d2⟩ := dly_bd hdt (one_pos (α := K))
  obtain ⟨e1, e2⟩ := dly_bd hdt (show (0 : K) < 2 * 1 by norm_num)
  obtain ⟨f1, f2⟩ := dly_bd hdt (show 0 < 1 + enc.Tmin by linarith)
  obtain ⟨g1, g2⟩ := dly_bd hdt (show (0 : K) < 3 * 1 + 2 * (1 / 100) by norm_num)
  obtain ⟨k1, k2⟩ := dly_bd hdt (show (0 : K) < enc.Tmin + (3 * 1 + 2 * (1 / 100)) by linarith)
  obtain ⟨v1, v2⟩ := dly_bd hdt (show (0 : K) < 2 by norm_num)
  have hd1 := one_le_dly dt (1 : K)
  have hD := subDelays (Tmin := enc.Tmin) hdt hdt' (by linarith)
  have hδ1 : dly dt (enc.Tmin + (3 * 1 + 2 * (1 / 100)) : K) + dly dt 1 ≤ dly dt (3 * 1 + 2 * (1 / 100) : K) + dly dt (1 + enc.Tmin) + 1 := by
    refine step_le hdt ?_
    push_cast; linarith
  have hδ2 : dly dt (3 * 1 + 2 * (1 / 100) : K) + dly dt (1 + enc.Tmin) ≤ dly dt (enc.Tmin + (3 * 1 + 2 * (1 / 100)) : K) + dly dt 1 + 1 := by
    refine step_le hdt ?_
    push_cast; linarith
  have hδ3 : dly dt (3 * 1 + 2 * (1 / 100) : K) + dly dt 1 ≤ dly dt (enc.Tmin + (3 * 1 + 2 * (1 / 100)) : K) := by
    refine step_le hdt ?_
    push_cast; linarith
  obtain ⟨I1, I2⟩ := h.logs hr hdt t3 t8 (by omega) (by omega)
  have t17 := (sub_core hr hdt hdt' (by linarith) h.sub_emb I1 I2 (by omega) (by omega) (by omega) (by omega)).1
  rw [if_pos (by omega)] at t17
  have t17 : Train F (x + 17) _ := t17
  have hgap := hD.h6
  have a17 := t17.arr2 hdt (by omega) (h.emb.noinj 17 (by simp [divInner])) 1
  have t20 := relay1 hr (h.emb.std 20 (by simp [divInner])) (le_refl 10) h.i20 a17 (by simp; omega)
  have a20 := t20.arr2 hdt (by omega) (h.emb.noinj 20 (by simp [divInner])) 1
  have hc1 := Nat.le_ceil (enc.Tcod / dt)
  have hdd' : dly dt (2 : K) < dly dt 1 + dly dt (1 + enc.Tmin) := step_lt hdt (by push_cast; linarith)
  obtain ⟨a, ha⟩ : ∃ a, a = Q2 + dly dt (1 + enc.Tmin) + dly dt 1 + dly dt 1 + dly dt (3 * 1 + 2 * (1 / 100) : K) + dly dt 1 + dly dt 1 := ⟨_, rfl⟩
  obtain ⟨b, hb⟩ : ∃ b, b = Q1 + dly dt (1 + enc.Tmin) + dly dt 1 + dly dt 1 + dly dt (enc.Tmin + (3 * 1 + 2 * (1 / 100)) : K) + dly dt 1 + dly dt 1 := ⟨_, rfl⟩
  rw [← ha, ← hb] at a20
  obtain ⟨j, hj⟩ : ∃ j, j = ⌈rho dt ^ (b + dly dt 1 - (a + dly dt (1 + enc.Tmin))) * enc.Tcod / dt⌉₊ := ⟨_, rfl⟩
  have hpow : rho dt ^ (b + dly dt 1 - (a + dly dt (1 + enc.Tmin))) ≤ 1 := pow_le_one₀ (rho_pos hd20).le (rho_lt hdt).le
  have hpow0 : 0 < rho dt ^ (b + dly dt 1 - (a + dly dt (1 + enc.Tmin))) := pow_pos (rho_pos hd20) _
  have hj1 := Nat.le_ceil (rho dt ^ (b + dly dt 1 - (a + dly dt (1 + enc.Tmin))) * enc.Tcod / dt)
  have hj2 := Nat.ceil_lt_add_one (show 0 ≤ rho dt ^ (b + dly dt 1 - (a + dly dt (1 + enc.Tmin))) * enc.Tcod / dt by positivity)
  have hjle : j ≤ ⌈enc.Tcod / dt⌉₊ := by
    rw [hj]
    refine Nat.ceil_mono (div_le_div_of_nonneg_right ?_ hdt.le)
    exact mul_le_of_le_one_left hT0.le hpow
  rw [← hj] at hj1 hj2
  have hAj : a + dly dt (1 + enc.Tmin) ≤ b + dly dt 1 + j - 1 := by
    by_cases hc : a + dly dt (1 + enc.Tmin) ≤ b + dly dt 1
    · have : 1 ≤ j := by rw [hj]; exact Nat.one_le_iff_ne_zero.mpr (Nat.ceil_pos.mpr (by positivity)).ne'
      omega
    · rw [show b + dly dt 1 - (a + dly dt (1 + enc.Tmin)) = 0 by omega, pow_zero, one_mul] at hj1
      have h1 : (1 : K) < j := lt_of_lt_of_le ((one_lt_div hdt).mpr hT) hj1
      have : 1 < j := by exact_mod_cast h1
      omega
  obtain ⟨t24, hj0⟩ := exp_core hr hdt hd20 hT0 h.exp_emb a20 (by omega) (by omega) rfl rfl hj hAj
  refine ⟨_, _, b + dly dt 1 - (a + dly dt (1 + enc.Tmin)), t24, ?_, ⟨?_, ?_⟩, ?_, ?_⟩
  · omega
  · omega
  · omega
  · omega
  · have hcast : ((b + dly dt 1 + j - 1 + dly dt (1 + enc.Tmin) : ℕ) : K) = (b : K) + dly dt (1 : K) + j - 1 + dly dt (1 + enc.Tmin) := by
      push_cast [Nat.cast_sub (show 1 ≤ b + dly dt 1 + j by omega)]; ring
    rw [hcast, abs_le]
    rw [div_le_iff₀ hdt] at hj1
    have hj2' := mul_lt_mul_of_pos_right hj2 hdt
    rw [add_mul, div_mul_cancel₀ _ hdt.ne', one_mul] at hj2'
    push_cast
    constructor <;> linarith

/-- Quotients from decay lengths. -/
theorem decay_quot {dt X1 X2 : K} (hdt : 0 < dt) (hdt' : dt < 20) {n1 n2 n : ℕ} (h1 : DecayTo dt X1 n1) (h2 : DecayTo dt X2 n2)
    (hX2 : 0 < X2) (h12 : X1 ≤ X2) (hX : X2 < 1) (ha : n ≤ n1 - n2 + 1) (hb : n1 - n2 ≤ n + 1) :
    n2 ≤ n1 ∧ |rho dt ^ n - X1 / X2| ≤ 1 / rho dt ^ 2 - 1 := by
  have hr0 := rho_pos hdt'
  have hr1 := rho_lt hdt
  have hn : n2 ≤ n1 := (h2 n1).mp (((h1 n1).mpr le_rfl).trans h12)
  refine ⟨hn, ?_⟩
  have p1 := h1.pos (h12.trans_lt hX)
  have p2 := h2.pos hX
  have a1 := (h1 n1).mpr le_rfl
  have a2 := (h2 n2).mpr le_rfl
  have b1 := (h1 (n1 - 1)).not.mpr (by omega)
  have b2 := (h2 (n2 - 1)).not.mpr (by omega)
  rw [not_le] at b1 b2
  have hX1 : 0 < X1 := lt_of_lt_of_le (pow_pos hr0 _) a1
  have hR1 : X1 / X2 ≤ 1 := (div_le_one hX2).mpr h12
  have hR0 : 0 < X1 / X2 := by positivity
  -- scale by `rho ^ n2`
  have e1 : rho dt ^ n1 = rho dt * rho dt ^ (n1 - 1) := by rw [← pow_succ']; congr 1; omega
  have e2 : rho dt ^ n2 = rho dt * rho dt ^ (n2 - 1) := by rw [← pow_succ']; congr 1; omega
  have u : rho dt ^ 2 * rho dt ^ n ≤ X1 / X2 := by
    have h : rho dt ^ 2 * rho dt ^ n * rho dt ^ (n2 - 1) ≤ rho dt ^ n1 := by
      rw [← pow_add, ← pow_add]
      exact pow_le_pow_of_le_one hr0.le hr1.le (by omega)
    have h3 : rho dt ^ 2 * rho dt ^ n * X2 ≤ rho dt ^ 2 * rho dt ^ n * rho dt ^ (n2 - 1) :=
      mul_le_mul_of_nonneg_left b2.le (by positivity)
    rw [le_div_iff₀ hX2]
    linarith
  have l : rho dt ^ 2 * (X1 / X2) ≤ rho dt ^ n := by
    rw [mul_div_assoc', div_le_iff₀ hX2]
    have h : rho dt ^ 2 * rho dt ^ (n1 - 1) ≤ rho dt ^ n * rho dt ^ n2 := by
      rw [← pow_add, ← pow_add]
      exact pow_le_pow_of_le_one hr0.le hr1.le (by omega)
    have h3 : rho dt ^ 2 * X1 ≤ rho dt ^ 2 * rho dt ^ (n1 - 1) := mul_le_mul_of_nonneg_left b1.le (by positivity)
    have h4 : rho dt ^ n * rho dt ^ n2 ≤ rho dt ^ n * X2 := mul_le_mul_of_nonneg_left a2 (by positivity)
    linarith
  have hr2 : 0 < rho dt ^ 2 := by positivity
  have hr3 : rho dt ^ 2 ≤ 1 := pow_le_one₀ hr0.le hr1.le
  rw [abs_le]
  constructor
  · have h5 : 1 - rho dt ^ 2 ≤ 1 / rho dt ^ 2 - 1 := by
      rw [div_sub_one hr2.ne', le_div_iff₀ hr2]
      exact mul_le_of_le_one_right (by linarith) hr3
    have h6 : (1 - rho dt ^ 2) * (X1 / X2) ≤ 1 - rho dt ^ 2 := mul_le_of_le_one_right (by linarith) hR1
    linarith
  · have h5 : rho dt ^ n ≤ X1 / X2 / rho dt ^ 2 := by rw [le_div_iff₀ hr2]; linarith
    have h6 : X1 / X2 / rho dt ^ 2 - X1 / X2 = X1 / X2 * (1 / rho dt ^ 2 - 1) := by ring
    have h7 : 0 ≤ 1 / rho dt ^ 2 - 1 := by rw [sub_nonneg, le_div_iff₀ hr2]; linarith
    have h8 : X1 / X2 * (1 / rho dt ^ 2 - 1) ≤ 1 / rho dt ^ 2 - 1 := mul_le_of_le_one_left h7 hR1
    linarith

/-- The accumulators of the two logarithms. -/
theorem DivIn.accs (hr : IsRun net dt inj s0 S F) (hdt : 0 < dt) (hdt' : dt < 20) (hT : 0 < enc.Tcod)
    (h : DivIn net s0 dt inj F enc x a1 b1 a2 b2) {X1 X2 : K} {n1 n2 : ℕ}
    (h1 : a1 + dly dt (1 + enc.Tmin) < b1 + dly dt 1) (h2 : a2 + dly dt (1 + enc.Tmin) < b2 + dly dt 1)
    (hX1 : X1 = ((b1 + dly dt 1 - (a1 + dly dt (1 + enc.Tmin)) : ℕ) : K) * dt / enc.Tcod)
    (hX2 : X2 = ((b2 + dly dt 1 - (a2 + dly dt (1 + enc.Tmin)) : ℕ) : K) * dt / enc.Tcod)
    (hX1' : X1 < 1) (hX2' : X2 < 1) (hn1 : DecayTo dt X1 n1) (hn2 : DecayTo dt X2 n2) :
    Train F (x + 3) [max b1 b2 + dly dt 1 + dly dt 1 - 1 + n1] ∧ Train F (x + 8) [max b1 b2 + dly dt 1 + dly dt 1 - 1 + n2] := by
  obtain ⟨L1, L2, -⟩ := h.front hr hdt
  have hw : enc.waccBar = (10 * 100 / enc.Tcod : K) := rfl
  have hw0 : 0 ≤ enc.waccBar := by rw [hw]; positivity
  have := one_le_dly dt (1 : K)
  refine ⟨log_acc hr hdt hdt' (h.emb.std 3 (by simp [divInner])) hw0 L1 (by have := h.a1_pos; omega) h1.le (by omega) (by rw [hX1, hw]; ring) hX1' hn1,
    log_acc hr hdt hdt' (h.emb.std 8 (by simp [divInner])) hw0 L2 (by have := h.a2_pos; omega) h2.le (by omega) (by rw [hX2, hw]; ring) hX2' hn2⟩

/-- The quotient of the charges. -/
theorem DivIn.quotient (hr : IsRun net dt inj s0 S F) (hdt : 0 < dt) (hdt' : dt < 1 / 50) (hT : dt < enc.Tcod) (hTm : 1 + dt ≤ enc.Tmin)
    (h : DivIn net s0 dt inj F enc x a1 b1 a2 b2) {X1 X2 : K}
    (h1 : a1 + dly dt (1 + enc.Tmin) < b1 + dly dt 1) (h2 : a2 + dly dt (1 + enc.Tmin) < b2 + dly dt 1)
    (hX1 : X1 = ((b1 + dly dt 1 - (a1 + dly dt (1 + enc.Tmin)) : ℕ) : K) * dt / enc.Tcod)
    (hX2 : X2 = ((b2 + dly dt 1 - (a2 + dly dt (1 + enc.Tmin)) : ℕ) : K) * dt / enc.Tcod)
    (h12 : X1 ≤ X2) (hX2' : X2 < 1) {M : ℕ} (hM : rho dt ^ M ≤ X1) :
    ∃ p q, Train F (x + 24) [p, q] ∧ p < q ∧
      q + 2 ≤ max b1 b2 + 7 * dly dt 1 + M + 2 * dly dt (1 + enc.Tmin) + dly dt (enc.Tmin + (3 * 1 + 2 * (1 / 100))) + ⌈enc.Tcod / dt⌉₊ ∧
      |((q : K) * dt - (p : K) * dt) - (enc.Tmin + X1 / X2 * enc.Tcod)| ≤ 2 * dt + enc.Tcod * (1 / (1 - dt / 20) ^ 2 - 1) := by
  have hT0 : 0 < enc.Tcod := hdt.trans hT
  have hd20 : dt < 20 := by linarith
  have hX1p : 0 < X1 := lt_of_lt_of_le (pow_pos (rho_pos hd20) _) hM
  obtain ⟨n1, hn1⟩ := decay_exists hdt hd20 hX1p
  obtain ⟨n2, hn2⟩ := decay_exists hdt hd20 (hX1p.trans_le h12)
  obtain ⟨t3, t8⟩ := h.accs hr hdt hd20 hT0 h1 h2 hX1 hX2 (h12.trans_lt hX2') hX2' hn1 hn2
  have hn : n2 ≤ n1 := (hn2 n1).mp (((hn1 n1).mpr le_rfl).trans h12)
  have hnM : n1 ≤ M := (hn1 M).mp hM
  have p2 := hn2.pos hX2'
  obtain ⟨d1, d2⟩ := dly_bd hdt (one_pos (α := K))
  obtain ⟨e1, e2⟩ := dly_bd hdt (show (0 : K) < 2 * 1 by norm_num)
  obtain ⟨f1, f2⟩ := dly_bd hdt (show 0 < 1 + enc.Tmin by linarith)
  have hd1 := one_le_dly dt (1 : K)
  have hdd : dly dt (2 * 1 : K) ≤ dly dt 1 + dly dt 1 := by
    refine step_le hdt ?_
    push_cast; linarith
  have hdm : dly dt (1 : K) < dly dt (1 + enc.Tmin) := step_lt hdt (by linarith)
  obtain ⟨p, q, n, t24, hpq, ⟨hna, hnb⟩, hq, herr⟩ := h.back hr hdt hdt' hT hTm t3 t8 (by omega) (by omega)
  refine ⟨p, q, t24, hpq, ?_, ?_⟩
  · have := one_le_dly dt (1 : K)
    omega
  · obtain ⟨-, hqt⟩ := decay_quot hdt hd20 hn1 hn2 (hX1p.trans_le h12) h12 hX2' (n := n) (by omega) (by omega)
    have hqt' : |rho dt ^ n - X1 / X2| * enc.Tcod ≤ (1 / (1 - dt / 20) ^ 2 - 1) * enc.Tcod := mul_le_mul_of_nonneg_right hqt hT0.le
    rw [← abs_of_pos hT0, ← abs_mul, abs_of_pos hT0, abs_le] at hqt'
    rw [abs_le] at herr ⊢
    constructor <;> linarith [hqt'.1, hqt'.2, herr.1, herr.2]

/-- If the first charge decays faster, the network does not answer. -/
theorem DivIn.reversed (hr : IsRun net dt inj s0 S F) (hdt : 0 < dt) (hdt' : dt < 1 / 50) (hT : 0 < enc.Tcod) (hTm : 1 + dt ≤ enc.Tmin)
    (h : DivIn net s0 dt inj F enc x a1 b1 a2 b2) {X1 X2 : K}
    (h1 : a1 + dly dt (1 + enc.Tmin) < b1 + dly dt 1) (h2 : a2 + dly dt (1 + enc.Tmin) < b2 + dly dt 1)
    (hX1 : X1 = ((b1 + dly dt 1 - (a1 + dly dt (1 + enc.Tmin)) : ℕ) : K) * dt / enc.Tcod)
    (hX2 : X2 = ((b2 + dly dt 1 - (a2 + dly dt (1 + enc.Tmin)) : ℕ) : K) * dt / enc.Tcod)
    (h0 : 0 < X2) (h12 : X2 ≤ rho dt * X1) (hX1' : X1 < 1) : Train F (x + 24) [] := by
  have hd20 : dt < 20 := by linarith
  have hr0 := rho_pos hd20
  have hX21 : X2 < X1 := by
    rcases lt_or_ge 0 X1 with hp | hp
    · exact lt_of_le_of_lt h12 (mul_lt_of_lt_one_left hp (rho_lt hdt))
    · nlinarith
  obtain ⟨n1, hn1⟩ := decay_exists hdt hd20 (h0.trans hX21)
  obtain ⟨n2, hn2⟩ := decay_exists hdt hd20 h0
  have hX2' : X2 < 1 := hX21.trans hX1'
  obtain ⟨t3, t8⟩ := h.accs hr hdt hd20 hT h1 h2 hX1 hX2 hX1' hX2' hn1 hn2
  have p1 := hn1.pos hX1'
  have p2 := hn2.pos hX2'
  have hlt : n1 < n2 := by
    have h3 : rho dt ^ (n2 - 1) ≤ X1 := by
      have h4 := ((hn2 n2).mpr le_rfl).trans h12
      rw [show n2 = n2 - 1 + 1 by omega, pow_succ'] at h4
      exact le_of_mul_le_mul_left h4 hr0
    have := (hn1 (n2 - 1)).mp h3
    omega
  obtain ⟨d1, d2⟩ := dly_bd hdt (one_pos (α := K))
  obtain ⟨e1, e2⟩ := dly_bd hdt (show (0 : K) < 2 * 1 by norm_num)
  obtain ⟨f1, f2⟩ := dly_bd hdt (show 0 < 1 + enc.Tmin by linarith)
  have hd1 := one_le_dly dt (1 : K)
  have hdd : dly dt (2 * 1 : K) ≤ dly dt 1 + dly dt 1 := by
    refine step_le hdt ?_
    push_cast; linarith
  have hdm : dly dt (1 : K) < dly dt (1 + enc.Tmin) := step_lt hdt (by linarith)
  obtain ⟨I1, I2⟩ := h.logs hr hdt t3 t8 (by omega) (by omega)
  have t17 := (sub_core hr hdt hdt' (by linarith) h.sub_emb I1 I2 (by omega) (by omega) (by omega) (by omega)).1
  rw [if_neg (by omega)] at t17
  have t17 : Train F (x + 17) [] := t17
  have m17 : Mute inj F (x + 17) := ⟨t17, h.emb.noinj 17 (by simp [divInner])⟩
  have hE := h.emb
  have key := silent_set hr hdt (fun y => y = x + 20 ∨ y = x + 21 ∨ y = x + 22 ∨ y = x + 23 ∨ y = x + 24) (by
    have i21 : InS net (x + 21) [⟨x + 21, x + 21, -10, 1, .V⟩, ⟨x + 20, x + 21, 10, 1, .V⟩] := hE.ins 21 (by simp [divInner])
    have i22 : InS net (x + 22) [⟨x + 20, x + 22, 1 / 2 * 10, 1, .V⟩] := hE.ins 22 (by simp [divInner])
    have i23 : InS net (x + 23) [⟨x + 22, x + 23, enc.waccBar, 1, .ge⟩, ⟨x + 22, x + 23, -1, 1, .gate⟩, ⟨x + 21, x + 23, 1, 1 + enc.Tmin, .gate⟩,
      ⟨x + 21, x + 23, 10 * 100 / 20, 1 + enc.Tmin, .gf⟩] := hE.ins 23 (by simp [divInner])
    have i24 : InS net (x + 24) [⟨x + 22, x + 24, 10, 2 * 1, .V⟩, ⟨x + 23, x + 24, 10, 1 + enc.Tmin, .V⟩] := hE.ins 24 (by simp [divInner])
    rintro y (rfl | rfl | rfl | rfl | rfl)
    · exact ⟨hE.std 20 (by simp [divInner]), hE.noinj 20 (by simp [divInner]), _, h.i20, by simp [m17]⟩
    · exact ⟨hE.std 21 (by simp [divInner]), hE.noinj 21 (by simp [divInner]), _, i21, by simp⟩
    · exact ⟨hE.std 22 (by simp [divInner]), hE.noinj 22 (by simp [divInner]), _, i22, by simp⟩
    · exact ⟨hE.std 23 (by simp [divInner]), hE.noinj 23 (by simp [divInner]), _, i23, by simp⟩
    · exact ⟨hE.std 24 (by simp [divInner]), hE.noinj 24 (by simp [divInner]), _, i24, by simp⟩) (x + 24) (by simp)
  exact key.1

end run
end Axon
