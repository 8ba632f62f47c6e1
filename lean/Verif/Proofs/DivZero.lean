import Verif.Proofs.Divider

/-! # The divider when an accumulator stays empty -/
set_option linter.unusedSectionVars false
namespace Axon
open Spec
variable {K : Type*} [Field K] [LinearOrder K] [IsStrictOrderedRing K] [FloorRing K]

section run
variable {net : Net K} {dt : K} {inj : List (ℕ × K)} {s0 : ℕ → NState K} {S : ℕ → ℕ → NState K}
  {F : ℕ → ℕ → Bool}

/-- A neuron with a half-threshold input that spikes once stays silent. -/
theorem half_one (hr : IsRun net dt inj s0 S F) {x p : ℕ} (hx : IsStd net s0 x) (hL : InS net x [⟨p, x, 1 / 2 * 10, 1, .V⟩]) {a : ℕ}
    (hA : Arr dt inj F p 1 [a]) : Train F x [] := by
  refine Train.of fun n => ?_
  refine (VIn.of (dt := dt) (inj := inj) (F := F) (n := n) hL [(_, [a])] [2] (by rfl) (by simp) (by norm_num) (by
    intro p hp; simp only [List.mem_cons, List.not_mem_nil, or_false] at hp; subst hp; exact hA.to _)).none hr hx ?_
  intros; vz_omega

/-- A subtractor one of whose sync neurons stays silent: `output_plus` fires at most once. -/
theorem sub_lame (hr : IsRun net dt inj s0 S F) (hdt : 0 < dt) (hdt' : dt < 1 / 50) {enc : Encoder K} (hT : dt ≤ enc.Tmin) {x : ℕ}
    (hE : Embeds net s0 inj x (subSyns enc) [2, 3, 4, 5, 6, 7, 8]) {L1 L2 : List ℕ} (t2 : Train F (x + 2) L1) (t3 : Train F (x + 3) L2)
    (hL : (L1 = [] ∧ L2 = []) ∨ (L1 = [] ∧ ∃ s, 1 ≤ s ∧ L2 = [s]) ∨ ((∃ s, 1 ≤ s ∧ L1 = [s]) ∧ L2 = [])) :
    Train F (x + 6) [] ∨ ∃ p, 1 ≤ p ∧ Train F (x + 6) [p] := by
  have n1 : L1.Nodup := by rcases hL with ⟨rfl, -⟩ | ⟨rfl, -⟩ | ⟨⟨s, -, rfl⟩, -⟩ <;> simp
  have n2 : L2.Nodup := by rcases hL with ⟨-, rfl⟩ | ⟨-, s, -, rfl⟩ | ⟨-, rfl⟩ <;> simp
  have hD := subDelays (Tmin := enc.Tmin) hdt hdt' hT
  have a2 := fun D => t2.arr hdt n1 (hE.noinj 2 (by simp)) D
  have a3 := fun D => t3.arr hdt n2 (hE.noinj 3 (by simp)) D
  have i8 : InS net (x + 8) [⟨x + 3, x + 8, 1 / 2 * 10, 1 / 100, .V⟩, ⟨x + 2, x + 8, 1 / 2 * 10, 1 / 100, .V⟩,
    ⟨x + 3, x + 8, 1 / 2 * -10, 2 * (1 / 100), .V⟩, ⟨x + 2, x + 8, 1 / 2 * -10, 2 * (1 / 100), .V⟩, ⟨x + 8, x + 8, 10, 1 / 100, .V⟩] :=
    hE.ins 8 (by simp)
  have i4 : InS net (x + 4) [⟨x + 7, x + 4, 1 / 2 * 10, 1, .V⟩, ⟨x + 3, x + 4, -10, 1, .V⟩, ⟨x + 2, x + 4, 10, 1, .V⟩] := hE.ins 4 (by simp)
  have i5 : InS net (x + 5) [⟨x + 8, x + 5, -10, 1 / 100, .V⟩, ⟨x + 6, x + 5, 1 / 2 * 10, 1, .V⟩, ⟨x + 2, x + 5, -10, 1, .V⟩,
    ⟨x + 3, x + 5, 10, 1, .V⟩] := hE.ins 5 (by simp)
  have i6 : InS net (x + 6) [⟨x + 4, x + 6, 2 * -10, 1, .V⟩, ⟨x + 3, x + 6, 10, 3 * 1 + 2 * (1 / 100), .V⟩,
    ⟨x + 2, x + 6, 10, enc.Tmin + (3 * 1 + 2 * (1 / 100)), .V⟩] := hE.ins 6 (by simp)
  have i7 : InS net (x + 7) [⟨x + 8, x + 7, 2 * -10, 1 / 100, .V⟩, ⟨x + 5, x + 7, 2 * -10, 1, .V⟩,
    ⟨x + 2, x + 7, 10, 3 * 1 + 2 * (1 / 100), .V⟩, ⟨x + 3, x + 7, 10, enc.Tmin + (3 * 1 + 2 * (1 / 100)), .V⟩] := hE.ins 7 (by simp)
  have s4 := hE.std 4 (by simp)
  have s5 := hE.std 5 (by simp)
  have s6 := hE.std 6 (by simp)
  have s7 := hE.std 7 (by simp)
  have s8 := hE.std 8 (by simp)
  rcases hL with ⟨rfl, rfl⟩ | ⟨rfl, s, hs, rfl⟩ | ⟨⟨s, hs, rfl⟩, rfl⟩
  · left
    have m2 : Mute inj F (x + 2) := ⟨t2, hE.noinj 2 (by simp)⟩
    have m3 : Mute inj F (x + 3) := ⟨t3, hE.noinj 3 (by simp)⟩
    have key := silent_set hr hdt (fun y => y = x + 4 ∨ y = x + 5 ∨ y = x + 6 ∨ y = x + 7 ∨ y = x + 8) (by
      rintro y (rfl | rfl | rfl | rfl | rfl)
      · exact ⟨s4, hE.noinj 4 (by simp), _, i4, by simp [m2, m3]⟩
      · exact ⟨s5, hE.noinj 5 (by simp), _, i5, by simp [m2, m3]⟩
      · exact ⟨s6, hE.noinj 6 (by simp), _, i6, by simp [m2, m3]⟩
      · exact ⟨s7, hE.noinj 7 (by simp), _, i7, by simp [m2, m3]⟩
      · exact ⟨s8, hE.noinj 8 (by simp), _, i8, by simp [m2, m3]⟩) (x + 6) (by simp)
    exact key.1
  · -- only the second sync neuron fires: `inb1` is silent
    right
    have key : ∀ n, TrainTo F n (x + 7) [] ∧ TrainTo F n (x + 4) [] ∧ TrainTo F n (x + 8) [] ∧
        TrainTo F n (x + 6) [s + dly dt (3 * 1 + 2 * (1 / 100) : K)] := by
      intro n
      induction n with
      | zero =>
        refine ⟨?_, ?_, ?_, ?_⟩ <;> (intro i hi; rw [show i = 0 by omega, (hr.start _).2]; simp; try omega)
      | succ n ih =>
        obtain ⟨k7, k4, k8, k6⟩ := ih
        have v4 := VIn.of (dt := dt) (inj := inj) (F := F) (n := n + 1) i4 [(_, []), (_, [s + dly dt (1 : K)]), (_, [])] [2, -4, 4] (by rfl) (by simp)
          (by norm_num) (by
            intro p hp; simp only [List.mem_cons, List.not_mem_nil, or_false] at hp
            rcases hp with rfl | rfl | rfl
            · exact k7.arr hdt (by simp) (hE.noinj 7 (by simp)) _
            · exact (a3 _).to _
            · exact (a2 _).to _)
        have v8 := VIn.of (dt := dt) (inj := inj) (F := F) (n := n + 1) i8 [(_, [s + dly dt (1 / 100 : K)]), (_, []), (_, [s + dly dt (2 * (1 / 100) : K)]), (_, []), (_, [])]
          [2, 2, -2, -2, 4] (by rfl) (by simp) (by norm_num) (by
            intro p hp; simp only [List.mem_cons, List.not_mem_nil, or_false] at hp
            rcases hp with rfl | rfl | rfl | rfl | rfl
            · exact (a3 _).to _
            · exact (a2 _).to _
            · exact (a3 _).to _
            · exact (a2 _).to _
            · exact k8.arr hdt (by simp) (hE.noinj 8 (by simp)) _)
        have v5 := VIn.of (dt := dt) (inj := inj) (F := F) (n := n + 1) i5 [(_, []), (_, [s + dly dt (3 * 1 + 2 * (1 / 100) : K) + dly dt (1 : K)]), (_, []), (_, [s + dly dt (1 : K)])]
          [-4, 2, -4, 4] (by rfl) (by simp) (by norm_num) (by
            intro p hp; simp only [List.mem_cons, List.not_mem_nil, or_false] at hp
            rcases hp with rfl | rfl | rfl | rfl
            · exact k8.arr hdt (by simp) (hE.noinj 8 (by simp)) _
            · exact k6.arr hdt (by simp) (hE.noinj 6 (by simp)) _
            · exact (a2 _).to _
            · exact (a3 _).to _)
        have k5 : TrainTo F (n + 1) (x + 5) [s + dly dt (1 : K)] := by
          have := hD.h5
          have := one_le_dly dt (1 : K)
          refine v5.one hr s5 (by omega) ?_ ?_ ?_ <;> (intros; vz_omega)
        have v7 := VIn.of (dt := dt) (inj := inj) (F := F) (n := n + 1) i7 [(_, []), (_, [s + dly dt (1 : K) + dly dt (1 : K)]), (_, []), (_, [s + dly dt (enc.Tmin + (3 * 1 + 2 * (1 / 100)) : K)])]
          [-8, -8, 4, 4] (by rfl) (by simp) (by norm_num) (by
            intro p hp; simp only [List.mem_cons, List.not_mem_nil, or_false] at hp
            rcases hp with rfl | rfl | rfl | rfl
            · exact k8.arr hdt (by simp) (hE.noinj 8 (by simp)) _
            · exact (k5.arr hdt (by simp) (hE.noinj 5 (by simp)) _).mono (by omega)
            · exact (a2 _).to _
            · exact (a3 _).to _)
        have v6 := VIn.of (dt := dt) (inj := inj) (F := F) (n := n + 1) i6 [(_, []), (_, [s + dly dt (3 * 1 + 2 * (1 / 100) : K)]), (_, [])]
          [-8, 4, 4] (by rfl) (by simp) (by norm_num) (by
            intro p hp; simp only [List.mem_cons, List.not_mem_nil, or_false] at hp
            rcases hp with rfl | rfl | rfl
            · exact k4.arr hdt (by simp) (hE.noinj 4 (by simp)) _
            · exact (a3 _).to _
            · exact (a2 _).to _)
        have := hD.h2
        have := hD.h5
        have := hD.h6
        refine ⟨v7.none hr s7 ?_, v4.none hr s4 ?_, v8.none hr s8 ?_, v6.one hr s6 (by omega) ?_ ?_ ?_⟩ <;> (intros; vz_omega)
    exact ⟨_, by omega, Train.of fun n => (key n).2.2.2⟩
  · -- only the first sync neuron fires: `inb1` suppresses `output_plus`
    left
    have key : ∀ n, TrainTo F n (x + 7) [s + dly dt (3 * 1 + 2 * (1 / 100) : K)] ∧ TrainTo F n (x + 5) [] ∧ TrainTo F n (x + 8) [] ∧
        TrainTo F n (x + 6) [] := by
      intro n
      induction n with
      | zero =>
        refine ⟨?_, ?_, ?_, ?_⟩ <;> (intro i hi; rw [show i = 0 by omega, (hr.start _).2]; simp; try omega)
      | succ n ih =>
        obtain ⟨k7, k5, k8, k6⟩ := ih
        have v4 := VIn.of (dt := dt) (inj := inj) (F := F) (n := n + 1) i4 [(_, [s + dly dt (3 * 1 + 2 * (1 / 100) : K) + dly dt (1 : K)]), (_, []), (_, [s + dly dt (1 : K)])] [2, -4, 4] (by rfl) (by simp)
          (by norm_num) (by
            intro p hp; simp only [List.mem_cons, List.not_mem_nil, or_false] at hp
            rcases hp with rfl | rfl | rfl
            · exact k7.arr hdt (by simp) (hE.noinj 7 (by simp)) _
            · exact (a3 _).to _
            · exact (a2 _).to _)
        have k4 : TrainTo F (n + 1) (x + 4) [s + dly dt (1 : K)] := by
          have := hD.h5
          have := one_le_dly dt (1 : K)
          refine v4.one hr s4 (by omega) ?_ ?_ ?_ <;> (intros; vz_omega)
        have v8 := VIn.of (dt := dt) (inj := inj) (F := F) (n := n + 1) i8 [(_, []), (_, [s + dly dt (1 / 100 : K)]), (_, []), (_, [s + dly dt (2 * (1 / 100) : K)]), (_, [])]
          [2, 2, -2, -2, 4] (by rfl) (by simp) (by norm_num) (by
            intro p hp; simp only [List.mem_cons, List.not_mem_nil, or_false] at hp
            rcases hp with rfl | rfl | rfl | rfl | rfl
            · exact (a3 _).to _
            · exact (a2 _).to _
            · exact (a3 _).to _
            · exact (a2 _).to _
            · exact k8.arr hdt (by simp) (hE.noinj 8 (by simp)) _)
        have v5 := VIn.of (dt := dt) (inj := inj) (F := F) (n := n + 1) i5 [(_, []), (_, []), (_, [s + dly dt (1 : K)]), (_, [])]
          [-4, 2, -4, 4] (by rfl) (by simp) (by norm_num) (by
            intro p hp; simp only [List.mem_cons, List.not_mem_nil, or_false] at hp
            rcases hp with rfl | rfl | rfl | rfl
            · exact k8.arr hdt (by simp) (hE.noinj 8 (by simp)) _
            · exact k6.arr hdt (by simp) (hE.noinj 6 (by simp)) _
            · exact (a2 _).to _
            · exact (a3 _).to _)
        have v7 := VIn.of (dt := dt) (inj := inj) (F := F) (n := n + 1) i7 [(_, []), (_, []), (_, [s + dly dt (3 * 1 + 2 * (1 / 100) : K)]), (_, [])]
          [-8, -8, 4, 4] (by rfl) (by simp) (by norm_num) (by
            intro p hp; simp only [List.mem_cons, List.not_mem_nil, or_false] at hp
            rcases hp with rfl | rfl | rfl | rfl
            · exact k8.arr hdt (by simp) (hE.noinj 8 (by simp)) _
            · exact k5.arr hdt (by simp) (hE.noinj 5 (by simp)) _
            · exact (a2 _).to _
            · exact (a3 _).to _)
        have v6 := VIn.of (dt := dt) (inj := inj) (F := F) (n := n + 1) i6 [(_, [s + dly dt (1 : K) + dly dt (1 : K)]), (_, []), (_, [s + dly dt (enc.Tmin + (3 * 1 + 2 * (1 / 100)) : K)])]
          [-8, 4, 4] (by rfl) (by simp) (by norm_num) (by
            intro p hp; simp only [List.mem_cons, List.not_mem_nil, or_false] at hp
            rcases hp with rfl | rfl | rfl
            · exact (k4.arr hdt (by simp) (hE.noinj 4 (by simp)) _).mono (by omega)
            · exact (a3 _).to _
            · exact (a2 _).to _)
        have := hD.h2
        have := hD.h5
        have := hD.h6
        refine ⟨v7.one hr s7 (by omega) ?_ ?_ ?_, v5.none hr s5 ?_, v8.none hr s8 ?_, v6.none hr s6 ?_⟩ <;> (intros; vz_omega)
    exact Train.of fun n => (key n).2.2.2

variable {enc : Encoder K} {x a1 b1 a2 b2 : ℕ}

/-- One branch of the divider and the sync neuron of the subtractor behind it. -/
theorem lame_branch (hr : IsRun net dt inj s0 S F) (hdt : 0 < dt) {acc out sin syn s : ℕ} {Tm : K} (ho : IsStd net s0 out) (hi : IsStd net s0 sin)
    (hy : IsStd net s0 syn) (nacc : injTimes inj acc = []) (nout : injTimes inj out = []) (nin : injTimes inj sin = [])
    (io : InS net out [⟨acc, out, 10, 1 + Tm, .V⟩, ⟨s, out, 10, 2 * 1, .V⟩]) (ii : InS net sin [⟨out, sin, 10, 1, .V⟩])
    (iy : InS net syn [⟨sin, syn, 1 / 2 * 10, 1, .V⟩]) {Z : ℕ} (p3 : ∀ D, Arr dt inj F s D [Z + dly dt D])
    (h : Train F acc [] ∨ ∃ Q, Train F acc [Q] ∧ Z + dly dt (2 * 1) < Q + dly dt (1 + Tm)) :
    (Train F acc [] ∧ Train F syn []) ∨ (∃ q, 1 ≤ q ∧ Train F syn [q] ∧ ∃ Q, Train F acc [Q]) := by
  have hd1 := one_le_dly dt (1 : K)
  rcases h with h | ⟨Q, h, hQ⟩
  · left
    refine ⟨h, ?_⟩
    have a3 := h.arr0 hdt nacc (1 + Tm)
    have := one_le_dly dt (2 : K)
    have t4 : Train F out [Z + dly dt (2 * 1)] := relay2 hr ho (le_refl 10) (le_refl 10) io a3 (p3 _) (by simp) (by simp; omega) (by simp)
    have t11 := relay1 hr hi (le_refl 10) ii (t4.arr1 hdt nout 1) (by simp; omega)
    exact half_one hr hy iy (t11.arr1 hdt nin 1)
  · right
    have t4 := branch_out hr hdt ho nacc io p3 h
    have t11 := relay1 hr hi (le_refl 10) ii (t4.arr2 hdt hQ nout 1) (by simp; omega)
    have := last_train hr (by norm_num) hy iy (t11.arr2 hdt (by omega) nin 1) (by omega) (by omega)
    exact ⟨_, by omega, this, Q, h⟩

set_option maxHeartbeats 4000000 in
/-- The divider stays silent if one of its accumulators does. -/
theorem DivIn.lame (hr : IsRun net dt inj s0 S F) (hdt : 0 < dt) (hdt' : dt < 1 / 50) (hTm : 1 + dt ≤ enc.Tmin)
    (h : DivIn net s0 dt inj F enc x a1 b1 a2 b2)
    (c3 : Train F (x + 3) [] ∨ ∃ Q, Train F (x + 3) [Q] ∧ max b1 b2 + dly dt 1 + dly dt (2 * 1) < Q + dly dt (1 + enc.Tmin))
    (c8 : Train F (x + 8) [] ∨ ∃ Q, Train F (x + 8) [Q] ∧ max b1 b2 + dly dt 1 + dly dt (2 * 1) < Q + dly dt (1 + enc.Tmin))
    (h0 : Train F (x + 3) [] ∨ Train F (x + 8) []) : Train F (x + 24) [] := by
  have hd20 : dt < 20 := by linarith
  have hd1 := one_le_dly dt (1 : K)
  obtain ⟨-, -, s⟩ := h.front hr hdt
  have hE := h.emb
  have i13 : InS net (x + 13) [⟨x + 11, x + 13, 1 / 2 * 10, 1, .V⟩] := hE.ins 13 (by simp [divInner])
  have i14 : InS net (x + 14) [⟨x + 12, x + 14, 1 / 2 * 10, 1, .V⟩] := hE.ins 14 (by simp [divInner])
  have r1 := lame_branch hr hdt (hE.std 4 (by simp [divInner])) (hE.std 11 (by simp [divInner])) (hE.std 13 (by simp [divInner]))
    (hE.noinj 3 (by simp [divInner])) (hE.noinj 4 (by simp [divInner])) (hE.noinj 11 (by simp [divInner])) (hE.ins 4 (by simp [divInner]))
    (hE.ins 11 (by simp [divInner])) i13 s c3
  have r2 := lame_branch hr hdt (hE.std 9 (by simp [divInner])) (hE.std 12 (by simp [divInner])) (hE.std 14 (by simp [divInner]))
    (hE.noinj 8 (by simp [divInner])) (hE.noinj 9 (by simp [divInner])) (hE.noinj 12 (by simp [divInner])) (hE.ins 9 (by simp [divInner]))
    (hE.ins 12 (by simp [divInner])) i14 s c8
  have t17 : Train F (x + 17) [] ∨ ∃ p, 1 ≤ p ∧ Train F (x + 17) [p] := by
    have uniq : ∀ {y : ℕ} {q : ℕ}, Train F y [] → Train F y [q] → False := by
      intro y q u v
      have := (u q).mp ((v q).mpr (by simp))
      simp at this
    rcases r1 with ⟨z1, y1⟩ | ⟨q1, hq1, y1, Q1, w1⟩
    · rcases r2 with ⟨z2, y2⟩ | ⟨q2, hq2, y2, Q2, w2⟩
      · exact sub_lame hr hdt hdt' (by linarith) h.sub_emb y1 y2 (Or.inl ⟨rfl, rfl⟩)
      · exact sub_lame hr hdt hdt' (by linarith) h.sub_emb y1 y2 (Or.inr (Or.inl ⟨rfl, q2, hq2, rfl⟩))
    · rcases r2 with ⟨z2, y2⟩ | ⟨q2, hq2, y2, Q2, w2⟩
      · exact sub_lame hr hdt hdt' (by linarith) h.sub_emb y1 y2 (Or.inr (Or.inr ⟨⟨q1, hq1, rfl⟩, rfl⟩))
      · exfalso
        exact h0.elim (fun u => uniq u w1) (fun u => uniq u w2)
  have i21 : InS net (x + 21) [⟨x + 21, x + 21, -10, 1, .V⟩, ⟨x + 20, x + 21, 10, 1, .V⟩] := hE.ins 21 (by simp [divInner])
  have i22 : InS net (x + 22) [⟨x + 20, x + 22, 1 / 2 * 10, 1, .V⟩] := hE.ins 22 (by simp [divInner])
  have i23 : InS net (x + 23) [⟨x + 22, x + 23, enc.waccBar, 1, .ge⟩, ⟨x + 22, x + 23, -1, 1, .gate⟩, ⟨x + 21, x + 23, 1, 1 + enc.Tmin, .gate⟩,
    ⟨x + 21, x + 23, 10 * 100 / 20, 1 + enc.Tmin, .gf⟩] := hE.ins 23 (by simp [divInner])
  have i24 : InS net (x + 24) [⟨x + 22, x + 24, 10, 2 * 1, .V⟩, ⟨x + 23, x + 24, 10, 1 + enc.Tmin, .V⟩] := hE.ins 24 (by simp [divInner])
  rcases t17 with t17 | ⟨p, hp, t17⟩
  · have m17 : Mute inj F (x + 17) := ⟨t17, hE.noinj 17 (by simp [divInner])⟩
    have key := silent_set hr hdt (fun y => y = x + 20 ∨ y = x + 21 ∨ y = x + 22 ∨ y = x + 23 ∨ y = x + 24) (by
      rintro y (rfl | rfl | rfl | rfl | rfl)
      · exact ⟨hE.std 20 (by simp [divInner]), hE.noinj 20 (by simp [divInner]), _, h.i20, by simp [m17]⟩
      · exact ⟨hE.std 21 (by simp [divInner]), hE.noinj 21 (by simp [divInner]), _, i21, by simp⟩
      · exact ⟨hE.std 22 (by simp [divInner]), hE.noinj 22 (by simp [divInner]), _, i22, by simp⟩
      · exact ⟨hE.std 23 (by simp [divInner]), hE.noinj 23 (by simp [divInner]), _, i23, by simp⟩
      · exact ⟨hE.std 24 (by simp [divInner]), hE.noinj 24 (by simp [divInner]), _, i24, by simp⟩) (x + 24) (by simp)
    exact key.1
  · have t20 := relay1 hr (hE.std 20 (by simp [divInner])) (le_refl 10) h.i20 (t17.arr1 hdt (hE.noinj 17 (by simp [divInner])) 1) (by simp; omega)
    have a20 := t20.arr1 hdt (hE.noinj 20 (by simp [divInner])) 1
    have t22 := half_one hr (hE.std 22 (by simp [divInner])) i22 a20
    obtain ⟨q, hq⟩ : ∃ q, q = p + dly dt 1 + dly dt 1 := ⟨_, rfl⟩
    rw [← hq] at a20
    have t21 : Train F (x + 21) [q] := by
      refine Train.of fun n => ?_
      induction n with
      | zero => intro i hi; rw [show i = 0 by omega, (hr.start _).2]; simp; omega
      | succ n ih =>
        have v := VIn.of (dt := dt) (inj := inj) (F := F) (n := n + 1) i21 [(_, [q + dly dt (1 : K)]), (_, [q])] [-4, 4] (by rfl) (by simp) (by norm_num) (by
          intro p hp; simp only [List.mem_cons, List.not_mem_nil, or_false] at hp
          rcases hp with rfl | rfl
          · exact ih.arr hdt (by simp) (hE.noinj 21 (by simp [divInner])) _
          · exact a20.to _)
        refine v.one hr (hE.std 21 (by simp [divInner])) (by omega) ?_ ?_ ?_ <;> (intros; vz_omega)
    have a21 := t21.arr1 hdt (hE.noinj 21 (by simp [divInner])) (1 + enc.Tmin)
    have a22 := t22.arr0 hdt (hE.noinj 22 (by simp [divInner])) (1 : K)
    have t23 : Train F (x + 23) [] := by
      refine Train.of fun n => ?_
      refine gate_none hr (hE.std 23 (by simp [divInner])) (E := []) (G := []) (A := q + dly dt (1 + enc.Tmin)) (B := n + 1) (inE_nil i23 .V (by simp)) ?_ ?_ ?_ ?_
      · exact inE_of (n := n) i23 .ge [(_, [])] (by rfl) (by
          intro p hp; simp only [List.mem_cons, List.not_mem_nil, or_false] at hp; subst hp; exact a22.to _)
      · have := inE_of (n := n) i23 .gf [(_, [q + dly dt (1 + enc.Tmin)])] (by rfl) (by
          intro p hp; simp only [List.mem_cons, List.not_mem_nil, or_false] at hp; subst hp; exact a21.to _)
        simpa [evs, show (10 * 100 / 20 : K) = 50 by norm_num] using this
      · have := inE_of (n := n) i23 .gate [(_, []), (_, [q + dly dt (1 + enc.Tmin)])] (by rfl) (by
          intro p hp; simp only [List.mem_cons, List.not_mem_nil, or_false] at hp
          rcases hp with rfl | rfl
          · exact a22.to _
          · exact a21.to _)
        intro i hi
        rw [this i hi]
        rw [if_neg (show i ≠ n + 1 by omega)]
        simp [evs, evAt, eq_comm]
      · intro i _ _
        have := Psi_lt hd20 (q + dly dt (1 + enc.Tmin)) (n + 1) 0 i
        unfold PhiG
        simp only [Phi, List.map_nil, List.sum_nil]
        linarith
    have m22 : Mute inj F (x + 22) := ⟨t22, hE.noinj 22 (by simp [divInner])⟩
    have m23 : Mute inj F (x + 23) := ⟨t23, hE.noinj 23 (by simp [divInner])⟩
    exact (silent_set hr hdt (fun y => y = x + 24) (by
      rintro y rfl
      exact ⟨hE.std 24 (by simp [divInner]), hE.noinj 24 (by simp [divInner]), _, i24, by simp [m22, m23]⟩) (x + 24) rfl).1

end run
end Axon
