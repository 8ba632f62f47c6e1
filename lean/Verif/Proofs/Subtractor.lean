import Verif.Proofs.Fires
import Verif.Proofs.VTrain

/-! # The subtractor -/
set_option linter.unusedSectionVars false
namespace Axon
open Spec
variable {K : Type*} [Field K] [LinearOrder K] [IsStrictOrderedRing K] [FloorRing K]

/-- The synapses of a `SubtractorNetwork`. -/
def subSyns (enc : Encoder K) : List (Synapse K) := (subtractorNetwork enc none World.empty).2.syns

/-- Relations between the delays (in steps) of the subtractor: neuron delay, twice the neuron delay, synapse delay, and
the delays of the first and second output spike. -/
structure SubDelays (n1 n2 d D3 DM : ℕ) : Prop where
  h1 : 1 ≤ n1
  h2 : n1 < n2
  h3 : n2 ≤ n1 + n1
  h4 : n1 + n1 + n1 ≤ d
  h5 : d + d ≤ D3
  h6 : D3 < DM

theorem subDelays {dt Tmin : K} (hdt : 0 < dt) (h : dt < 1 / 50) (hT : dt ≤ Tmin) :
    SubDelays (dly dt (1 / 100)) (dly dt (2 * (1 / 100))) (dly dt 1) (dly dt (3 * 1 + 2 * (1 / 100)))
      (dly dt (Tmin + (3 * 1 + 2 * (1 / 100)))) := by
  obtain ⟨a1, a2⟩ := dly_bd hdt (show (0 : K) < 1 / 100 by norm_num)
  obtain ⟨b1, b2⟩ := dly_bd hdt (show (0 : K) < 2 * (1 / 100) by norm_num)
  obtain ⟨c1, c2⟩ := dly_bd hdt (show (0 : K) < 1 by norm_num)
  obtain ⟨d1, d2⟩ := dly_bd hdt (show (0 : K) < 3 * 1 + 2 * (1 / 100) by norm_num)
  obtain ⟨e1, e2⟩ := dly_bd hdt (show (0 : K) < Tmin + (3 * 1 + 2 * (1 / 100)) by linarith)
  refine ⟨one_le_dly _ _, ?_, ?_, ?_, ?_, ?_⟩
  · by_cases hs : dt ≤ 1 / 100
    · exact step_lt hdt (by linarith)
    · have : dly dt (1 / 100 : K) = 1 := by
        have : dly dt (1 / 100 : K) ≤ 1 := step_le hdt (by push_cast; linarith)
        have := one_le_dly dt (1 / 100 : K)
        omega
      rw [this]
      exact step_lt hdt (by push_cast; linarith)
  · refine step_le hdt ?_
    push_cast; linarith
  · refine step_le hdt ?_
    push_cast; linarith
  · refine step_le hdt ?_
    push_cast; linarith
  · exact step_lt hdt (by linarith)

section run
variable {net : Net K} {dt : K} {inj : List (ℕ × K)} {s0 : ℕ → NState K} {S : ℕ → ℕ → NState K}
  {F : ℕ → ℕ → Bool}

/-- The `zero` neuron fires iff the two sync neurons fire almost together. -/
theorem zero_train (hr : IsRun net dt inj s0 S F) (hdt : 0 < dt) {enc : Encoder K} {x : ℕ}
    (hE : Embeds net s0 inj x (subSyns enc) [2, 3, 4, 5, 6, 7, 8]) {s1 s2 : ℕ}
    (hD : dly dt (1 / 100 : K) < dly dt (2 * (1 / 100) : K)) (hD2 : dly dt (2 * (1 / 100) : K) ≤ dly dt (1 / 100 : K) + dly dt (1 / 100 : K))
    (t2 : Train F (x + 2) [s1]) (t3 : Train F (x + 3) [s2]) :
    Train F (x + 8) (if s2 ≤ s1 then (if s2 + (dly dt (2 * (1 / 100) : K) - dly dt (1 / 100 : K)) ≤ s1 then [] else [s1 + dly dt (1 / 100 : K)])
      else (if s1 + (dly dt (2 * (1 / 100) : K) - dly dt (1 / 100 : K)) ≤ s2 then [] else [s2 + dly dt (1 / 100 : K)])) := by
  have a2 := fun D => t2.arr1 hdt (hE.noinj 2 (by simp)) D
  have a3 := fun D => t3.arr1 hdt (hE.noinj 3 (by simp)) D
  have hn := one_le_dly dt (1 / 100 : K)
  have i8 : InS net (x + 8) [⟨x + 3, x + 8, 1 / 2 * 10, 1 / 100, .V⟩, ⟨x + 2, x + 8, 1 / 2 * 10, 1 / 100, .V⟩,
    ⟨x + 3, x + 8, 1 / 2 * -10, 2 * (1 / 100), .V⟩, ⟨x + 2, x + 8, 1 / 2 * -10, 2 * (1 / 100), .V⟩, ⟨x + 8, x + 8, 10, 1 / 100, .V⟩] :=
    hE.ins 8 (by simp)
  refine Train.of fun n => ?_
  induction n with
  | zero =>
    intro i hi; rw [show i = 0 by omega, (hr.start _).2]
    simp only [Bool.false_eq_true, false_iff]
    split_ifs <;> simp only [List.mem_singleton, List.not_mem_nil, not_false_eq_true] <;> omega
  | succ n ih =>
    have hT : ∀ Z : List ℕ, TrainTo F n (x + 8) Z → Z.Nodup → VIn net dt inj F (n + 1) (x + 8) ([(s2 + dly dt (1 / 100 : K), 2),
        (s1 + dly dt (1 / 100 : K), 2), (s2 + dly dt (2 * (1 / 100) : K), -2), (s1 + dly dt (2 * (1 / 100) : K), -2)] ++
          Z.map (fun z => (z + dly dt (1 / 100 : K), (4 : ℤ)))) := by
      intro Z hZ hn
      have := VIn.of (dt := dt) (inj := inj) (F := F) (n := n + 1) i8 [(_, [s2 + dly dt (1 / 100 : K)]), (_, [s1 + dly dt (1 / 100 : K)]),
        (_, [s2 + dly dt (2 * (1 / 100) : K)]), (_, [s1 + dly dt (2 * (1 / 100) : K)]), (_, Z.map (· + dly dt (1 / 100 : K)))] [2, 2, -2, -2, 4] (by rfl) (by simp)
        (by norm_num) (by
          intro p hp; simp only [List.mem_cons, List.not_mem_nil, or_false] at hp
          rcases hp with rfl | rfl | rfl | rfl | rfl
          · exact (a3 _).to _
          · exact (a2 _).to _
          · exact (a3 _).to _
          · exact (a2 _).to _
          · exact hZ.arr hdt hn (hE.noinj 8 (by simp)) _)
      simpa [Function.comp_def] using this
    generalize dly dt (1 / 100 : K) = n1 at *
    generalize dly dt (2 * (1 / 100) : K) = n2 at *
    split_ifs at ih ⊢ with c1 c2 c3
    · refine (hT _ ih (by simp)).none hr (hE.std 8 (by simp)) ?_
      intros; vz_omega
    · refine (hT _ ih (by simp)).one hr (hE.std 8 (by simp)) (by omega) ?_ ?_ ?_ <;> (intros; vz_omega)
    · refine (hT _ ih (by simp)).none hr (hE.std 8 (by simp)) ?_
      intros; vz_omega
    · refine (hT _ ih (by simp)).one hr (hE.std 8 (by simp)) (by omega) ?_ ?_ ?_ <;> (intros; vz_omega)

/-- The inner neurons of a subtractor, given the trains `Z` of `zero`; `P`, `M`, `B1`, `B2` are the trains of `output_plus`,
`output_minus`, `inb1`, `inb2`, certified by the conditions on the event lists. -/
theorem sub_loop (hr : IsRun net dt inj s0 S F) (hdt : 0 < dt) {enc : Encoder K} {x : ℕ}
    (hE : Embeds net s0 inj x (subSyns enc) [2, 3, 4, 5, 6, 7, 8]) {s1 s2 : ℕ}
    (t2 : Train F (x + 2) [s1]) (t3 : Train F (x + 3) [s2]) {Z P M B1 B2 : List ℕ} {n1 d D3 DM : ℕ}
    (en : dly dt (1 / 100 : K) = n1) (ed : dly dt (1 : K) = d) (e3 : dly dt (3 * 1 + 2 * (1 / 100) : K) = D3)
    (eM : dly dt (enc.Tmin + (3 * 1 + 2 * (1 / 100)) : K) = DM) (hZ : Train F (x + 8) Z) (zn : Z.Nodup) (pn : P.Nodup) (mn : M.Nodup)
    (b1n : B1.Nodup) (b2n : B2.Nodup) (p0 : 0 ∉ P) (m0 : 0 ∉ M)
    (h4 : ∀ n, VIn net dt inj F n (x + 4) (M.map (fun z => (z + d, (2 : ℤ))) ++ [(s2 + d, -4), (s1 + d, 4)]) → TrainTo F n (x + 4) B1)
    (h5 : ∀ n, VIn net dt inj F n (x + 5) (Z.map (fun z => (z + n1, (-4 : ℤ))) ++ P.map (fun z => (z + d, (2 : ℤ))) ++ [(s1 + d, -4), (s2 + d, 4)]) →
      TrainTo F n (x + 5) B2)
    (h6 : ∀ n, VIn net dt inj F n (x + 6) (B1.map (fun z => (z + d, (-8 : ℤ))) ++ [(s2 + D3, 4), (s1 + DM, 4)]) → TrainTo F n (x + 6) P)
    (h7 : ∀ n, VIn net dt inj F n (x + 7) (Z.map (fun z => (z + n1, (-8 : ℤ))) ++ B2.map (fun z => (z + d, (-8 : ℤ))) ++
      [(s1 + D3, 4), (s2 + DM, 4)]) → TrainTo F n (x + 7) M) :
    Train F (x + 6) P ∧ Train F (x + 7) M ∧ Train F (x + 4) B1 ∧ Train F (x + 5) B2 := by
  have a2 := fun D => t2.arr1 hdt (hE.noinj 2 (by simp)) D
  have a3 := fun D => t3.arr1 hdt (hE.noinj 3 (by simp)) D
  have aZ := fun D => hZ.arr hdt zn (hE.noinj 8 (by simp)) D
  have i4 : InS net (x + 4) [⟨x + 7, x + 4, 1 / 2 * 10, 1, .V⟩, ⟨x + 3, x + 4, -10, 1, .V⟩, ⟨x + 2, x + 4, 10, 1, .V⟩] := hE.ins 4 (by simp)
  have i5 : InS net (x + 5) [⟨x + 8, x + 5, -10, 1 / 100, .V⟩, ⟨x + 6, x + 5, 1 / 2 * 10, 1, .V⟩, ⟨x + 2, x + 5, -10, 1, .V⟩,
    ⟨x + 3, x + 5, 10, 1, .V⟩] := hE.ins 5 (by simp)
  have i6 : InS net (x + 6) [⟨x + 4, x + 6, 2 * -10, 1, .V⟩, ⟨x + 3, x + 6, 10, 3 * 1 + 2 * (1 / 100), .V⟩,
    ⟨x + 2, x + 6, 10, enc.Tmin + (3 * 1 + 2 * (1 / 100)), .V⟩] := hE.ins 6 (by simp)
  have i7 : InS net (x + 7) [⟨x + 8, x + 7, 2 * -10, 1 / 100, .V⟩, ⟨x + 5, x + 7, 2 * -10, 1, .V⟩,
    ⟨x + 2, x + 7, 10, 3 * 1 + 2 * (1 / 100), .V⟩, ⟨x + 3, x + 7, 10, enc.Tmin + (3 * 1 + 2 * (1 / 100)), .V⟩] := hE.ins 7 (by simp)
  have hin : ∀ n, TrainTo F n (x + 6) P → TrainTo F n (x + 7) M → TrainTo F (n + 1) (x + 4) B1 ∧ TrainTo F (n + 1) (x + 5) B2 := by
    intro n hP hM
    refine ⟨h4 _ ?_, h5 _ ?_⟩
    · have := VIn.of (dt := dt) (inj := inj) (F := F) (n := n + 1) i4 [(_, M.map (· + dly dt (1 : K))), (_, [s2 + dly dt (1 : K)]), (_, [s1 + dly dt (1 : K)])]
        [2, -4, 4] (by rfl) (by simp) (by norm_num) (by
          intro p hp; simp only [List.mem_cons, List.not_mem_nil, or_false] at hp
          rcases hp with rfl | rfl | rfl
          · exact hM.arr hdt mn (hE.noinj 7 (by simp)) _
          · exact (a3 _).to _
          · exact (a2 _).to _)
      simpa [Function.comp_def, ed] using this
    · have := VIn.of (dt := dt) (inj := inj) (F := F) (n := n + 1) i5 [(_, Z.map (· + dly dt (1 / 100 : K))), (_, P.map (· + dly dt (1 : K))),
        (_, [s1 + dly dt (1 : K)]), (_, [s2 + dly dt (1 : K)])]
        [-4, 2, -4, 4] (by rfl) (by simp) (by norm_num) (by
          intro p hp; simp only [List.mem_cons, List.not_mem_nil, or_false] at hp
          rcases hp with rfl | rfl | rfl | rfl
          · exact (aZ _).to _
          · exact hP.arr hdt pn (hE.noinj 6 (by simp)) _
          · exact (a2 _).to _
          · exact (a3 _).to _)
      rw [en, ed] at this
      simpa [Function.comp_def] using this
  have key : ∀ n, TrainTo F n (x + 6) P ∧ TrainTo F n (x + 7) M := by
    intro n
    induction n with
    | zero =>
      refine ⟨?_, ?_⟩ <;> (intro i hi; rw [show i = 0 by omega, (hr.start _).2]; simp [p0, m0])
    | succ n ih =>
      obtain ⟨k1, k2⟩ := hin n ih.1 ih.2
      refine ⟨h6 _ ?_, h7 _ ?_⟩
      · have := VIn.of (dt := dt) (inj := inj) (F := F) (n := n + 1) i6 [(_, B1.map (· + dly dt (1 : K))), (_, [s2 + dly dt (3 * 1 + 2 * (1 / 100) : K)]),
          (_, [s1 + dly dt (enc.Tmin + (3 * 1 + 2 * (1 / 100)) : K)])]
          [-8, 4, 4] (by rfl) (by simp) (by norm_num) (by
            intro p hp; simp only [List.mem_cons, List.not_mem_nil, or_false] at hp
            rcases hp with rfl | rfl | rfl
            · exact (k1.arr hdt b1n (hE.noinj 4 (by simp)) _).mono (by omega)
            · exact (a3 _).to _
            · exact (a2 _).to _)
        rw [ed, e3, eM] at this
        simpa [Function.comp_def] using this
      · have := VIn.of (dt := dt) (inj := inj) (F := F) (n := n + 1) i7 [(_, Z.map (· + dly dt (1 / 100 : K))), (_, B2.map (· + dly dt (1 : K))),
          (_, [s1 + dly dt (3 * 1 + 2 * (1 / 100) : K)]), (_, [s2 + dly dt (enc.Tmin + (3 * 1 + 2 * (1 / 100)) : K)])]
          [-8, -8, 4, 4] (by rfl) (by simp) (by norm_num) (by
            intro p hp; simp only [List.mem_cons, List.not_mem_nil, or_false] at hp
            rcases hp with rfl | rfl | rfl | rfl
            · exact (aZ _).to _
            · exact (k2.arr hdt b2n (hE.noinj 5 (by simp)) _).mono (by omega)
            · exact (a2 _).to _
            · exact (a3 _).to _)
        rw [en, ed, e3, eM] at this
        simpa [Function.comp_def] using this
  have key' := fun n => hin n (key n).1 (key n).2
  exact ⟨Train.of fun n => (key n).1, Train.of fun n => (key n).2, Train.of fun n => (key' n).1.mono (Nat.le_succ n),
    Train.of fun n => (key' n).2.mono (Nat.le_succ n)⟩

/-- A subtractor whose second input spikes arrive in the steps `s1`, `s2`; how often each neuron fires. -/
theorem sub_core_full (hr : IsRun net dt inj s0 S F) (hdt : 0 < dt) (hdt' : dt < 1 / 50) {enc : Encoder K} (hT : dt ≤ enc.Tmin) {x : ℕ}
    (hE : Embeds net s0 inj x (subSyns enc) [2, 3, 4, 5, 6, 7, 8]) {a1 a2 s1 s2 : ℕ}
    (I1 : Arr dt inj F x 1 [a1, s1]) (I2 : Arr dt inj F (x + 1) 1 [a2, s2]) (h1 : 1 ≤ a1) (h2 : 1 ≤ a2) (h1' : a1 ≤ s1) (h2' : a2 ≤ s2) :
    (Train F (x + 6) (if s2 ≤ s1 then [s2 + dly dt (3 * 1 + 2 * (1 / 100) : K), s1 + dly dt (enc.Tmin + (3 * 1 + 2 * (1 / 100)) : K)] else []) ∧
    Train F (x + 7) (if s1 + (dly dt (2 * (1 / 100) : K) - dly dt (1 / 100 : K)) ≤ s2 then
      [s1 + dly dt (3 * 1 + 2 * (1 / 100) : K), s2 + dly dt (enc.Tmin + (3 * 1 + 2 * (1 / 100)) : K)] else [])) ∧
    Fires F (x + 2) 1 ∧ Fires F (x + 3) 1 ∧ Fires F (x + 4) (if s2 ≤ s1 then 0 else 1) ∧
    Fires F (x + 5) (if s2 + (dly dt (2 * (1 / 100) : K) - dly dt (1 / 100 : K)) ≤ s1 then 1 else 0) ∧
    Fires F (x + 8) (if s2 ≤ s1 then (if s2 + (dly dt (2 * (1 / 100) : K) - dly dt (1 / 100 : K)) ≤ s1 then 0 else 1) else
      (if s1 + (dly dt (2 * (1 / 100) : K) - dly dt (1 / 100 : K)) ≤ s2 then 0 else 1)) := by
  have hD := subDelays (Tmin := enc.Tmin) hdt hdt' hT
  have t2 : Train F (x + 2) [s1] := last_train hr (by norm_num) (hE.std 2 (by simp)) (hE.ins 2 (by simp)) I1 h1 h1'
  have t3 : Train F (x + 3) [s2] := last_train hr (by norm_num) (hE.std 3 (by simp)) (hE.ins 3 (by simp)) I2 h2 h2'
  have t8 := zero_train hr hdt hE hD.h2 hD.h3 t2 t3
  have L := fun (Z P M B1 B2 : List ℕ) => sub_loop hr hdt hE t2 t3 (Z := Z) (P := P) (M := M) (B1 := B1) (B2 := B2) rfl rfl rfl rfl
  have s4 := hE.std 4 (by simp)
  have s5 := hE.std 5 (by simp)
  have s6 := hE.std 6 (by simp)
  have s7 := hE.std 7 (by simp)
  generalize dly dt (1 / 100 : K) = n1 at *
  generalize dly dt (2 * (1 / 100) : K) = n2 at *
  generalize dly dt (3 * 1 + 2 * (1 / 100) : K) = D3 at *
  generalize dly dt (enc.Tmin + (3 * 1 + 2 * (1 / 100)) : K) = DM at *
  generalize dly dt (1 : K) = d at *
  obtain ⟨q1, q2, q3, q4, q5, q6⟩ := hD
  by_cases c1 : s2 ≤ s1
  · have c3 : ¬ s1 + (n2 - n1) ≤ s2 := by omega
    simp only [if_pos c1, if_neg c3] at t8 ⊢
    by_cases c2 : s2 + (n2 - n1) ≤ s1
    · simp only [if_pos c2] at t8 ⊢
      have o := L [] [s2 + D3, s1 + DM] [] [] [s2 + d] t8 (by simp) (by simp; omega) (by simp) (by simp) (by simp) (by simp; omega) (by simp)
        (by intro n h; refine h.none hr s4 ?_; intros; vz_omega)
        (by intro n h; refine h.one hr s5 (by omega) ?_ ?_ ?_ <;> (intros; vz_omega))
        (by intro n h; refine h.two hr s6 (by omega) (by omega) ?_ ?_ ?_ ?_ ?_ <;> (intros; vz_omega))
        (by intro n h; refine h.none hr s7 ?_; intros; vz_omega)
      exact ⟨⟨o.1, o.2.1⟩, t2.fires1, t3.fires1, o.2.2.1.fires0, o.2.2.2.fires1, t8.fires0⟩
    · simp only [if_neg c2] at t8 ⊢
      have o := L [s1 + n1] [s2 + D3, s1 + DM] [] [] [] t8 (by simp) (by simp; omega) (by simp) (by simp) (by simp) (by simp; omega) (by simp)
        (by intro n h; refine h.none hr s4 ?_; intros; vz_omega)
        (by intro n h; refine h.none hr s5 ?_; intros; vz_omega)
        (by intro n h; refine h.two hr s6 (by omega) (by omega) ?_ ?_ ?_ ?_ ?_ <;> (intros; vz_omega))
        (by intro n h; refine h.none hr s7 ?_; intros; vz_omega)
      exact ⟨⟨o.1, o.2.1⟩, t2.fires1, t3.fires1, o.2.2.1.fires0, o.2.2.2.fires0, t8.fires1⟩
  · have c4 : ¬ s2 + (n2 - n1) ≤ s1 := by omega
    simp only [if_neg c1, if_neg c4] at t8 ⊢
    by_cases c2 : s1 + (n2 - n1) ≤ s2
    · simp only [if_pos c2] at t8 ⊢
      have o := L [] [] [s1 + D3, s2 + DM] [s1 + d] [] t8 (by simp) (by simp) (by simp; omega) (by simp) (by simp) (by simp) (by simp; omega)
        (by intro n h; refine h.one hr s4 (by omega) ?_ ?_ ?_ <;> (intros; vz_omega))
        (by intro n h; refine h.none hr s5 ?_; intros; vz_omega)
        (by intro n h; refine h.none hr s6 ?_; intros; vz_omega)
        (by intro n h; refine h.two hr s7 (by omega) (by omega) ?_ ?_ ?_ ?_ ?_ <;> (intros; vz_omega))
      exact ⟨⟨o.1, o.2.1⟩, t2.fires1, t3.fires1, o.2.2.1.fires1, o.2.2.2.fires0, t8.fires0⟩
    · simp only [if_neg c2] at t8 ⊢
      have o := L [s2 + n1] [] [] [s1 + d] [] t8 (by simp) (by simp) (by simp) (by simp) (by simp) (by simp) (by simp)
        (by intro n h; refine h.one hr s4 (by omega) ?_ ?_ ?_ <;> (intros; vz_omega))
        (by intro n h; refine h.none hr s5 ?_; intros; vz_omega)
        (by intro n h; refine h.none hr s6 ?_; intros; vz_omega)
        (by intro n h; refine h.none hr s7 ?_; intros; vz_omega)
      exact ⟨⟨o.1, o.2.1⟩, t2.fires1, t3.fires1, o.2.2.1.fires1, o.2.2.2.fires0, t8.fires1⟩

/-- A subtractor whose second input spikes arrive in the steps `s1`, `s2`. -/
theorem sub_core (hr : IsRun net dt inj s0 S F) (hdt : 0 < dt) (hdt' : dt < 1 / 50) {enc : Encoder K} (hT : dt ≤ enc.Tmin) {x : ℕ}
    (hE : Embeds net s0 inj x (subSyns enc) [2, 3, 4, 5, 6, 7, 8]) {a1 a2 s1 s2 : ℕ}
    (I1 : Arr dt inj F x 1 [a1, s1]) (I2 : Arr dt inj F (x + 1) 1 [a2, s2]) (h1 : 1 ≤ a1) (h2 : 1 ≤ a2) (h1' : a1 ≤ s1) (h2' : a2 ≤ s2) :
    Train F (x + 6) (if s2 ≤ s1 then [s2 + dly dt (3 * 1 + 2 * (1 / 100) : K), s1 + dly dt (enc.Tmin + (3 * 1 + 2 * (1 / 100)) : K)] else []) ∧
    Train F (x + 7) (if s1 + (dly dt (2 * (1 / 100) : K) - dly dt (1 / 100 : K)) ≤ s2 then
      [s1 + dly dt (3 * 1 + 2 * (1 / 100) : K), s2 + dly dt (enc.Tmin + (3 * 1 + 2 * (1 / 100)) : K)] else []) :=
  (sub_core_full hr hdt hdt' hT hE I1 I2 h1 h2 h1' h2').1

end run
end Axon
