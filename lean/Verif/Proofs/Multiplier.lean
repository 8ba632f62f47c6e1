import Verif.Proofs.Fires
import Verif.Proofs.LogExp
import Verif.Proofs.VTrain

/-! # The multiplier -/
set_option linter.unusedSectionVars false
namespace Axon
open Spec
variable {K : Type*} [Field K] [LinearOrder K] [IsStrictOrderedRing K] [FloorRing K]

/-- The synapses of a `MultiplierNetwork`. -/
def mulSyns (enc : Encoder K) : List (Synapse K) := (multiplierNetwork enc none World.empty).2.syns

section run
variable {net : Net K} {dt : K} {inj : List (ℕ × K)} {s0 : ℕ → NState K} {S : ℕ → ℕ → NState K}
  {F : ℕ → ℕ → Bool}

/-- A multiplier at base `x` whose inputs spike so that arrivals over the delay of 1 are in steps `a1 < b1`, `a2 < b2`
and over the delay of 350 in steps `y1 < z1`, `y2 < z2`. -/
structure MulIn (net : Net K) (s0 : ℕ → NState K) (dt : K) (inj : List (ℕ × K)) (F : ℕ → ℕ → Bool) (enc : Encoder K) (x : ℕ)
    (a1 b1 a2 b2 y1 z1 y2 z2 : ℕ) : Prop where
  emb : Embeds net s0 inj x (mulSyns enc) [2, 3, 4, 5, 6, 7, 8, 9, 10, 11]
  in1 : Arr dt inj F x 1 [a1, b1]
  in2 : Arr dt inj F (x + 1) 1 [a2, b2]
  late1 : Arr dt inj F x 350 [y1, z1]
  late2 : Arr dt inj F (x + 1) 350 [y2, z2]
  a1_pos : 1 ≤ a1
  a2_pos : 1 ≤ a2
  gap1 : a1 + dly dt 1 ≤ b1
  gap2 : a2 + dly dt 1 ≤ b2
  y1_pos : 1 ≤ y1
  y2_pos : 1 ≤ y2
  yz1 : y1 ≤ z1
  yz2 : y2 ≤ z2

variable {enc : Encoder K} {x a1 b1 a2 b2 y1 z1 y2 z2 : ℕ}

/-- First stage: the firsts, the lasts, the sync neuron. -/
theorem MulIn.front (hr : IsRun net dt inj s0 S F) (hdt : 0 < dt) (h : MulIn net s0 dt inj F enc x a1 b1 a2 b2 y1 z1 y2 z2) :
    (∀ D, Arr dt inj F (x + 2) D [a1 + dly dt D]) ∧ (∀ D, Arr dt inj F (x + 3) D [b1 + dly dt D]) ∧
    (∀ D, Arr dt inj F (x + 6) D [a2 + dly dt D]) ∧ (∀ D, Arr dt inj F (x + 7) D [b2 + dly dt D]) ∧
    (∀ D, Arr dt inj F (x + 9) D [max b1 b2 + dly dt 1 + dly dt D]) := by
  obtain ⟨p1, p2⟩ := firstlast hr hdt (h.emb.std 2 (by simp)) (h.emb.std 3 (by simp)) (h.emb.noinj 2 (by simp)) (h.emb.noinj 3 (by simp))
    (h.emb.ins 2 (by simp)) (h.emb.ins 3 (by simp)) h.in1 h.a1_pos h.gap1
  obtain ⟨q1, q2⟩ := firstlast hr hdt (h.emb.std 6 (by simp)) (h.emb.std 7 (by simp)) (h.emb.noinj 6 (by simp)) (h.emb.noinj 7 (by simp))
    (h.emb.ins 6 (by simp)) (h.emb.ins 7 (by simp)) h.in2 h.a2_pos h.gap2
  refine ⟨p1, p2, q1, q2, ?_⟩
  have i9 : InS net (x + 9) [⟨x + 7, x + 9, 1 / 2 * 10, 1, .V⟩, ⟨x + 3, x + 9, 1 / 2 * 10, 1, .V⟩] := h.emb.ins 9 (by simp)
  have hd1 := one_le_dly dt (1 : K)
  have t9 : Train F (x + 9) [max b1 b2 + dly dt 1] := by
    refine Train.of fun n => ?_
    have hv := VIn.of (dt := dt) (inj := inj) (F := F) (n := n) i9 [(_, [b2 + dly dt 1]), (_, [b1 + dly dt 1])] [2, 2] (by rfl) (by simp)
      (by norm_num) (by
        intro p hp; simp only [List.mem_cons, List.not_mem_nil, or_false] at hp
        rcases hp with rfl | rfl
        · exact (q2 1).to _
        · exact (p2 1).to _)
    rcases le_total b1 b2 with hle | hle
    · rw [max_eq_right hle]
      refine hv.one hr (h.emb.std 9 (by simp)) (by omega) ?_ ?_ ?_
      · intro i _ _; vz_omega
      · vz_omega
      · intro i _; vz_omega
    · rw [max_eq_left hle]
      refine hv.one hr (h.emb.std 9 (by simp)) (by omega) ?_ ?_ ?_
      · intro i _ _; vz_omega
      · vz_omega
      · intro i _; vz_omega
  exact fun D => t9.arr1 hdt (h.emb.noinj 9 (by simp)) D

/-- Inputs of the first logarithm. -/
theorem MulIn.log1 (hr : IsRun net dt inj s0 S F) (hdt : 0 < dt) (h : MulIn net s0 dt inj F enc x a1 b1 a2 b2 y1 z1 y2 z2) :
    LogIn net dt inj F (x + 4) enc.waccBar (a1 + dly dt (1 + enc.Tmin)) (b1 + dly dt 1) (max b1 b2 + dly dt 1 + dly dt 1) := by
  obtain ⟨p1, p2, q1, q2, s1⟩ := h.front hr hdt
  have i4 : InS net (x + 4) [⟨x + 9, x + 4, 1, 1, .gate⟩, ⟨x + 9, x + 4, 50, 1, .gf⟩, ⟨x + 3, x + 4, -enc.waccBar, 1, .ge⟩,
      ⟨x + 2, x + 4, enc.waccBar, 1 + enc.Tmin, .ge⟩] := by
    have := h.emb.ins 4 (by simp)
    have e : ((insOf (mulSyns enc) 4).map (Synapse.shift x)) = [⟨x + 9, x + 4, 1, 1, .gate⟩, ⟨x + 9, x + 4, 10 * 100 / 20, 1, .gf⟩,
      ⟨x + 3, x + 4, -enc.waccBar, 1, .ge⟩, ⟨x + 2, x + 4, enc.waccBar, 1 + enc.Tmin, .ge⟩] := rfl
    rwa [e, show (10 * 100 / 20 : K) = 50 by norm_num] at this
  refine ⟨?_, ?_, ?_, ?_⟩
  · intro n; exact inE_nil i4 .V (by simp)
  · intro n
    have := inE_of (dt := dt) (inj := inj) (F := F) (n := n) i4 .ge [(_, [b1 + dly dt 1]), (_, [a1 + dly dt (1 + enc.Tmin)])] (by rfl) (by
      intro p hp; simp only [List.mem_cons, List.not_mem_nil, or_false] at hp
      rcases hp with rfl | rfl
      · exact (p2 1).to _
      · exact (p1 _).to _)
    intro i hi
    rw [this i hi]
    exact evAt_perm (List.Perm.swap _ _ _) i
  · intro n
    exact inE_of (n := n) i4 .gf [(_, [_])] (by rfl) (by
      intro p hp; simp only [List.mem_cons, List.not_mem_nil, or_false] at hp; subst hp; exact (s1 1).to _)
  · intro n
    exact inE_of (n := n) i4 .gate [(_, [_])] (by rfl) (by
      intro p hp; simp only [List.mem_cons, List.not_mem_nil, or_false] at hp; subst hp; exact (s1 1).to _)

theorem MulIn.i8 (h : MulIn net s0 dt inj F enc x a1 b1 a2 b2 y1 z1 y2 z2) :
    InS net (x + 8) [⟨x + 4, x + 8, 1, 1, .gate⟩, ⟨x + 4, x + 8, 50, 1, .gf⟩, ⟨x + 7, x + 8, -enc.waccBar, 1, .ge⟩,
      ⟨x + 6, x + 8, enc.waccBar, 1 + enc.Tmin, .ge⟩] := by
  have := h.emb.ins 8 (by simp)
  have e : ((insOf (mulSyns enc) 8).map (Synapse.shift x)) = [⟨x + 4, x + 8, 1, 1, .gate⟩, ⟨x + 4, x + 8, 10 * 100 / 20, 1, .gf⟩,
    ⟨x + 7, x + 8, -enc.waccBar, 1, .ge⟩, ⟨x + 6, x + 8, enc.waccBar, 1 + enc.Tmin, .ge⟩] := rfl
  rwa [e, show (10 * 100 / 20 : K) = 50 by norm_num] at this

theorem MulIn.ge8 (hr : IsRun net dt inj s0 S F) (hdt : 0 < dt) (h : MulIn net s0 dt inj F enc x a1 b1 a2 b2 y1 z1 y2 z2) (n : ℕ) :
    InE net dt inj F n (x + 8) .ge [(a2 + dly dt (1 + enc.Tmin), enc.waccBar), (b2 + dly dt 1, -enc.waccBar)] := by
  obtain ⟨p1, p2, q1, q2, s1⟩ := h.front hr hdt
  have := inE_of (dt := dt) (inj := inj) (F := F) (n := n) h.i8 .ge [(_, [b2 + dly dt 1]), (_, [a2 + dly dt (1 + enc.Tmin)])] (by rfl) (by
    intro p hp; simp only [List.mem_cons, List.not_mem_nil, or_false] at hp
    rcases hp with rfl | rfl
    · exact (q2 1).to _
    · exact (q1 _).to _)
  intro i hi
  rw [this i hi]
  exact evAt_perm (List.Perm.swap _ _ _) i

/-- Inputs of the second logarithm. -/
theorem MulIn.log2 (hr : IsRun net dt inj s0 S F) (hdt : 0 < dt) (h : MulIn net s0 dt inj F enc x a1 b1 a2 b2 y1 z1 y2 z2)
    {P1 : ℕ} (hP1 : Train F (x + 4) [P1]) :
    LogIn net dt inj F (x + 8) enc.waccBar (a2 + dly dt (1 + enc.Tmin)) (b2 + dly dt 1) (P1 + dly dt 1) := by
  have s1 := hP1.arr1 hdt (h.emb.noinj 4 (by simp)) 1
  refine ⟨?_, fun n => h.ge8 hr hdt n, ?_, ?_⟩
  · intro n; exact inE_nil h.i8 .V (by simp)
  · intro n
    exact inE_of (n := n) h.i8 .gf [(_, [_])] (by rfl) (by
      intro p hp; simp only [List.mem_cons, List.not_mem_nil, or_false] at hp; subst hp; exact s1.to _)
  · intro n
    exact inE_of (n := n) h.i8 .gate [(_, [_])] (by rfl) (by
      intro p hp; simp only [List.mem_cons, List.not_mem_nil, or_false] at hp; subst hp; exact s1.to _)

theorem MulIn.i10 (h : MulIn net s0 dt inj F enc x a1 b1 a2 b2 y1 z1 y2 z2) :
    InS net (x + 10) [⟨x + 9, x + 10, 50, 3, .gf⟩, ⟨x + 9, x + 10, 1, 3, .gate⟩, ⟨x + 8, x + 10, enc.waccBar, 1, .ge⟩,
      ⟨x + 8, x + 10, -1, 1, .gate⟩] := by
  have := h.emb.ins 10 (by simp)
  have e : ((insOf (mulSyns enc) 10).map (Synapse.shift x)) = [⟨x + 9, x + 10, 10 * 100 / 20, 3 * 1, .gf⟩, ⟨x + 9, x + 10, 1, 3 * 1, .gate⟩,
    ⟨x + 8, x + 10, enc.waccBar, 1, .ge⟩, ⟨x + 8, x + 10, -1, 1, .gate⟩] := rfl
  rwa [e, mul_one, show (10 * 100 / 20 : K) = 50 by norm_num] at this

/-- The exponential accumulator. -/
theorem MulIn.exp (hr : IsRun net dt inj s0 S F) (hdt : 0 < dt) (hdt' : dt < 20) (hT : 0 < enc.Tcod)
    (h : MulIn net s0 dt inj F enc x a1 b1 a2 b2 y1 z1 y2 z2)
    {P2 : ℕ} (hP2 : Train F (x + 8) [P2]) {A B j : ℕ} (hA : A = max b1 b2 + dly dt 1 + dly dt 3) (hB : B = P2 + dly dt 1)
    (hj : j = ⌈rho dt ^ (B - A) * enc.Tcod / dt⌉₊) (hAj : A ≤ B + j - 1) : Train F (x + 10) [B + j - 1] ∧ 1 ≤ j := by
  obtain ⟨p1, p2, q1, q2, s1⟩ := h.front hr hdt
  have s2 := hP2.arr1 hdt (h.emb.noinj 8 (by simp)) 1
  have hd1 := one_le_dly dt (1 : K)
  have hw : enc.waccBar = (10 * 100 / enc.Tcod : K) := rfl
  refine exp_acc hr hdt hdt' (h.emb.std 10 (by simp)) (w := enc.waccBar) (A := A) (B := B) (j := j) (by rw [hw]; positivity)
    (fun n => inE_nil h.i10 .V (by simp))
    (fun n => inE_of (n := n) h.i10 .ge [(_, [B])] (by rfl) (by
      intro p hp; simp only [List.mem_cons, List.not_mem_nil, or_false] at hp; subst hp; rw [hB]; exact s2.to _))
    (fun n => inE_of (n := n) h.i10 .gf [(_, [A])] (by rfl) (by
      intro p hp; simp only [List.mem_cons, List.not_mem_nil, or_false] at hp; subst hp; rw [hA]; exact (s1 3).to _))
    (fun n => by
      have := inE_of (dt := dt) (inj := inj) (F := F) (n := n) h.i10 .gate [(_, [A]), (_, [B])] (by rfl) (by
        intro p hp; simp only [List.mem_cons, List.not_mem_nil, or_false] at hp
        rcases hp with rfl | rfl
        · rw [hA]; exact (s1 3).to _
        · rw [hB]; exact s2.to _)
      exact this)
    (by omega) (by omega) ?_ hAj
  intro z
  rw [hj, Nat.ceil_le, div_le_iff₀ hdt]
  rw [show enc.waccBar * dt / 100 * (z : K) = 10 * ((z : K) * dt / enc.Tcod) by rw [hw]; field_simp]
  rw [mul_le_mul_iff_right₀ (by norm_num : (0 : K) < 10), le_div_iff₀ hT]

theorem MulIn.i11 (h : MulIn net s0 dt inj F enc x a1 b1 a2 b2 y1 z1 y2 z2) :
    InS net (x + 11) [⟨x + 5, x + 11, 10, 1 + enc.Tmin, .V⟩, ⟨x + 5, x + 11, 10, 1, .V⟩, ⟨x + 10, x + 11, 10, 1 + enc.Tmin, .V⟩,
      ⟨x + 8, x + 11, 10, 2, .V⟩] := by
  have := h.emb.ins 11 (by simp)
  have e : ((insOf (mulSyns enc) 11).map (Synapse.shift x)) = [⟨x + 5, x + 11, 10, 1 + enc.Tmin, .V⟩, ⟨x + 5, x + 11, 10, 1, .V⟩,
    ⟨x + 10, x + 11, 10, enc.Tmin + 1, .V⟩, ⟨x + 8, x + 11, 10, 2 * 1, .V⟩] := rfl
  rwa [e, mul_one, add_comm enc.Tmin 1] at this

theorem MulIn.i5 (h : MulIn net s0 dt inj F enc x a1 b1 a2 b2 y1 z1 y2 z2) :
    InS net (x + 5) [⟨x + 11, x + 5, -10 / 2, 1, .V⟩, ⟨x + 1, x + 5, 10 / 4, 350, .V⟩, ⟨x, x + 5, 10 / 4, 350, .V⟩] :=
  h.emb.ins 5 (by simp)

/-- The output stage when the exponential accumulator answers in time: two spikes, and the zero detector stays silent. -/
theorem MulIn.out (hr : IsRun net dt inj s0 S F) (hdt : 0 < dt)
    (h : MulIn net s0 dt inj F enc x a1 b1 a2 b2 y1 z1 y2 z2) {P2 Q : ℕ} (hP2 : Train F (x + 8) [P2]) (hQ : Train F (x + 10) [Q])
    (hlt : P2 + dly dt 2 < Q + dly dt (1 + enc.Tmin)) (hz : P2 + dly dt 2 + dly dt 1 ≤ max z1 z2) :
    Train F (x + 11) [P2 + dly dt 2, Q + dly dt (1 + enc.Tmin)] ∧ Train F (x + 5) [] := by
  have s2 := hP2.arr1 hdt (h.emb.noinj 8 (by simp)) 2
  have s3 := hQ.arr1 hdt (h.emb.noinj 10 (by simp)) (1 + enc.Tmin)
  have hd1 := one_le_dly dt (1 : K)
  have hd2 := one_le_dly dt (2 : K)
  have hdm := one_le_dly dt (1 + enc.Tmin)
  have hy1 := h.y1_pos
  have hy2 := h.y2_pos
  have hyz1 := h.yz1
  have hyz2 := h.yz2
  have outTo : ∀ n, TrainTo F n (x + 5) [] → TrainTo F (n + 1) (x + 11) [P2 + dly dt 2, Q + dly dt (1 + enc.Tmin)] := by
    intro n hn
    have hin := inE_of (dt := dt) (inj := inj) (F := F) (n := n + 1) h.i11 .V [(_, []), (_, []), (_, [Q + dly dt (1 + enc.Tmin)]),
        (_, [P2 + dly dt 2])] (by rfl) (by
      intro p hp; simp only [List.mem_cons, List.not_mem_nil, or_false] at hp
      rcases hp with rfl | rfl | rfl | rfl
      · exact hn.arr hdt (by simp) (h.emb.noinj 5 (by simp)) _
      · exact hn.arr hdt (by simp) (h.emb.noinj 5 (by simp)) _
      · exact s3.to _
      · exact s2.to _)
    refine relay_train hr (h.emb.std 11 (by simp)) h.i11 (by simp) hin ?_ ?_
    · intro e he
      simp only [evs, List.flatMap_cons, List.flatMap_nil, List.map_nil, List.map_cons, List.nil_append, List.cons_append,
        List.mem_cons, List.not_mem_nil, or_false] at he
      rcases he with rfl | rfl
      · exact ⟨le_rfl, by show 1 ≤ Q + dly dt (1 + enc.Tmin); omega⟩
      · exact ⟨le_rfl, by show 1 ≤ P2 + dly dt 2; omega⟩
    · intro i
      simp only [evs, List.flatMap_cons, List.flatMap_nil, List.map_nil, List.map_cons, List.nil_append, List.cons_append,
        List.mem_cons, List.not_mem_nil, or_false]
      exact or_comm
  have key : ∀ n, TrainTo F n (x + 5) [] := by
    intro n
    induction n with
    | zero => intro i hi; rw [show i = 0 by omega, (hr.start _).2]; simp
    | succ n ih =>
      have s5 := (outTo n ih).arr hdt (by simp; omega) (h.emb.noinj 11 (by simp)) 1
      have hv := VIn.of (dt := dt) (inj := inj) (F := F) (n := n + 1) h.i5
        [(_, [P2 + dly dt 2 + dly dt 1, Q + dly dt (1 + enc.Tmin) + dly dt 1]), (_, [y2, z2]), (_, [y1, z1])] [-2, 1, 1] (by rfl) (by simp)
        (by norm_num) (by
          intro p hp; simp only [List.mem_cons, List.not_mem_nil, or_false] at hp
          rcases hp with rfl | rfl | rfl
          · exact s5.mono (by omega)
          · exact h.late2.to _
          · exact h.late1.to _)
      refine hv.none hr (h.emb.std 5 (by simp)) ?_
      intro i _
      vz_omega
  refine ⟨Train.of fun n => (outTo n (key n)).mono (by omega), Train.of key⟩

/-- The output stage when the computation never answers: the zero detector produces the value 0. -/
theorem MulIn.zero (hr : IsRun net dt inj s0 S F) (hdt : 0 < dt)
    (h : MulIn net s0 dt inj F enc x a1 b1 a2 b2 y1 z1 y2 z2) (hP2 : Train F (x + 8) []) (hQ : Train F (x + 10) [])
    (hlt : dly dt 1 < dly dt (1 + enc.Tmin)) :
    Train F (x + 11) [max z1 z2 + dly dt 1, max z1 z2 + dly dt (1 + enc.Tmin)] ∧ Train F (x + 5) [max z1 z2] := by
  have s2 := hP2.arr0 hdt (h.emb.noinj 8 (by simp)) 2
  have s3 := hQ.arr0 hdt (h.emb.noinj 10 (by simp)) (1 + enc.Tmin)
  have hd1 := one_le_dly dt (1 : K)
  have hy1 := h.y1_pos
  have hy2 := h.y2_pos
  have hyz1 := h.yz1
  have hyz2 := h.yz2
  obtain ⟨Z, hZ⟩ : ∃ Z, Z = max z1 z2 := ⟨_, rfl⟩
  rw [← hZ]
  have outTo : ∀ n, TrainTo F n (x + 5) [Z] → TrainTo F (n + 1) (x + 11) [Z + dly dt 1, Z + dly dt (1 + enc.Tmin)] := by
    intro n hn
    have hin := inE_of (dt := dt) (inj := inj) (F := F) (n := n + 1) h.i11 .V [(_, [Z + dly dt (1 + enc.Tmin)]), (_, [Z + dly dt 1]), (_, []),
        (_, [])] (by rfl) (by
      intro p hp; simp only [List.mem_cons, List.not_mem_nil, or_false] at hp
      rcases hp with rfl | rfl | rfl | rfl
      · exact hn.arr hdt (by simp) (h.emb.noinj 5 (by simp)) _
      · exact hn.arr hdt (by simp) (h.emb.noinj 5 (by simp)) _
      · exact s3.to _
      · exact s2.to _)
    refine relay_train hr (h.emb.std 11 (by simp)) h.i11 (by simp) hin ?_ ?_
    · intro e he
      simp only [evs, List.flatMap_cons, List.flatMap_nil, List.map_nil, List.map_cons, List.nil_append, List.cons_append,
        List.mem_cons, List.not_mem_nil, or_false] at he
      rcases he with rfl | rfl
      · exact ⟨le_rfl, by show 1 ≤ Z + dly dt (1 + enc.Tmin); omega⟩
      · exact ⟨le_rfl, by show 1 ≤ Z + dly dt 1; omega⟩
    · intro i
      simp only [evs, List.flatMap_cons, List.flatMap_nil, List.map_nil, List.map_cons, List.nil_append, List.cons_append,
        List.mem_cons, List.not_mem_nil, or_false]
      exact or_comm
  have key : ∀ n, TrainTo F n (x + 5) [Z] := by
    intro n
    induction n with
    | zero => intro i hi; rw [show i = 0 by omega, (hr.start _).2]; simp; omega
    | succ n ih =>
      have s5 := (outTo n ih).arr hdt (by simp; omega) (h.emb.noinj 11 (by simp)) 1
      have hv := VIn.of (dt := dt) (inj := inj) (F := F) (n := n + 1) h.i5
        [(_, [Z + dly dt 1 + dly dt 1, Z + dly dt (1 + enc.Tmin) + dly dt 1]), (_, [y2, z2]), (_, [y1, z1])] [-2, 1, 1] (by rfl) (by simp)
        (by norm_num) (by
          intro p hp; simp only [List.mem_cons, List.not_mem_nil, or_false] at hp
          rcases hp with rfl | rfl | rfl
          · exact s5.mono (by omega)
          · exact h.late2.to _
          · exact h.late1.to _)
      refine hv.one hr (h.emb.std 5 (by simp)) (by omega) ?_ ?_ ?_
      · intro i _ _
        vz_omega
      · vz_omega
      · intro i _; vz_omega
  refine ⟨Train.of fun n => (outTo n (key n)).mono (by omega), Train.of key⟩

/-- The exponential accumulator without an answer of the second logarithm stays silent. -/
theorem MulIn.exp_none (hr : IsRun net dt inj s0 S F) (hdt : 0 < dt) (hdt' : dt < 20)
    (h : MulIn net s0 dt inj F enc x a1 b1 a2 b2 y1 z1 y2 z2) (hP2 : Train F (x + 8) []) : Train F (x + 10) [] := by
  obtain ⟨p1, p2, q1, q2, s1⟩ := h.front hr hdt
  have s2 := hP2.arr0 hdt (h.emb.noinj 8 (by simp)) 1
  refine Train.of fun n => gate_none (A := max b1 b2 + dly dt 1 + dly dt 3) (B := n + 1) (G := []) (E := []) hr (h.emb.std 10 (by simp))
    (inE_nil h.i10 .V (by simp))
    (inE_of (n := n) h.i10 .ge [(_, [])] (by rfl) (by
      intro p hp; simp only [List.mem_cons, List.not_mem_nil, or_false] at hp; subst hp; exact s2.to _))
    (inE_of (n := n) h.i10 .gf [(_, [_])] (by rfl) (by
      intro p hp; simp only [List.mem_cons, List.not_mem_nil, or_false] at hp; subst hp; exact (s1 3).to _)) ?_ ?_
  · intro i hi
    have := inE_of (dt := dt) (inj := inj) (F := F) (n := n) h.i10 .gate [(_, [max b1 b2 + dly dt 1 + dly dt 3]), (_, [])] (by rfl) (by
        intro p hp; simp only [List.mem_cons, List.not_mem_nil, or_false] at hp
        rcases hp with rfl | rfl
        · exact (s1 3).to _
        · exact s2.to _)
    rw [this i hi, if_neg (show ¬ i = n + 1 by omega)]
    simp [evs, evAt, eq_comm]
  · intro i _ _
    have := Psi_lt hdt' (max b1 b2 + dly dt 1 + dly dt 3) (n + 1) 0 i
    simpa [PhiG, Phi] using this

/-- The second logarithm without an answer of the first one. -/
theorem MulIn.log2_none (hr : IsRun net dt inj s0 S F) (hdt : 0 < dt)
    (h : MulIn net s0 dt inj F enc x a1 b1 a2 b2 y1 z1 y2 z2) (hP1 : Train F (x + 4) []) (hw : 0 ≤ enc.waccBar)
    (hX : enc.waccBar * dt / 100 * ((b2 + dly dt 1 - (a2 + dly dt (1 + enc.Tmin)) : ℕ) : K) < 10) : Train F (x + 8) [] := by
  have s1 := hP1.arr0 hdt (h.emb.noinj 4 (by simp)) 1
  have hd1 := one_le_dly dt (1 : K)
  have hdm := one_le_dly dt (1 + enc.Tmin)
  refine Train.of fun n => train_none hr (h.emb.std 8 (by simp)) (inE_nil h.i8 .V (by simp)) (h.ge8 hr hdt n)
    (inE_of (n := n) h.i8 .gf [(_, [])] (by rfl) (by
      intro p hp; simp only [List.mem_cons, List.not_mem_nil, or_false] at hp; subst hp; exact s1.to _))
    (inE_of (n := n) h.i8 .gate [(_, [])] (by rfl) (by
      intro p hp; simp only [List.mem_cons, List.not_mem_nil, or_false] at hp; subst hp; exact s1.to _)) ?_
  intro i h1 h2
  have hwd : 0 ≤ enc.waccBar * dt / 100 := by positivity
  rcases Nat.le_total (a2 + dly dt (1 + enc.Tmin)) (b2 + dly dt 1) with hle | hle
  · rw [Phi_pair dt _ hle (by omega)]
    refine lt_of_le_of_lt (mul_le_mul_of_nonneg_left ?_ hwd) hX
    exact_mod_cast (by omega)
  · simp only [Phi, List.map_nil, List.sum_nil, List.map_cons, List.sum_cons, zero_add, add_zero]
    by_cases c1 : 0 < a2 + dly dt (1 + enc.Tmin) ∧ a2 + dly dt (1 + enc.Tmin) ≤ i
    · rw [if_pos c1, if_pos (by omega)]
      have : ((i - (a2 + dly dt (1 + enc.Tmin)) + 1 : ℕ) : K) ≤ ((i - (b2 + dly dt 1) + 1 : ℕ) : K) := by exact_mod_cast (by omega)
      have := mul_le_mul_of_nonneg_left this hwd
      linarith
    · rw [if_neg c1]
      have : 0 ≤ enc.waccBar * dt / 100 * ((i - (b2 + dly dt 1) + 1 : ℕ) : K) := by positivity
      split_ifs <;> linarith

/-- The accumulators of a multiplier: `X1`, `X2` are the values the two logarithms are charged with. -/
theorem MulIn.answers (hr : IsRun net dt inj s0 S F) (hdt : 0 < dt) (hdt' : dt < 20) (hT : 0 < enc.Tcod)
    (h : MulIn net s0 dt inj F enc x a1 b1 a2 b2 y1 z1 y2 z2) {X1 X2 : K}
    (h1 : a1 + dly dt (1 + enc.Tmin) < b1 + dly dt 1) (h2 : a2 + dly dt (1 + enc.Tmin) < b2 + dly dt 1)
    (hX1 : X1 = ((b1 + dly dt 1 - (a1 + dly dt (1 + enc.Tmin)) : ℕ) : K) * dt / enc.Tcod)
    (hX2 : X2 = ((b2 + dly dt 1 - (a2 + dly dt (1 + enc.Tmin)) : ℕ) : K) * dt / enc.Tcod)
    (hX1' : X1 < 1) (hX2' : X2 < 1) :
    ∃ N P2 j, 2 ≤ N ∧ P2 + 2 = max b1 b2 + 3 * dly dt 1 + N ∧ rho dt ^ N ≤ X1 * X2 ∧ X1 * X2 < rho dt ^ (N - 2) ∧
      Train F (x + 8) [P2] ∧ Train F (x + 10) [P2 + dly dt 1 + j - 1] ∧ 1 ≤ j ∧ j ≤ ⌈enc.Tcod / dt⌉₊ ∧
      X1 * X2 * enc.Tcod - enc.Tcod * (1 / (1 - dt / 20) ^ 2 - 1) ≤ (j : K) * dt ∧
      (j : K) * dt ≤ X1 * X2 * enc.Tcod + enc.Tcod * (1 / (1 - dt / 20) ^ 2 - 1) + dt := by
  have hw : enc.waccBar = (10 * 100 / enc.Tcod : K) := rfl
  have hw0 : 0 ≤ enc.waccBar := by rw [hw]; positivity
  have hd1 := one_le_dly dt (1 : K)
  have hdm := one_le_dly dt (1 + enc.Tmin)
  have hX1p : 0 < X1 := by
    rw [hX1]; have : (0 : K) < ((b1 + dly dt 1 - (a1 + dly dt (1 + enc.Tmin)) : ℕ) : K) := by exact_mod_cast (by omega)
    positivity
  have hX2p : 0 < X2 := by
    rw [hX2]; have : (0 : K) < ((b2 + dly dt 1 - (a2 + dly dt (1 + enc.Tmin)) : ℕ) : K) := by exact_mod_cast (by omega)
    positivity
  have hrp := rho_pos hdt'
  have hrl := rho_lt hdt
  obtain ⟨n1, hn1⟩ := decay_exists hdt hdt' hX1p
  obtain ⟨n2, hn2⟩ := decay_exists hdt hdt' hX2p
  have m1 := hn1.pos hX1'
  have m2 := hn2.pos hX2'
  have t4 := log_acc hr hdt hdt' (h.emb.std 4 (by simp)) hw0 (h.log1 hr hdt) (by omega) h1.le (by omega)
    (X := X1) (by rw [hX1, hw]; ring) hX1' hn1
  obtain ⟨P1, hP1⟩ : ∃ P1, P1 = max b1 b2 + dly dt 1 + dly dt 1 - 1 + n1 := ⟨_, rfl⟩
  rw [← hP1] at t4
  have t8 := log_acc hr hdt hdt' (h.emb.std 8 (by simp)) hw0 (h.log2 hr hdt t4) (by omega) h2.le (by omega)
    (X := X2) (by rw [hX2, hw]; ring) hX2' hn2
  obtain ⟨P2, hP2⟩ : ∃ P2, P2 = P1 + dly dt 1 - 1 + n2 := ⟨_, rfl⟩
  rw [← hP2] at t8
  have e3 := dly_add_le hdt (one_pos (α := K)) (two_pos (α := K))
  have e2 := dly_add_le hdt (one_pos (α := K)) (one_pos (α := K))
  rw [show (1 : K) + 2 = 3 by norm_num] at e3
  rw [show (1 : K) + 1 = 2 by norm_num] at e2
  obtain ⟨A, hA⟩ : ∃ A, A = max b1 b2 + dly dt 1 + dly dt 3 := ⟨_, rfl⟩
  obtain ⟨B, hB⟩ : ∃ B, B = P2 + dly dt 1 := ⟨_, rfl⟩
  obtain ⟨j, hj⟩ : ∃ j, j = ⌈rho dt ^ (B - A) * enc.Tcod / dt⌉₊ := ⟨_, rfl⟩
  have hAB : A ≤ B := by omega
  have hr0 := pow_pos hrp (B - A)
  have hjp : 0 < rho dt ^ (B - A) * enc.Tcod / dt := by positivity
  have hj0 : 1 ≤ j := by rw [hj]; exact Nat.one_le_iff_ne_zero.mpr (Nat.ceil_pos.mpr hjp).ne'
  obtain ⟨t10, -⟩ := h.exp hr hdt hdt' hT t8 hA hB hj (by omega)
  -- number of steps
  have hlow1 : X1 < rho dt ^ (n1 - 1) := not_le.mp ((hn1 (n1 - 1)).not.mpr (by omega))
  have hlow2 : X2 < rho dt ^ (n2 - 1) := not_le.mp ((hn2 (n2 - 1)).not.mpr (by omega))
  have hup1 : rho dt ^ n1 ≤ X1 := (hn1 n1).mpr le_rfl
  have hup2 : rho dt ^ n2 ≤ X2 := (hn2 n2).mpr le_rfl
  have hlow : X1 * X2 < rho dt ^ (n1 + n2 - 2) := by
    rw [show n1 + n2 - 2 = (n1 - 1) + (n2 - 1) by omega, pow_add]
    exact mul_lt_mul'' hlow1 hlow2 hX1p.le hX2p.le
  have hup : rho dt ^ (n1 + n2) ≤ X1 * X2 := by
    rw [pow_add]; exact mul_le_mul hup1 hup2 (pow_pos hrp _).le hX1p.le
  obtain ⟨d1, d2⟩ := dly_bd hdt (one_pos (α := K))
  obtain ⟨g1, g2⟩ := dly_bd hdt (three_pos (α := K))
  have hd3 : 3 * dly dt 1 ≤ dly dt 3 + 2 := by
    refine step_le hdt ?_
    push_cast; linarith
  -- the decay
  have hk1 : rho dt ^ (B - A) ≤ rho dt ^ (n1 + n2 - 2) := pow_le_pow_of_le_one hrp.le hrl.le (by omega)
  have hk2 : rho dt ^ (n1 + n2) ≤ rho dt ^ (B - A) := pow_le_pow_of_le_one hrp.le hrl.le (by omega)
  have hsq : rho dt ^ (n1 + n2) = rho dt ^ (n1 + n2 - 2) * rho dt ^ 2 := by rw [← pow_add]; congr 1; omega
  have hr2 : 0 < rho dt ^ 2 := pow_pos hrp 2
  have hr21 : rho dt ^ 2 ≤ 1 := pow_le_one₀ hrp.le hrl.le
  have hP : X1 * X2 ≤ 1 := mul_le_one₀ hX1'.le hX2p.le hX2'.le
  have hc : 0 ≤ 1 / rho dt ^ 2 - 1 := by rw [sub_nonneg, le_div_iff₀ hr2]; linarith
  have hdk1 : rho dt ^ (B - A) ≤ X1 * X2 + (1 / rho dt ^ 2 - 1) := by
    have : rho dt ^ (n1 + n2 - 2) ≤ X1 * X2 * (1 / rho dt ^ 2) := by
      rw [mul_one_div, le_div_iff₀ hr2, ← hsq]; exact hup
    have h5 : X1 * X2 * (1 / rho dt ^ 2 - 1) ≤ 1 * (1 / rho dt ^ 2 - 1) := mul_le_mul_of_nonneg_right hP hc
    linarith
  have hdk2 : X1 * X2 - (1 / rho dt ^ 2 - 1) ≤ rho dt ^ (B - A) := by
    have h6 : X1 * X2 * rho dt ^ 2 ≤ rho dt ^ (B - A) := by
      refine le_trans ?_ hk2
      rw [hsq]; exact mul_le_mul_of_nonneg_right hlow.le hr2.le
    have h7 : 1 - rho dt ^ 2 ≤ 1 / rho dt ^ 2 - 1 := by
      have : 1 / rho dt ^ 2 - 1 = (1 - rho dt ^ 2) * (1 / rho dt ^ 2) := by field_simp
      rw [this]
      exact le_mul_of_one_le_right (by linarith) (by rw [le_div_iff₀ hr2]; linarith)
    have h8 : X1 * X2 * (1 - rho dt ^ 2) ≤ 1 * (1 - rho dt ^ 2) := mul_le_mul_of_nonneg_right hP (by linarith)
    linarith
  have hj1 : rho dt ^ (B - A) * enc.Tcod ≤ (j : K) * dt := by
    have := Nat.le_ceil (rho dt ^ (B - A) * enc.Tcod / dt)
    rwa [← hj, div_le_iff₀ hdt] at this
  have hj2 : (j : K) * dt < rho dt ^ (B - A) * enc.Tcod + dt := by
    have := Nat.ceil_lt_add_one hjp.le
    rw [← hj] at this
    have := mul_lt_mul_of_pos_right this hdt
    rwa [add_mul, div_mul_cancel₀ _ hdt.ne', one_mul] at this
  have hjT : j ≤ ⌈enc.Tcod / dt⌉₊ := by
    rw [hj]
    refine Nat.ceil_mono (div_le_div_of_nonneg_right ?_ hdt.le)
    exact mul_le_of_le_one_left hT.le (pow_le_one₀ hrp.le hrl.le)
  have hm1 := mul_le_mul_of_nonneg_right hdk1 hT.le
  have hm2 := mul_le_mul_of_nonneg_right hdk2 hT.le
  have hrr : (1 - dt / 20 : K) = rho dt := rfl
  refine ⟨n1 + n2, P2, j, by omega, by omega, hup, hlow, t8, by rw [← hB]; exact t10, hj0, hjT, ?_, ?_⟩
  · rw [hrr]; linarith
  · rw [hrr]; linarith

/-- How often the inner neurons of a multiplier fire. -/
theorem MulIn.fires (hr : IsRun net dt inj s0 S F) (hdt : 0 < dt) (hdt' : dt < 20) (hT : 0 < enc.Tcod)
    (h : MulIn net s0 dt inj F enc x a1 b1 a2 b2 y1 z1 y2 z2) {X1 X2 : K}
    (h1 : a1 + dly dt (1 + enc.Tmin) < b1 + dly dt 1) (h2 : a2 + dly dt (1 + enc.Tmin) < b2 + dly dt 1)
    (hX1 : X1 = ((b1 + dly dt 1 - (a1 + dly dt (1 + enc.Tmin)) : ℕ) : K) * dt / enc.Tcod)
    (hX2 : X2 = ((b2 + dly dt 1 - (a2 + dly dt (1 + enc.Tmin)) : ℕ) : K) * dt / enc.Tcod)
    (hX1' : X1 < 1) (hX2' : X2 < 1) : ∀ k ∈ [2, 3, 4, 6, 7, 8, 9, 10], Fires F (x + k) 1 := by
  obtain ⟨p1, p2, q1, q2, s1⟩ := h.front hr hdt
  obtain ⟨_, _, _, _, _, _, _, t8, t10, _⟩ := h.answers hr hdt hdt' hT h1 h2 hX1 hX2 hX1' hX2'
  have hw : enc.waccBar = (10 * 100 / enc.Tcod : K) := rfl
  have hd1 := one_le_dly dt (1 : K)
  have hdm := one_le_dly dt (1 + enc.Tmin)
  have hX1p : 0 < X1 := by
    rw [hX1]; have : (0 : K) < ((b1 + dly dt 1 - (a1 + dly dt (1 + enc.Tmin)) : ℕ) : K) := by exact_mod_cast (by omega)
    positivity
  obtain ⟨n1, hn1⟩ := decay_exists hdt hdt' hX1p
  have t4 := log_acc hr hdt hdt' (h.emb.std 4 (by simp)) (by rw [hw]; positivity) (h.log1 hr hdt) (by omega) h1.le (by omega)
    (X := X1) (by rw [hX1, hw]; ring) hX1' hn1
  have one : ∀ k ∈ [2, 3, 4, 5, 6, 7, 8, 9, 10, 11], ∀ {t : ℕ}, Arr dt inj F (x + k) 1 [t + dly dt 1] → Fires F (x + k) 1 := fun k hk t ha =>
    (Train.of_arr (T := [t]) hdt (h.emb.noinj k hk) ha rfl).fires1
  intro k hk
  simp only [List.mem_cons, List.not_mem_nil, or_false] at hk
  rcases hk with rfl | rfl | rfl | rfl | rfl | rfl | rfl | rfl
  · exact one 2 (by simp) (p1 1)
  · exact one 3 (by simp) (p2 1)
  · exact t4.fires1
  · exact one 6 (by simp) (q1 1)
  · exact one 7 (by simp) (q2 1)
  · exact t8.fires1
  · exact one 9 (by simp) (s1 1)
  · exact t10.fires1

/-- **The multiplier multiplies.** -/
theorem MulIn.product (hr : IsRun net dt inj s0 S F) (hdt : 0 < dt) (hdt' : dt < 20) (hT : 0 < enc.Tcod) (hTm : 2 * dt ≤ enc.Tmin)
    (h : MulIn net s0 dt inj F enc x a1 b1 a2 b2 y1 z1 y2 z2) {X1 X2 : K}
    (h1 : a1 + dly dt (1 + enc.Tmin) < b1 + dly dt 1) (h2 : a2 + dly dt (1 + enc.Tmin) < b2 + dly dt 1)
    (hX1 : X1 = ((b1 + dly dt 1 - (a1 + dly dt (1 + enc.Tmin)) : ℕ) : K) * dt / enc.Tcod)
    (hX2 : X2 = ((b2 + dly dt 1 - (a2 + dly dt (1 + enc.Tmin)) : ℕ) : K) * dt / enc.Tcod)
    (hX1' : X1 < 1) (hX2' : X2 < 1) {M : ℕ} (hM : rho dt ^ M ≤ X1 * X2)
    (hz : max b1 b2 + 4 * dly dt 1 + dly dt 2 + M ≤ max z1 z2 + 1) :
    ∃ p q, Train F (x + 11) [p, q] ∧ Train F (x + 5) [] ∧ p < q ∧ (max b1 b2 + 3 * dly dt 1 + dly dt 2 ≤ p ∧ p + 1 ≤ max b1 b2 + 3 * dly dt 1 + dly dt 2 + M) ∧
      q ≤ max b1 b2 + 4 * dly dt 1 + M + ⌈enc.Tcod / dt⌉₊ + dly dt (1 + enc.Tmin) - 2 ∧
      |((q : K) * dt - (p : K) * dt) - (enc.Tmin + X1 * X2 * enc.Tcod)| ≤ 2 * dt + enc.Tcod * (1 / (1 - dt / 20) ^ 2 - 1) := by
  obtain ⟨N, P2, j, hN, hP2, hup, hlow, t8, t10, hj0, hjT, hj1, hj2⟩ := h.answers hr hdt hdt' hT h1 h2 hX1 hX2 hX1' hX2'
  have hMn : N ≤ M + 1 := by
    by_contra hc
    have : rho dt ^ (N - 2) ≤ rho dt ^ M := pow_le_pow_of_le_one (rho_pos hdt').le (rho_lt hdt).le (by omega)
    linarith
  obtain ⟨d1, d2⟩ := dly_bd hdt (one_pos (α := K))
  obtain ⟨e1, e2'⟩ := dly_bd hdt (two_pos (α := K))
  obtain ⟨f1, f2⟩ := dly_bd hdt (show 0 < 1 + enc.Tmin by linarith)
  have hlt0 : dly dt 2 < dly dt 1 + dly dt (1 + enc.Tmin) := by
    refine step_lt hdt ?_
    push_cast; linarith
  obtain ⟨t11, t5⟩ := h.out hr hdt t8 t10 (by omega) (by omega)
  refine ⟨_, _, t11, t5, ?_, ?_, ?_, ?_⟩
  · omega
  · omega
  · omega
  · have hcast : ((P2 + dly dt 1 + j - 1 + dly dt (1 + enc.Tmin) : ℕ) : K) = (P2 : K) + dly dt (1 : K) + j - 1 + dly dt (1 + enc.Tmin) := by
      push_cast [Nat.cast_sub (show 1 ≤ P2 + dly dt 1 + j by omega)]; ring
    rw [hcast, abs_le]
    push_cast
    constructor <;> linarith

/-- The output stage when the exponential accumulator answers after the zero detector: four spikes. -/
theorem MulIn.late (hr : IsRun net dt inj s0 S F) (hdt : 0 < dt)
    (h : MulIn net s0 dt inj F enc x a1 b1 a2 b2 y1 z1 y2 z2) {P2 Q Z : ℕ} (hP2 : Train F (x + 8) [P2]) (hQ : Train F (x + 10) [Q])
    (hZ : Z = max z1 z2) (hdlt : dly dt 1 < dly dt (1 + enc.Tmin)) (hlt : Z + dly dt (1 + enc.Tmin) < P2 + dly dt 2)
    (hlt' : P2 + dly dt 2 < Q + dly dt (1 + enc.Tmin)) :
    Train F (x + 11) [Z + dly dt 1, Z + dly dt (1 + enc.Tmin), P2 + dly dt 2, Q + dly dt (1 + enc.Tmin)] := by
  have s2 := hP2.arr1 hdt (h.emb.noinj 8 (by simp)) 2
  have s3 := hQ.arr1 hdt (h.emb.noinj 10 (by simp)) (1 + enc.Tmin)
  have hd1 := one_le_dly dt (1 : K)
  have hy1 := h.y1_pos
  have hy2 := h.y2_pos
  have hyz1 := h.yz1
  have hyz2 := h.yz2
  have outTo : ∀ n, TrainTo F n (x + 5) [Z] → TrainTo F (n + 1) (x + 11) [Z + dly dt 1, Z + dly dt (1 + enc.Tmin), P2 + dly dt 2, Q + dly dt (1 + enc.Tmin)] := by
    intro n hn
    have hin := inE_of (dt := dt) (inj := inj) (F := F) (n := n + 1) h.i11 .V [(_, [Z + dly dt (1 + enc.Tmin)]), (_, [Z + dly dt 1]),
        (_, [Q + dly dt (1 + enc.Tmin)]), (_, [P2 + dly dt 2])] (by rfl) (by
      intro p hp; simp only [List.mem_cons, List.not_mem_nil, or_false] at hp
      rcases hp with rfl | rfl | rfl | rfl
      · exact hn.arr hdt (by simp) (h.emb.noinj 5 (by simp)) _
      · exact hn.arr hdt (by simp) (h.emb.noinj 5 (by simp)) _
      · exact s3.to _
      · exact s2.to _)
    refine relay_train hr (h.emb.std 11 (by simp)) h.i11 (by simp) hin ?_ ?_
    · intro e he
      simp only [evs, List.flatMap_cons, List.flatMap_nil, List.map_nil, List.map_cons, List.nil_append, List.cons_append,
        List.mem_cons, List.not_mem_nil, or_false] at he
      rcases he with rfl | rfl | rfl | rfl
      · exact ⟨le_rfl, by show 1 ≤ Z + dly dt (1 + enc.Tmin); omega⟩
      · exact ⟨le_rfl, by show 1 ≤ Z + dly dt 1; omega⟩
      · exact ⟨le_rfl, by show 1 ≤ Q + dly dt (1 + enc.Tmin); omega⟩
      · exact ⟨le_rfl, by show 1 ≤ P2 + dly dt 2; omega⟩
    · intro i
      simp only [evs, List.flatMap_cons, List.flatMap_nil, List.map_nil, List.map_cons, List.nil_append, List.cons_append,
        List.mem_cons, List.not_mem_nil, or_false]
      tauto
  have key : ∀ n, TrainTo F n (x + 5) [Z] := by
    intro n
    induction n with
    | zero => intro i hi; rw [show i = 0 by omega, (hr.start _).2]; simp; omega
    | succ n ih =>
      have s5 := (outTo n ih).arr hdt (by simp; omega) (h.emb.noinj 11 (by simp)) 1
      have hv := VIn.of (dt := dt) (inj := inj) (F := F) (n := n + 1) h.i5
        [(_, [Z + dly dt 1 + dly dt 1, Z + dly dt (1 + enc.Tmin) + dly dt 1, P2 + dly dt 2 + dly dt 1, Q + dly dt (1 + enc.Tmin) + dly dt 1]),
          (_, [y2, z2]), (_, [y1, z1])] [-2, 1, 1] (by rfl) (by simp)
        (by norm_num) (by
          intro p hp; simp only [List.mem_cons, List.not_mem_nil, or_false] at hp
          rcases hp with rfl | rfl | rfl
          · exact s5.mono (by omega)
          · exact h.late2.to _
          · exact h.late1.to _)
      refine hv.one hr (h.emb.std 5 (by simp)) (by omega) ?_ ?_ ?_
      · intro i _ _
        vz_omega
      · vz_omega
      · intro i _; vz_omega
  exact Train.of fun n => (outTo n (key n)).mono (by omega)

/-- A second operand that fills its accumulator makes it fire at once, even if the first logarithm never answers. -/
theorem MulIn.log2_full (hr : IsRun net dt inj s0 S F) (hdt : 0 < dt) (hdt' : dt < 20)
    (h : MulIn net s0 dt inj F enc x a1 b1 a2 b2 y1 z1 y2 z2) (hw : 0 ≤ enc.waccBar) {m : ℕ} (hm : Reach enc.waccBar dt m) (hm1 : 1 ≤ m)
    (hX : a2 + dly dt (1 + enc.Tmin) + m ≤ b2 + dly dt 1)
    (hP1 : Train F (x + 4) [] ∨ ∃ P1, Train F (x + 4) [P1] ∧ b2 ≤ P1) : Train F (x + 8) [a2 + dly dt (1 + enc.Tmin) + m - 1] := by
  have hd1 := one_le_dly dt (1 : K)
  have hdm := one_le_dly dt (1 + enc.Tmin)
  rcases hP1 with hP1 | ⟨P1, hP1, hle⟩
  · have s1 := hP1.arr0 hdt (h.emb.noinj 4 (by simp)) 1
    refine Train.of fun n => train_one hr (h.emb.std 8 (by simp)) (inE_nil h.i8 .V (by simp)) (h.ge8 hr hdt n)
      (inE_of (n := n) h.i8 .gf [(_, [])] (by rfl) (by
        intro p hp; simp only [List.mem_cons, List.not_mem_nil, or_false] at hp; subst hp; exact s1.to _))
      (inE_of (n := n) h.i8 .gate [(_, [])] (by rfl) (by
        intro p hp; simp only [List.mem_cons, List.not_mem_nil, or_false] at hp; subst hp; exact s1.to _)) (by omega) ?_ ?_ ?_
    · intro i h1 h2
      rw [Phi_pair dt _ (by omega) (by omega)]
      have := (hm ((i + 1 - (a2 + dly dt (1 + enc.Tmin)) - (i + 1 - (b2 + dly dt 1)) : ℕ) : ℤ)).not.mpr (by omega)
      rw [not_le] at this
      push_cast at this ⊢
      exact this
    · rw [Phi_pair dt _ (by omega) (by omega)]
      have := (hm ((a2 + dly dt (1 + enc.Tmin) + m - 1 + 1 - (a2 + dly dt (1 + enc.Tmin)) -
        (a2 + dly dt (1 + enc.Tmin) + m - 1 + 1 - (b2 + dly dt 1)) : ℕ) : ℤ)).mpr (by omega)
      push_cast at this ⊢
      exact this
    · intro i hi
      simp only [Phi, List.map_nil, List.sum_nil, List.map_cons, List.sum_cons, zero_add, add_zero]
      rw [if_neg (by omega)]
      have : 0 ≤ enc.waccBar * dt / 100 * ((i - (b2 + dly dt 1) + 1 : ℕ) : K) := by positivity
      split_ifs <;> linarith
  · exact log_acc_early hr hdt hdt' (h.emb.std 8 (by simp)) hw hm (h.log2 hr hdt hP1) (by omega) hm1 hX (by omega)

end run
end Axon
