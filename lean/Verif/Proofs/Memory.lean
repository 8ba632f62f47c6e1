import Verif.Proofs.Ramp
import Verif.Proofs.Fires

/-! # The memory networks -/
set_option linter.unusedSectionVars false
namespace Axon
open Spec
variable {K : Type*} [Field K] [LinearOrder K] [IsStrictOrderedRing K] [FloorRing K]

/-- The synapses of a `MemoryNetwork`, neurons numbered from 0. -/
def memSyns (enc : Encoder K) : List (Synapse K) := (memoryNetwork enc none World.empty).2.syns

section run
variable {net : Net K} {dt : K} {inj : List (ℕ × K)} {s0 : ℕ → NState K} {S : ℕ → ℕ → NState K}
  {F : ℕ → ℕ → Bool}

/-- Unfolds integer ramps on explicit lists. -/
macro "ramp_omega" : tactic => `(tactic|
  (simp only [rampZ, List.map_cons, List.map_nil, List.sum_cons, List.sum_nil]
   split_ifs <;> omega))

/-- Storing phase of a memory: `acc` and `ready` fire once. -/
theorem mem_store (hr : IsRun net dt inj s0 S F) (hdt : 0 < dt) {enc : Encoder K} (hT : 0 < enc.Tmax) {x : ℕ}
    (hE : Embeds net s0 inj x (memSyns enc) [1, 2, 3, 4, 6, 7]) {a b : ℕ} (hI : Arr dt inj F x 1 [a, b])
    (ha : 1 ≤ a) (hab : a + dly dt 1 ≤ b) :
    Train F (x + 2) [b] ∧ Train F (x + 3) [a + dly dt 1 + ⌈enc.Tmax / dt⌉₊ - 1] ∧
    Train F (x + 6) [a + dly dt 1 + ⌈enc.Tmax / dt⌉₊ - 1 + dly dt 1] := by
  have hm := reach_wacc hT hdt
  have hm1 : 1 ≤ ⌈enc.Tmax / dt⌉₊ := Nat.one_le_iff_ne_zero.mpr (Nat.ceil_pos.mpr (div_pos hT hdt)).ne'
  generalize ⌈enc.Tmax / dt⌉₊ = m at hm hm1 ⊢
  have hd := one_le_dly dt (1 : K)
  have t1 : Train F (x + 1) [a] := first_train hr hdt (hE.std 1 (by simp)) (hE.noinj 1 (by simp)) (hE.ins 1 (by simp)) hI ha hab
  have t2 : Train F (x + 2) [b] := last_train hr (by norm_num) (hE.std 2 (by simp)) (hE.ins 2 (by simp)) hI ha (by omega)
  have a1 := t1.arr hdt (by simp) (hE.noinj 1 (by simp)) (1 : K)
  have i3 : InS net (x + 3) [⟨x + 1, x + 3, enc.wacc, 1, .ge⟩] := hE.ins 3 (by simp)
  have t3 : Train F (x + 3) [a + dly dt 1 + m - 1] := by
    refine Train.of fun n => ?_
    refine acc_one hr (hE.std 3 (by simp)) i3 (by simp) hm [(a + dly dt 1, 1)]
      (inE_of i3 .ge [(_, [a + dly dt 1])] (by rfl) ?_) ?_ ?_ ?_ ?_ ?_
    · intro q hq; simp at hq; subst hq; exact a1.to _
    · simp [evs]
    · omega
    · intro i h1 h2; ramp_omega
    · ramp_omega
    · intro i h1; ramp_omega
  have a3 := t3.arr hdt (by simp) (hE.noinj 3 (by simp)) (1 : K)
  exact ⟨t2, t3, relay1 hr (hE.std 6 (by simp)) (le_refl 10) (hE.ins 6 (by simp)) a3 (by simp; omega)⟩

/-- Recall phase of a memory: after a recall the stored interval is reproduced: all trains. -/
theorem mem_trains (hr : IsRun net dt inj s0 S F) (hdt : 0 < dt) {enc : Encoder K} (hT : 0 < enc.Tmax) {x : ℕ}
    (hE : Embeds net s0 inj x (memSyns enc) [1, 2, 3, 4, 6, 7]) {a b : ℕ} (hI : Arr dt inj F x 1 [a, b])
    (ha : 1 ≤ a) (hab : a + dly dt 1 ≤ b) (hb : b ≤ a + ⌈enc.Tmax / dt⌉₊) {r r2 : ℕ}
    (hR : Arr dt inj F (x + 5) 1 [r]) (hR2 : Arr dt inj F (x + 5) 2 [r2])
    (hrd : a + dly dt 1 + ⌈enc.Tmax / dt⌉₊ - 1 + dly dt 1 < r) (hr2 : 1 ≤ r2)
    (hrr : r2 < r + (b - a) + dly dt 2 - dly dt 1) :
    (Train F (x + 6) [a + dly dt 1 + ⌈enc.Tmax / dt⌉₊ - 1 + dly dt 1] ∧
    Train F (x + 7) [r2, r + (b - a) + dly dt 2 - dly dt 1]) ∧
    Train F (x + 1) [a] ∧ Train F (x + 2) [b] ∧ Train F (x + 3) [a + dly dt 1 + ⌈enc.Tmax / dt⌉₊ - 1] ∧
    Train F (x + 4) [r + (b - a) + dly dt 2 - dly dt 1 - dly dt 1] := by
  obtain ⟨t2, t3, t6⟩ := mem_store hr hdt hT hE hI ha hab
  have t1 : Train F (x + 1) [a] := first_train hr hdt (hE.std 1 (by simp)) (hE.noinj 1 (by simp)) (hE.ins 1 (by simp)) hI ha hab
  have hm := reach_wacc hT hdt
  have hm1 : 1 ≤ ⌈enc.Tmax / dt⌉₊ := Nat.one_le_iff_ne_zero.mpr (Nat.ceil_pos.mpr (div_pos hT hdt)).ne'
  generalize ⌈enc.Tmax / dt⌉₊ = m at hm hm1 t3 t6 hb hrd ⊢
  have hd := one_le_dly dt (1 : K)
  have hd2 : dly dt (1 : K) ≤ dly dt 2 := dly_mono hdt (by norm_num)
  have hd3 : dly dt (2 : K) ≤ dly dt 1 + dly dt 1 := by
    have := dly_add_le hdt (one_pos (α := K)) one_pos
    rwa [one_add_one_eq_two] at this
  have hd4 : dly dt (1 : K) + dly dt 1 ≤ dly dt 2 + 1 := by
    have h1 := dly_bd hdt (one_pos (α := K))
    have h2 := dly_bd hdt (two_pos (α := K))
    refine step_le hdt ?_
    push_cast
    linarith
  have a2 := t2.arr hdt (by simp) (hE.noinj 2 (by simp)) (2 : K)
  have a3 := t3.arr hdt (by simp) (hE.noinj 3 (by simp)) (1 : K)
  have i4 : InS net (x + 4) [⟨x + 5, x + 4, enc.wacc, 1, .ge⟩, ⟨x + 3, x + 4, -enc.wacc, 1, .ge⟩,
      ⟨x + 2, x + 4, enc.wacc, 2, .ge⟩] := by
    have := hE.ins 4 (by simp)
    have e : ((insOf (memSyns enc) 4).map (Synapse.shift x)) = [⟨x + 5, x + 4, enc.wacc, 1, .ge⟩,
      ⟨x + 3, x + 4, -enc.wacc, 1, .ge⟩, ⟨x + 2, x + 4, enc.wacc, 2 * 1, .ge⟩] := rfl
    rwa [e, mul_one] at this
  have t4 : Train F (x + 4) [r + (b - a) + dly dt 2 - dly dt 1 - dly dt 1] := by
    refine Train.of fun n => ?_
    refine acc_one hr (hE.std 4 (by simp)) i4 (by simp) hm
      [(r, 1), (a + dly dt 1 + m - 1 + dly dt 1, -1), (b + dly dt 2, 1)]
      (inE_of i4 .ge [(_, [r]), (_, [a + dly dt 1 + m - 1 + dly dt 1]), (_, [b + dly dt 2])] (by rfl) ?_) ?_ ?_ ?_ ?_ ?_
    · intro q hq; simp at hq
      rcases hq with rfl | rfl | rfl
      · exact hR.to _
      · exact a3.to _
      · exact a2.to _
    · simp [evs]
    · omega
    · intro i h1 h2; ramp_omega
    · ramp_omega
    · intro i h1; ramp_omega
  have a4 := t4.arr hdt (by simp) (hE.noinj 4 (by simp)) (1 : K)
  have i7 : InS net (x + 7) [⟨x + 4, x + 7, 10, 1, .V⟩, ⟨x + 5, x + 7, 10, 2, .V⟩] := by
    have := hE.ins 7 (by simp)
    have e : ((insOf (memSyns enc) 7).map (Synapse.shift x)) = [⟨x + 4, x + 7, 10, 1, .V⟩,
      ⟨x + 5, x + 7, 10, 2 * 1, .V⟩] := rfl
    rwa [e, mul_one] at this
  refine ⟨⟨t6, ?_⟩, t1, t2, t3, t4⟩
  refine relay2 hr (hE.std 7 (by simp)) (le_refl 10) (le_refl 10) i7 a4 hR2 (by simp; omega) (by simp; omega) ?_
  intro i
  simp
  omega

/-- The inner neurons fire once each. -/
theorem mem_recall_full (hr : IsRun net dt inj s0 S F) (hdt : 0 < dt) {enc : Encoder K} (hT : 0 < enc.Tmax) {x : ℕ}
    (hE : Embeds net s0 inj x (memSyns enc) [1, 2, 3, 4, 6, 7]) {a b : ℕ} (hI : Arr dt inj F x 1 [a, b])
    (ha : 1 ≤ a) (hab : a + dly dt 1 ≤ b) (hb : b ≤ a + ⌈enc.Tmax / dt⌉₊) {r r2 : ℕ}
    (hR : Arr dt inj F (x + 5) 1 [r]) (hR2 : Arr dt inj F (x + 5) 2 [r2])
    (hrd : a + dly dt 1 + ⌈enc.Tmax / dt⌉₊ - 1 + dly dt 1 < r) (hr2 : 1 ≤ r2)
    (hrr : r2 < r + (b - a) + dly dt 2 - dly dt 1) :
    (Train F (x + 6) [a + dly dt 1 + ⌈enc.Tmax / dt⌉₊ - 1 + dly dt 1] ∧
    Train F (x + 7) [r2, r + (b - a) + dly dt 2 - dly dt 1]) ∧
    Fires F (x + 1) 1 ∧ Fires F (x + 2) 1 ∧ Fires F (x + 3) 1 ∧ Fires F (x + 4) 1 := by
  obtain ⟨h, t1, t2, t3, t4⟩ := mem_trains hr hdt hT hE hI ha hab hb hR hR2 hrd hr2 hrr
  exact ⟨h, t1.fires1, t2.fires1, t3.fires1, t4.fires1⟩

/-- Recall phase of a memory: after a recall the stored interval is reproduced. -/
theorem mem_recall (hr : IsRun net dt inj s0 S F) (hdt : 0 < dt) {enc : Encoder K} (hT : 0 < enc.Tmax) {x : ℕ}
    (hE : Embeds net s0 inj x (memSyns enc) [1, 2, 3, 4, 6, 7]) {a b : ℕ} (hI : Arr dt inj F x 1 [a, b])
    (ha : 1 ≤ a) (hab : a + dly dt 1 ≤ b) (hb : b ≤ a + ⌈enc.Tmax / dt⌉₊) {r r2 : ℕ}
    (hR : Arr dt inj F (x + 5) 1 [r]) (hR2 : Arr dt inj F (x + 5) 2 [r2])
    (hrd : a + dly dt 1 + ⌈enc.Tmax / dt⌉₊ - 1 + dly dt 1 < r) (hr2 : 1 ≤ r2)
    (hrr : r2 < r + (b - a) + dly dt 2 - dly dt 1) :
    Train F (x + 6) [a + dly dt 1 + ⌈enc.Tmax / dt⌉₊ - 1 + dly dt 1] ∧
    Train F (x + 7) [r2, r + (b - a) + dly dt 2 - dly dt 1] :=
  (mem_recall_full hr hdt hT hE hI ha hab hb hR hR2 hrd hr2 hrr).1

/-- An inverting memory after storing and one recall. -/
theorem invmem_recall (hr : IsRun net dt inj s0 S F) (hdt : 0 < dt) {enc : Encoder K} (hT : 0 < enc.Tmax) {x : ℕ}
    (hE : Embeds net s0 inj x (invertingMemoryNetwork enc none World.empty).2.syns [1, 2, 3, 5]) {a b : ℕ}
    (hI : Arr dt inj F x 1 [a, b]) (ha : 1 ≤ a) (hab : a + dly dt 1 ≤ b) {r r2 : ℕ}
    (hR : Arr dt inj F (x + 4) 1 [r]) (hR2 : Arr dt inj F (x + 4) (2 + 1 / 100) [r2])
    (hrd : b + dly dt 1 < r) (hrd' : a + dly dt (1 + enc.Tmin) < r) (hr2 : 1 ≤ r2)
    (hn : b + dly dt 1 < a + dly dt (1 + enc.Tmin) + ⌈enc.Tmax / dt⌉₊)
    (hrr : r2 + (b + dly dt 1) < r + ⌈enc.Tmax / dt⌉₊ - 1 + (a + dly dt (1 + enc.Tmin)) + dly dt 1) :
    Train F (x + 5) [r2, r + ⌈enc.Tmax / dt⌉₊ - 1 + (a + dly dt (1 + enc.Tmin)) - b] := by
  have hm := reach_wacc hT hdt
  have hm1 : 1 ≤ ⌈enc.Tmax / dt⌉₊ := Nat.one_le_iff_ne_zero.mpr (Nat.ceil_pos.mpr (div_pos hT hdt)).ne'
  generalize ⌈enc.Tmax / dt⌉₊ = m at hm hm1 hn hrr ⊢
  have hd := one_le_dly dt (1 : K)
  have hdT := one_le_dly dt (1 + enc.Tmin)
  have t1 : Train F (x + 1) [a] := first_train hr hdt (hE.std 1 (by simp)) (hE.noinj 1 (by simp)) (hE.ins 1 (by simp)) hI ha hab
  have t2 : Train F (x + 2) [b] := last_train hr (by norm_num) (hE.std 2 (by simp)) (hE.ins 2 (by simp)) hI ha (by omega)
  have a1 := t1.arr hdt (by simp) (hE.noinj 1 (by simp)) (1 + enc.Tmin)
  have a2 := t2.arr hdt (by simp) (hE.noinj 2 (by simp)) (1 : K)
  have i3 : InS net (x + 3) [⟨x + 4, x + 3, enc.wacc, 1, .ge⟩, ⟨x + 2, x + 3, -enc.wacc, 1, .ge⟩,
    ⟨x + 1, x + 3, enc.wacc, 1 + enc.Tmin, .ge⟩] := hE.ins 3 (by simp)
  have t3 : Train F (x + 3) [r + m - 1 + (a + dly dt (1 + enc.Tmin)) - (b + dly dt 1)] := by
    refine Train.of fun n => ?_
    refine acc_one hr (hE.std 3 (by simp)) i3 (by simp) hm
      [(r, 1), (b + dly dt 1, -1), (a + dly dt (1 + enc.Tmin), 1)]
      (inE_of i3 .ge [(_, [r]), (_, [b + dly dt 1]), (_, [a + dly dt (1 + enc.Tmin)])] (by rfl) ?_) ?_ ?_ ?_ ?_ ?_
    · intro q hq; simp at hq
      rcases hq with rfl | rfl | rfl
      · exact hR.to _
      · exact a2.to _
      · exact a1.to _
    · simp [evs]
    · omega
    · intro i h1 h2; ramp_omega
    · ramp_omega
    · intro i h1; ramp_omega
  have a3 := t3.arr hdt (by simp) (hE.noinj 3 (by simp)) (1 : K)
  have i5 : InS net (x + 5) [⟨x + 4, x + 5, 10, 2 + 1 / 100, .V⟩, ⟨x + 3, x + 5, 10, 1, .V⟩] := by
    have := hE.ins 5 (by simp)
    have e : ((insOf (invertingMemoryNetwork enc none World.empty).2.syns 5).map (Synapse.shift x)) =
      [⟨x + 4, x + 5, 10, 2 * 1 + 1 / 100, .V⟩, ⟨x + 3, x + 5, 10, 1, .V⟩] := rfl
    rwa [e, mul_one] at this
  refine relay2 hr (hE.std 5 (by simp)) (le_refl 10) (le_refl 10) i5 hR2 a3 (by simp; omega) (by simp; omega) ?_
  intro i
  simp
  omega

/-- Unfolds `Phi` for V events on explicit lists. -/
macro "phi_omega" : tactic => `(tactic|
  (simp only [evs, List.flatMap_cons, List.flatMap_nil, List.map_cons, List.map_nil, List.append_nil,
      List.cons_append, List.nil_append, Phi_V, List.sum_cons, List.sum_nil]
   split_ifs <;> first | omega | norm_num))

/-- The sign memory of a signed memory: the rail `rp` of the value fires with it, the other one stays silent. -/
theorem sign_pair (hr : IsRun net dt inj s0 S F) (hdt : 0 < dt) {rp rm ip im rc : ℕ} (hp : IsStd net s0 rp)
    (hm : IsStd net s0 rm) (np : injTimes inj rp = []) (nm : injTimes inj rm = [])
    (Lp : InS net rp [⟨rc, rp, 1 / 2 * 10, 1, .V⟩, ⟨rm, rp, 1 / 2 * -10, 1, .V⟩, ⟨im, rp, 1 / 4 * 10, 1, .V⟩, ⟨ip, rp, 10, 1, .V⟩])
    (Lm : InS net rm [⟨rc, rm, 1 / 2 * 10, 1, .V⟩, ⟨rp, rm, 1 / 2 * -10, 1, .V⟩, ⟨ip, rm, 1 / 4 * 10, 1, .V⟩, ⟨im, rm, 10, 1, .V⟩])
    {a b r : ℕ} (ha : 1 ≤ a) (hab : a + dly dt 1 ≤ b) (hbr : b + dly dt 1 < r)
    (Ip : Arr dt inj F ip 1 [a, b]) (Im : Arr dt inj F im 1 []) (Ir : Arr dt inj F rc 1 [r]) :
    Train F rp [a, b] ∧ Train F rm [] := by
  have hd := one_le_dly dt (1 : K)
  have key : ∀ n, TrainTo F n rp [a, b] ∧ TrainTo F n rm [] := by
    intro n
    induction n with
    | zero =>
      refine ⟨?_, ?_⟩ <;> (intro i hi; rw [show i = 0 by omega, (hr.start _).2]; simp)
      omega
    | succ n ih =>
      have ap := ih.1.arr hdt (by simp; omega) np (1 : K)
      have am := ih.2.arr hdt (by simp) nm (1 : K)
      refine ⟨?_, ?_⟩
      · refine train_two hr hp (inE_of Lp .V [(_, [r]), (_, []), (_, []), (_, [a, b])] (by rfl) ?_)
          (inE_nil Lp .ge (by simp)) (inE_nil Lp .gf (by simp)) (inE_nil Lp .gate (by simp)) ha (by omega) ?_ ?_ ?_ ?_ ?_
        · intro q hq; simp only [List.mem_cons, List.not_mem_nil, or_false] at hq
          rcases hq with rfl | rfl | rfl | rfl
          · exact Ir.to _
          · exact am
          · exact Im.to _
          · exact Ip.to _
        all_goals intros; phi_omega
      · refine train_none hr hm (inE_of Lm .V [(_, [r]), (_, [a + dly dt 1, b + dly dt 1]), (_, [a, b]), (_, [])] (by rfl) ?_)
          (inE_nil Lm .ge (by simp)) (inE_nil Lm .gf (by simp)) (inE_nil Lm .gate (by simp)) ?_
        · intro q hq; simp only [List.mem_cons, List.not_mem_nil, or_false] at hq
          rcases hq with rfl | rfl | rfl | rfl
          · exact Ir.to _
          · exact ap
          · exact Ip.to _
          · exact Im.to _
        · intros; phi_omega
  exact ⟨Train.of fun n => (key n).1, Train.of fun n => (key n).2⟩

/-- An output rail inhibited twice (by 20 each) before two spikes arrive stays silent. -/
theorem inhibited (hr : IsRun net dt inj s0 S F) {x g o : ℕ} (hx : IsStd net s0 x)
    (L : InS net x [⟨g, x, 2 * -10, 1, .V⟩, ⟨o, x, 10, 1, .V⟩]) {a b p q : ℕ} (ha : 1 ≤ a) (hbp : b < p) (hab : a ≤ b) (hpq : p ≤ q)
    (G : Arr dt inj F g 1 [a, b]) (O : Arr dt inj F o 1 [p, q]) : Train F x [] := by
  refine Train.of fun n => ?_
  refine train_none hr hx (inE_of L .V [(_, [a, b]), (_, [p, q])] (by rfl) ?_)
    (inE_nil L .ge (by simp)) (inE_nil L .gf (by simp)) (inE_nil L .gate (by simp)) ?_
  · intro q hq; simp only [List.mem_cons, List.not_mem_nil, or_false] at hq
    rcases hq with rfl | rfl
    · exact G.to _
    · exact O.to _
  · intros; phi_omega

/-- An output rail that is not inhibited relays. -/
theorem uninhibited (hr : IsRun net dt inj s0 S F) {x g o : ℕ} (hx : IsStd net s0 x)
    (L : InS net x [⟨g, x, 2 * -10, 1, .V⟩, ⟨o, x, 10, 1, .V⟩]) {p q : ℕ} (hp : 1 ≤ p) (hpq : p < q)
    (G : Arr dt inj F g 1 []) (O : Arr dt inj F o 1 [p, q]) : Train F x [p, q] := by
  refine Train.of fun n => ?_
  refine train_two hr hx (inE_of L .V [(_, []), (_, [p, q])] (by rfl) ?_)
    (inE_nil L .ge (by simp)) (inE_nil L .gf (by simp)) (inE_nil L .gate (by simp)) hp hpq ?_ ?_ ?_ ?_ ?_
  · intro q hq; simp only [List.mem_cons, List.not_mem_nil, or_false] at hq
    rcases hq with rfl | rfl
    · exact G.to _
    · exact O.to _
  all_goals intros; phi_omega

/-- The synapses of a `SignedMemoryNetwork`. -/
def smemSyns (enc : Encoder K) : List (Synapse K) := (signedMemoryNetwork enc none World.empty).2.syns

/-- A signed memory after storing on one rail and one recall.  `neg = false`: the value arrives on the plus rail. -/
theorem smem_recall (hr : IsRun net dt inj s0 S F) (hdt : 0 < dt) {enc : Encoder K} (hT : 0 < enc.Tmax) {x : ℕ}
    (hE : Embeds net s0 inj x (smemSyns enc) [2, 3, 5, 6, 7, 8, 9, 10, 11, 12, 13, 14, 15]) (neg : Bool) {a b : ℕ}
    (hI : Arr dt inj F (x + if neg then 1 else 0) 1 [a, b]) (hI' : Arr dt inj F (x + if neg then 0 else 1) 1 [])
    (ha : 1 ≤ a) (hab : a + dly dt 1 ≤ b) (hb : b ≤ a + ⌈enc.Tmax / dt⌉₊) {r : ℕ}
    (hR : Arr dt inj F (x + 4) 1 [r]) 
    (hrd : a + dly dt 1 + dly dt 1 + ⌈enc.Tmax / dt⌉₊ - 1 < r) (hbr : b + dly dt 1 < r) :
    Train F (x + if neg then 6 else 5) [r + dly dt 2 + dly dt 1, r + dly dt 2 + (b - a) + dly dt 1] ∧
    Train F (x + if neg then 5 else 6) [] ∧
    Train F (x + 7) [r + dly dt 2 + dly dt 1, r + dly dt 2 + (b - a) + dly dt 1] := by
  have hd := one_le_dly dt (1 : K)
  have hd2 : dly dt (1 : K) ≤ dly dt 2 := dly_mono hdt (by norm_num)
  have ES : Embeds net s0 inj (x + 8) (memSyns enc) [1, 2, 3, 4, 6, 7] :=
    hE.sub 8 (by simp) (by intro k hk; simp at hk; rcases hk with rfl | rfl | rfl | rfl | rfl | rfl <;> rfl)
  have i8 : InS net (x + 8) [⟨x + 1, x + 8, 10, 1, .V⟩, ⟨x + 0, x + 8, 10, 1, .V⟩] := hE.ins 8 (by simp)
  have t8 : Train F (x + 8) [a, b] := by
    cases neg
    · exact relay2 hr (hE.std 8 (by simp)) (le_refl 10) (le_refl 10) i8 hI' hI (by simp) (by simp; omega) (by simp)
    · exact relay2 hr (hE.std 8 (by simp)) (le_refl 10) (le_refl 10) i8 hI hI' (by simp; omega) (by simp) (by simp)
  have a8 := t8.arr2 hdt (by omega) (hE.noinj 8 (by simp)) (1 : K)
  have t13 : Train F (x + 13) [r] := relay1 hr (hE.std 13 (by simp)) (le_refl 10) (hE.ins 13 (by simp)) hR (by simp; omega)
  have a13 := fun D => t13.arr1 hdt (hE.noinj 13 (by simp)) D
  obtain ⟨-, t15⟩ := mem_recall hr hdt hT ES a8 (by omega) (by omega) (by omega) (a13 1) (a13 2) (by omega) (by omega) (by omega)
  replace t15 : Train F (x + 15) [r + dly dt 2, r + dly dt 2 + (b - a)] := by
    have e : r + dly dt 1 + (b + dly dt 1 - (a + dly dt 1)) + dly dt 2 - dly dt 1 = r + dly dt 2 + (b - a) := by omega
    rw [e] at t15
    exact t15
  have a15 := t15.arr2 hdt (by omega) (hE.noinj 15 (by simp)) (1 : K)
  have i2 : InS net (x + 2) [⟨x + 4, x + 2, 1 / 2 * 10, 1, .V⟩, ⟨x + 3, x + 2, 1 / 2 * -10, 1, .V⟩,
    ⟨x + 1, x + 2, 1 / 4 * 10, 1, .V⟩, ⟨x + 0, x + 2, 10, 1, .V⟩] := hE.ins 2 (by simp)
  have i3 : InS net (x + 3) [⟨x + 4, x + 3, 1 / 2 * 10, 1, .V⟩, ⟨x + 2, x + 3, 1 / 2 * -10, 1, .V⟩,
    ⟨x + 0, x + 3, 1 / 4 * 10, 1, .V⟩, ⟨x + 1, x + 3, 10, 1, .V⟩] := hE.ins 3 (by simp)
  have i5 : InS net (x + 5) [⟨x + 3, x + 5, 2 * -10, 1, .V⟩, ⟨x + 15, x + 5, 10, 1, .V⟩] := hE.ins 5 (by simp)
  have i6 : InS net (x + 6) [⟨x + 2, x + 6, 2 * -10, 1, .V⟩, ⟨x + 15, x + 6, 10, 1, .V⟩] := hE.ins 6 (by simp)
  have t7 : Train F (x + 7) [r + dly dt 2 + dly dt 1, r + dly dt 2 + (b - a) + dly dt 1] :=
    relay1 hr (hE.std 7 (by simp)) (le_refl 10) (hE.ins 7 (by simp)) a15 (by simp; omega)
  cases neg
  · obtain ⟨tp, tm⟩ := sign_pair hr hdt (hE.std 2 (by simp)) (hE.std 3 (by simp)) (hE.noinj 2 (by simp)) (hE.noinj 3 (by simp))
      i2 i3 ha hab hbr hI hI' hR
    have ap := tp.arr2 hdt (by omega) (hE.noinj 2 (by simp)) (1 : K)
    have am := tm.arr0 hdt (hE.noinj 3 (by simp)) (1 : K)
    exact ⟨uninhibited hr (hE.std 5 (by simp)) i5 (by omega) (by omega) am a15,
      inhibited hr (hE.std 6 (by simp)) i6 (by omega) (by omega) (by omega) (by omega) ap a15, t7⟩
  · obtain ⟨tp, tm⟩ := sign_pair hr hdt (hE.std 3 (by simp)) (hE.std 2 (by simp)) (hE.noinj 3 (by simp)) (hE.noinj 2 (by simp))
      i3 i2 ha hab hbr hI hI' hR
    have ap := tp.arr2 hdt (by omega) (hE.noinj 3 (by simp)) (1 : K)
    have am := tm.arr0 hdt (hE.noinj 2 (by simp)) (1 : K)
    exact ⟨uninhibited hr (hE.std 6 (by simp)) i6 (by omega) (by omega) am a15,
      inhibited hr (hE.std 5 (by simp)) i5 (by omega) (by omega) (by omega) (by omega) ap a15, t7⟩

end run
end Axon
