import Verif.Proofs.Sync
import Verif.Proofs.Subtractor
import Verif.Proofs.Signed

/-! # The linear combinator -/
set_option linter.unusedSectionVars false
namespace Axon
open Spec
variable {K : Type*} [Field K] [LinearOrder K] [IsStrictOrderedRing K] [FloorRing K]

/-- Events of several weighted intervals `(start, end, weight)` on an accumulator with unit weight `w`. -/
def linEvs (w : K) (l : List (ℕ × ℕ × K)) : List (ℕ × K) := l.flatMap (fun e => [(e.2.1, -e.2.2 * w), (e.1, e.2.2 * w)])

/-- The weighted sum of the lengths of the intervals. -/
def linSum (l : List (ℕ × ℕ × K)) : K := (l.map (fun e => e.2.2 * ((e.2.1 : K) - (e.1 : K)))).sum

/-- The weighted sum of the lengths of the intervals, reversed intervals counting nothing. -/
def linTop (l : List (ℕ × ℕ × K)) : K := (l.map (fun e => e.2.2 * ((e.2.1 - e.1 : ℕ) : K))).sum

theorem linSum_le_top {l : List (ℕ × ℕ × K)} (h : ∀ e ∈ l, 0 ≤ e.2.2) : linSum l ≤ linTop l := by
  unfold linSum linTop
  refine List.sum_le_sum fun e he => mul_le_mul_of_nonneg_left ?_ (h e he)
  rcases le_total e.1 e.2.1 with h1 | h1
  · rw [Nat.cast_sub h1]
  · rw [Nat.sub_eq_zero_of_le h1]
    have : (e.2.1 : K) ≤ e.1 := Nat.cast_le.mpr h1
    push_cast; linarith

theorem lin_phi (dt w : K) (l : List (ℕ × ℕ × K)) (i : ℕ) :
    Phi dt 100 [] (linEvs w l) 0 i = w * dt / 100 * (l.map (fun e => e.2.2 *
      ((if 0 < e.1 ∧ e.1 ≤ i then ((i - e.1 + 1 : ℕ) : K) else 0) - (if 0 < e.2.1 ∧ e.2.1 ≤ i then ((i - e.2.1 + 1 : ℕ) : K) else 0)))).sum := by
  unfold Phi linEvs
  simp only [List.map_nil, List.sum_nil, zero_add]
  induction l with
  | nil => simp
  | cons e l ih =>
    simp only [List.flatMap_cons, List.map_append, List.map_cons, List.map_nil, List.sum_append, List.sum_cons, List.sum_nil, ih, mul_add]
    congr 1
    split_ifs <;> ring

theorem lin_phi_eq {dt w : K} {l : List (ℕ × ℕ × K)} {i : ℕ} (h : ∀ e ∈ l, 1 ≤ e.1 ∧ 1 ≤ e.2.1 ∧ e.1 ≤ i ∧ e.2.1 ≤ i) :
    Phi dt 100 [] (linEvs w l) 0 i = w * dt / 100 * linSum l := by
  rw [lin_phi, linSum]
  congr 2
  apply List.map_congr_left
  intro e he
  obtain ⟨a, b, c, d⟩ := h e he
  rw [if_pos ⟨a, c⟩, if_pos ⟨b, d⟩]
  congr 1
  push_cast [Nat.cast_sub c, Nat.cast_sub d]
  ring

theorem lin_phi_le {dt w : K} (hw : 0 ≤ w * dt / 100) {l : List (ℕ × ℕ × K)} {i : ℕ} (h : ∀ e ∈ l, 1 ≤ e.1 ∧ 1 ≤ e.2.1 ∧ 0 ≤ e.2.2) :
    Phi dt 100 [] (linEvs w l) 0 i ≤ w * dt / 100 * linTop l := by
  rw [lin_phi, linTop]
  refine mul_le_mul_of_nonneg_left (List.sum_le_sum fun e he => ?_) hw
  obtain ⟨a, b, c⟩ := h e he
  refine mul_le_mul_of_nonneg_left ?_ c
  by_cases h1 : e.1 ≤ i
  · rw [if_pos ⟨by omega, h1⟩]
    by_cases h2 : e.2.1 ≤ i
    · rw [if_pos ⟨by omega, h2⟩, sub_le_iff_le_add]
      exact_mod_cast (by omega : i - e.1 + 1 ≤ e.2.1 - e.1 + (i - e.2.1 + 1))
    · rw [if_neg (by omega), sub_zero]
      exact_mod_cast (by omega : i - e.1 + 1 ≤ e.2.1 - e.1)
  · rw [if_neg (by omega)]
    have : (0 : K) ≤ if 0 < e.2.1 ∧ e.2.1 ≤ i then ((i - e.2.1 + 1 : ℕ) : K) else 0 := by split_ifs <;> positivity
    have : (0 : K) ≤ ((e.2.1 - e.1 : ℕ) : K) := by positivity
    linarith

/-- The synapses of a linear combinator that do not belong to a channel. -/
def linCore (enc : Encoder K) : List (Synapse K) :=
  [⟨3, 4, 10, 1 + enc.Tmin, .V⟩, ⟨2, 5, 10, 1 + enc.Tmin, .V⟩, ⟨1, 4, 10, 1, .V⟩, ⟨0, 5, 10, 1, .V⟩, ⟨9, 3, enc.wacc, 1, .ge⟩,
   ⟨9, 2, enc.wacc, 1, .ge⟩, ⟨9, 1, enc.wacc, 1, .ge⟩, ⟨9, 0, enc.wacc, 1, .ge⟩, ⟨4, 21, 10, 1, .V⟩, ⟨5, 11, 10, 1, .V⟩, ⟨8, 8, -10, 1, .V⟩,
   ⟨38, 7, 10, 1, .V⟩, ⟨37, 6, 10, 1, .V⟩, ⟨38, 8, 10, 1, .V⟩, ⟨37, 8, 10, 1, .V⟩, ⟨22, 32, 10, 1, .V⟩, ⟨12, 31, 10, 1, .V⟩,
   ⟨39, 36, -10, 1 / 100, .V⟩, ⟨39, 38, 2 * -10, 1 / 100, .V⟩, ⟨34, 39, 1 / 2 * 10, 1 / 100, .V⟩, ⟨33, 39, 1 / 2 * 10, 1 / 100, .V⟩,
   ⟨34, 39, 1 / 2 * -10, 2 * (1 / 100), .V⟩, ⟨33, 39, 1 / 2 * -10, 2 * (1 / 100), .V⟩, ⟨39, 39, 10, 1 / 100, .V⟩, ⟨38, 35, 1 / 2 * 10, 1, .V⟩,
   ⟨37, 36, 1 / 2 * 10, 1, .V⟩, ⟨35, 37, 2 * -10, 1, .V⟩, ⟨36, 38, 2 * -10, 1, .V⟩, ⟨33, 38, 10, 3 * 1 + 2 * (1 / 100), .V⟩,
   ⟨34, 37, 10, 3 * 1 + 2 * (1 / 100), .V⟩, ⟨34, 38, 10, enc.Tmin + (3 * 1 + 2 * (1 / 100)), .V⟩,
   ⟨33, 37, 10, enc.Tmin + (3 * 1 + 2 * (1 / 100)), .V⟩, ⟨34, 35, -10, 1, .V⟩, ⟨33, 36, -10, 1, .V⟩, ⟨34, 36, 10, 1, .V⟩, ⟨33, 35, 10, 1, .V⟩,
   ⟨32, 34, 1 / 2 * 10, 1, .V⟩, ⟨31, 33, 1 / 2 * 10, 1, .V⟩, ⟨10, 28, 10, 1, .V⟩, ⟨29, 10, syncW 2, 1, .V⟩, ⟨30, 22, 10, 1, .V⟩,
   ⟨21, 23, 10, 1, .V⟩, ⟨26, 29, 10, 1, .V⟩, ⟨27, 30, 10, 1, .V⟩, ⟨28, 30, 10, 2 * 1, .V⟩, ⟨28, 27, enc.wacc, 1, .ge⟩,
   ⟨26, 27, -enc.wacc, 1, .ge⟩, ⟨25, 27, enc.wacc, 2 * 1, .ge⟩, ⟨24, 26, enc.wacc, 1, .ge⟩, ⟨24, 24, -10, 1, .V⟩, ⟨23, 25, 1 / 2 * 10, 1, .V⟩,
   ⟨23, 24, 10, 1, .V⟩, ⟨10, 18, 10, 1, .V⟩, ⟨19, 10, syncW 2, 1, .V⟩, ⟨20, 12, 10, 1, .V⟩, ⟨11, 13, 10, 1, .V⟩, ⟨16, 19, 10, 1, .V⟩,
   ⟨17, 20, 10, 1, .V⟩, ⟨18, 20, 10, 2 * 1, .V⟩, ⟨18, 17, enc.wacc, 1, .ge⟩, ⟨16, 17, -enc.wacc, 1, .ge⟩, ⟨15, 17, enc.wacc, 2 * 1, .ge⟩,
   ⟨14, 16, enc.wacc, 1, .ge⟩, ⟨14, 14, -10, 1, .V⟩, ⟨13, 15, 1 / 2 * 10, 1, .V⟩, ⟨13, 14, 10, 1, .V⟩]

set_option maxRecDepth 20000 in
/-- Those are the synapses that the constructor makes before its loop. -/
theorem linCore_eq (enc : Encoder K) (k) (n) : (linearCombinatorNetwork k enc [] n World.empty).2.syns = linCore enc := rfl


section run
variable {net : Net K} {dt : K} {inj : List (ℕ × K)} {s0 : ℕ → NState K} {S : ℕ → ℕ → NState K}
  {F : ℕ → ℕ → Bool}

/-- An accumulator that first integrates weighted intervals and is then driven with the unit weight from step `z` on
fires once, earlier than it would with no intervals by their weighted length. -/
theorem acc_lin (hr : IsRun net dt inj s0 S F) (hdt : 0 < dt) {x n : ℕ} (hx : IsStd net s0 x) {L : List (Synapse K)}
    (hL : InS net x L) (hk : ∀ s ∈ L, s.kind = .ge) {X : K} (hX : 0 < X) {l : List (ℕ × ℕ × K)} {z : ℕ} (hz : 1 ≤ z)
    {E : List (ℕ × K)} (hG : InE net dt inj F n x .ge E) (hE : E.Perm ((z, 10 * 100 / X) :: linEvs (10 * 100 / X) l))
    (hl : ∀ e ∈ l, 1 ≤ e.1 ∧ 1 ≤ e.2.1 ∧ e.1 ≤ z ∧ e.2.1 ≤ z ∧ 0 ≤ e.2.2) (hP : linTop l * dt < X) :
    TrainTo F n x [z - 1 + ⌈X / dt - linSum l⌉₊] := by
  have hne : ∀ (k : SynKind), k ≠ .ge → ∀ s ∈ L, s.kind ≠ k := fun k hk' s hs h => hk' (h ▸ hk s hs)
  have hG' : InE net dt inj F n x .ge ((z, 10 * 100 / X) :: linEvs (10 * 100 / X) l) := fun i hi => by
    rw [hG i hi]; exact evAt_perm hE i
  have hw : (10 * 100 / X) * dt / 100 = 10 * dt / X := by ring
  have hw0 : 0 < 10 * dt / X := by positivity
  have htop : linSum l ≤ linTop l := linSum_le_top fun e he => (hl e he).2.2.2.2
  have hlt : 0 < X / dt - linSum l := by
    have : linTop l < X / dt := by rwa [lt_div_iff₀ hdt]
    linarith
  have hc1 : 1 ≤ ⌈X / dt - linSum l⌉₊ := Nat.one_le_iff_ne_zero.mpr (Nat.ceil_pos.mpr hlt).ne'
  have cons : ∀ lo i, Phi dt 100 [] ((z, 10 * 100 / X) :: linEvs (10 * 100 / X) l) lo i =
      (if lo < z ∧ z ≤ i then (10 * 100 / X) * ((i - z + 1 : ℕ) : K) * dt / 100 else 0) + Phi dt 100 [] (linEvs (10 * 100 / X) l) lo i := by
    intro lo i; simp [Phi]
  have late : ∀ i, z ≤ i → (10 ≤ Phi dt 100 [] ((z, 10 * 100 / X) :: linEvs (10 * 100 / X) l) 0 i ↔ ⌈X / dt - linSum l⌉₊ ≤ i - z + 1) := by
    intro i hi
    rw [cons, if_pos ⟨by omega, hi⟩, lin_phi_eq (fun e he => ⟨(hl e he).1, (hl e he).2.1, (hl e he).2.2.1.trans hi, (hl e he).2.2.2.1.trans hi⟩), hw, Nat.ceil_le,
      show (10 * 100 / X) * ((i - z + 1 : ℕ) : K) * dt / 100 + 10 * dt / X * linSum l = 10 * (dt / X * (((i - z + 1 : ℕ) : K) + linSum l)) by ring,
      le_mul_iff_one_le_right (by norm_num), sub_le_iff_le_add, div_le_iff₀ hdt, div_mul_eq_mul_div, one_le_div hX, mul_comm]
  refine train_one hr hx (inE_nil hL .V (hne _ (by decide))) hG' (inE_nil hL .gf (hne _ (by decide)))
    (inE_nil hL .gate (hne _ (by decide))) (p := z - 1 + ⌈X / dt - linSum l⌉₊) (by omega) ?_ ?_ ?_
  · intro i h1 h2
    by_cases hi : z ≤ i
    · rw [← not_le, late i hi]; omega
    · rw [cons, if_neg (by omega), zero_add]
      refine lt_of_le_of_lt (lin_phi_le (by rw [hw]; exact hw0.le) fun e he => ⟨(hl e he).1, (hl e he).2.1, (hl e he).2.2.2.2⟩) ?_
      rw [hw, show 10 * dt / X * linTop l = 10 * (linTop l * dt / X) by ring]
      have : linTop l * dt / X < 1 := by rwa [div_lt_one hX]
      linarith
  · rw [late _ (by omega)]; omega
  · intro i hi
    have : Phi dt 100 [] ((z, 10 * 100 / X) :: linEvs (10 * 100 / X) l) (z - 1 + ⌈X / dt - linSum l⌉₊) i = 0 := by
      unfold Phi
      simp only [List.map_nil, List.sum_nil, zero_add]
      refine List.sum_eq_zero fun y hy => ?_
      obtain ⟨e, he, rfl⟩ := List.mem_map.mp hy
      rw [if_neg]
      rcases List.mem_cons.mp he with rfl | he
      · intro hc; simp only at hc; omega
      · obtain ⟨e', he', h'⟩ := List.mem_flatMap.mp he
        have := hl e' he'
        simp only [List.mem_cons, List.not_mem_nil, or_false] at h'
        rcases h' with rfl | rfl <;> (intro hc; simp only at hc; omega)
    rw [this]; norm_num

/-- Does the value on channel `i` go to the positive accumulator? -/
def toPlus (c : ℕ → K) (neg : ℕ → Bool) (i : ℕ) : Bool := neg i != decide (0 < c i)

/-- The weighted intervals that go to one accumulator. -/
def linList (dt Tmin : K) (N : ℕ) (c : ℕ → K) (P : ℕ → Bool) (a b : ℕ → ℕ) : List (ℕ × ℕ × K) :=
  (List.range N).flatMap (fun i => if P i then [(a i + dly dt (1 + Tmin), b i + dly dt 1, |c i|)] else [])

/-- A linear combinator with `N` channels and coefficients `c` sits in the network at `x`; channel `i` consists of the six
neurons from `x + 40 + 6 * i` on. -/
structure LinAt (net : Net K) (s0 : ℕ → NState K) (inj : List (ℕ × K)) (enc : Encoder K) (x N : ℕ) (c : ℕ → K) : Prop where
  core : Embeds net s0 inj x (linCore enc) [2, 3, 4, 5, 6, 7, 8, 10, 11, 12, 13, 14, 15, 16, 17, 18, 19, 20, 21, 22, 23, 24, 25, 26, 27, 28, 29,
    30, 31, 32, 33, 34, 35, 36, 37, 38, 39]
  std : ∀ k ∈ [0, 1, 9], IsStd net s0 (x + k)
  noinj : ∀ k ∈ [0, 1, 9], injTimes inj (x + k) = []
  acc1p : InS net x (⟨x + 9, x, enc.wacc, 1, .ge⟩ :: (List.range N).flatMap (fun i =>
    [⟨x + 40 + 6 * i + (if 0 < c i then 4 else 5), x, -|c i| * enc.wacc, 1, .ge⟩,
     ⟨x + 40 + 6 * i + (if 0 < c i then 2 else 3), x, |c i| * enc.wacc, 1 + enc.Tmin, .ge⟩]))
  acc1m : InS net (x + 1) (⟨x + 9, x + 1, enc.wacc, 1, .ge⟩ :: (List.range N).flatMap (fun i =>
    [⟨x + 40 + 6 * i + (if 0 < c i then 5 else 4), x + 1, -|c i| * enc.wacc, 1, .ge⟩,
     ⟨x + 40 + 6 * i + (if 0 < c i then 3 else 2), x + 1, |c i| * enc.wacc, 1 + enc.Tmin, .ge⟩]))
  sync : InS net (x + 9) ((List.range N).flatMap (fun i =>
    [⟨x + 40 + 6 * i + 5, x + 9, 10 / (N : K), 1, .V⟩, ⟨x + 40 + 6 * i + 4, x + 9, 10 / (N : K), 1, .V⟩]))
  cstd : ∀ i < N, ∀ k ∈ [2, 3, 4, 5], IsStd net s0 (x + 40 + 6 * i + k)
  cnoinj : ∀ i < N, ∀ k ∈ [2, 3, 4, 5], injTimes inj (x + 40 + 6 * i + k) = []
  first : ∀ i < N, ∀ k < 2, InS net (x + 40 + 6 * i + (2 + k))
    [⟨x + 40 + 6 * i + (2 + k), x + 40 + 6 * i + (2 + k), -10, 1, .V⟩, ⟨x + 40 + 6 * i + k, x + 40 + 6 * i + (2 + k), 10, 1, .V⟩]
  last : ∀ i < N, ∀ k < 2, InS net (x + 40 + 6 * i + (4 + k)) [⟨x + 40 + 6 * i + k, x + 40 + 6 * i + (4 + k), 1 / 2 * 10, 1, .V⟩]

/-- A `first` neuron that gets nothing is silent. -/
theorem first_none (hr : IsRun net dt inj s0 S F) (hdt : 0 < dt) {x p : ℕ} (hx : IsStd net s0 x)
    (hni : injTimes inj x = []) (hL : InS net x [⟨x, x, -10, 1, .V⟩, ⟨p, x, 10, 1, .V⟩]) (hA : Arr dt inj F p 1 []) : Train F x [] := by
  refine Train.of fun n => ?_
  induction n with
  | zero => intro i hi; rw [show i = 0 by omega, (hr.start x).2]; simp
  | succ n ih =>
    have hself := ih.arr hdt (by simp) hni (1 : K)
    refine train_none hr hx (inE_of hL .V [(_, []), (_, [])] (by rfl) ?_)
      (inE_nil hL .ge (by simp)) (inE_nil hL .gf (by simp)) (inE_nil hL .gate (by simp)) ?_
    · intro q hq; simp at hq
      rcases hq with rfl | rfl
      · exact hself
      · exact hA.to _
    · intro i _ _; simp [evs, Phi]

/-- A neuron whose only source gives nothing is silent. -/
theorem relay_none (hr : IsRun net dt inj s0 S F) {x p : ℕ} {D w : K} (hx : IsStd net s0 x)
    (hL : InS net x [⟨p, x, w, D, .V⟩]) (hA : Arr dt inj F p D []) : Train F x [] := by
  refine Train.of fun n => ?_
  refine train_none hr hx (inE_of hL .V [(_, [])] (by rfl) ?_)
    (inE_nil hL .ge (by simp)) (inE_nil hL .gf (by simp)) (inE_nil hL .gate (by simp)) ?_
  · intro q hq; simp at hq; subst hq; exact hA.to _
  · intro i _ _; simp [evs, Phi]

variable {enc : Encoder K} {x N : ℕ} {c : ℕ → K}

/-- The `first` and `last` neurons of a channel. -/
theorem LinAt.chan (hr : IsRun net dt inj s0 S F) (hdt : 0 < dt) (h : LinAt net s0 inj enc x N c) {i : ℕ} (hi : i < N) {k : ℕ} (hk : k < 2)
    {u : Bool} {a b : ℕ} (hA : Arr dt inj F (x + 40 + 6 * i + k) 1 (on u [a, b])) (ha : 1 ≤ a) (hab : a + dly dt 1 ≤ b) (D : K) :
    Arr dt inj F (x + 40 + 6 * i + (2 + k)) D (on u [a + dly dt D]) ∧ Arr dt inj F (x + 40 + 6 * i + (4 + k)) D (on u [b + dly dt D]) := by
  have h2 : 2 + k ∈ [2, 3, 4, 5] := by simp; omega
  have h4 : 4 + k ∈ [2, 3, 4, 5] := by simp; omega
  have n2 := h.cnoinj i hi (2 + k) h2
  have n4 := h.cnoinj i hi (4 + k) h4
  have s2 := h.cstd i hi (2 + k) h2
  have s4 := h.cstd i hi (4 + k) h4
  cases u
  · exact ⟨(first_none hr hdt s2 n2 (h.first i hi k hk) hA).arr0 hdt n2 D,
      (relay_none hr s4 (h.last i hi k hk) hA).arr0 hdt n4 D⟩
  · exact ⟨(first_train hr hdt s2 n2 (h.first i hi k hk) hA ha hab).arr1 hdt n2 D,
      (last_train hr (by norm_num) s4 (h.last i hi k hk) hA ha (by omega)).arr1 hdt n4 D⟩

/-- How often the `first` and `last` neurons of a channel fire. -/
theorem LinAt.chan_fires (hr : IsRun net dt inj s0 S F) (hdt : 0 < dt) (h : LinAt net s0 inj enc x N c) {i : ℕ} (hi : i < N) {k : ℕ} (hk : k < 2)
    {u : Bool} {a b : ℕ} (hA : Arr dt inj F (x + 40 + 6 * i + k) 1 (on u [a, b])) (ha : 1 ≤ a) (hab : a + dly dt 1 ≤ b) :
    Fires F (x + 40 + 6 * i + (2 + k)) (if u then 1 else 0) ∧ Fires F (x + 40 + 6 * i + (4 + k)) (if u then 1 else 0) := by
  have h2 : 2 + k ∈ [2, 3, 4, 5] := by simp; omega
  have h4 : 4 + k ∈ [2, 3, 4, 5] := by simp; omega
  have n2 := h.cnoinj i hi (2 + k) h2
  have n4 := h.cnoinj i hi (4 + k) h4
  have s2 := h.cstd i hi (2 + k) h2
  have s4 := h.cstd i hi (4 + k) h4
  cases u
  · exact ⟨(first_none hr hdt s2 n2 (h.first i hi k hk) hA).fires0, (relay_none hr s4 (h.last i hi k hk) hA).fires0⟩
  · exact ⟨(first_train hr hdt s2 n2 (h.first i hi k hk) hA ha hab).fires1,
      (last_train hr (by norm_num) s4 (h.last i hi k hk) hA ha (by omega)).fires1⟩

theorem linList_mem {dt Tmin : K} {N : ℕ} {c : ℕ → K} {P : ℕ → Bool} {a b : ℕ → ℕ} {e : ℕ × ℕ × K} (h : e ∈ linList dt Tmin N c P a b) :
    ∃ i < N, P i = true ∧ e = (a i + dly dt (1 + Tmin), b i + dly dt 1, |c i|) := by
  obtain ⟨i, hi, h⟩ := List.mem_flatMap.mp h
  cases hP : P i
  · rw [hP] at h; simp at h
  · rw [hP] at h; exact ⟨i, List.mem_range.mp hi, hP, by simpa using h⟩

theorem linEvs_list (dt w Tmin : K) (N : ℕ) (c : ℕ → K) (P : ℕ → Bool) (a b : ℕ → ℕ) {y : ℕ} {f g : ℕ → ℕ} {z : ℕ} {t : Synapse K} (ht : t.weight = w) :
    evs ((t, [z]) :: (List.range N).flatMap (fun i => [((⟨f i, y, -|c i| * w, 1, .ge⟩ : Synapse K), on (P i) [b i + dly dt 1]),
      ((⟨g i, y, |c i| * w, 1 + Tmin, .ge⟩ : Synapse K), on (P i) [a i + dly dt (1 + Tmin)])])) =
    (z, w) :: linEvs w (linList dt Tmin N c P a b) := by
  subst ht
  unfold evs linEvs linList
  rw [List.flatMap_cons, List.flatMap_assoc, List.flatMap_assoc]
  simp only [List.map_cons, List.map_nil, List.cons_append, List.nil_append, List.cons.injEq, true_and]
  congr 1
  funext i
  cases P i <;> simp

/-- The accumulators of a linear combinator: each fires once. -/
theorem LinAt.front (hr : IsRun net dt inj s0 S F) (hdt : 0 < dt) (hT : 0 < enc.Tmax) (h : LinAt net s0 inj enc x N c) (hN : 1 ≤ N) {neg : ℕ → Bool} {a b : ℕ → ℕ}
    (Ip : ∀ i < N, Arr dt inj F (x + 40 + 6 * i) 1 (on (!neg i) [a i, b i])) (Im : ∀ i < N, Arr dt inj F (x + 40 + 6 * i + 1) 1 (on (neg i) [a i, b i]))
    (ha : ∀ i < N, 1 ≤ a i) (hab : ∀ i < N, a i + dly dt 1 ≤ b i) (hu : ∀ i < N, a i + dly dt (1 + enc.Tmin) ≤ b i + 2 * dly dt 1)
    {M : ℕ} (hM : ∀ i < N, b i ≤ M) (hM' : ∃ i < N, b i = M)
    (hP : linTop (linList dt enc.Tmin N c (toPlus c neg) a b) * dt < enc.Tmax)
    (hQ : linTop (linList dt enc.Tmin N c (fun i => !toPlus c neg i) a b) * dt < enc.Tmax) :
    Train F x [M + 2 * dly dt 1 - 1 + ⌈enc.Tmax / dt - linSum (linList dt enc.Tmin N c (toPlus c neg) a b)⌉₊] ∧
    Train F (x + 1) [M + 2 * dly dt 1 - 1 + ⌈enc.Tmax / dt - linSum (linList dt enc.Tmin N c (fun i => !toPlus c neg i) a b)⌉₊] ∧
    Train F (x + 2) [M + 2 * dly dt 1 - 1 + ⌈enc.Tmax / dt⌉₊] ∧ Train F (x + 3) [M + 2 * dly dt 1 - 1 + ⌈enc.Tmax / dt⌉₊] ∧
    Fires F (x + 9) 1 := by
  have hd := one_le_dly dt (1 : K)
  have hdm := one_le_dly dt (1 + enc.Tmin)
  have chP := fun i (hi : i < N) D => h.chan hr hdt hi (k := 0) (by norm_num) (Ip i hi) (ha i hi) (hab i hi) D
  have chM := fun i (hi : i < N) D => h.chan hr hdt hi (k := 1) (by norm_num) (Im i hi) (ha i hi) (hab i hi) D
  -- the sync neuron
  have ts : Train F (x + 9) [M + dly dt 1] := by
    refine Train.of fun n => ?_
    have hNK : (0 : K) < N := by exact_mod_cast hN
    have hk : ∀ s ∈ ((List.range N).flatMap (fun i =>
      [(⟨x + 40 + 6 * i + 5, x + 9, 10 / (N : K), 1, .V⟩ : Synapse K), ⟨x + 40 + 6 * i + 4, x + 9, 10 / (N : K), 1, .V⟩])), s.kind = .V := by
      intro s hs
      obtain ⟨i, _, hs⟩ := List.mem_flatMap.mp hs
      simp only [List.mem_cons, List.not_mem_nil, or_false] at hs
      rcases hs with rfl | rfl <;> rfl
    have hE := inE_of (dt := dt) (inj := inj) (F := F) (n := n) h.sync .V
      ((List.range N).flatMap (fun i => [((⟨x + 40 + 6 * i + 5, x + 9, 10 / (N : K), 1, .V⟩ : Synapse K), on (neg i) [b i + dly dt 1]),
        (⟨x + 40 + 6 * i + 4, x + 9, 10 / (N : K), 1, .V⟩, on (!neg i) [b i + dly dt 1])]))
      (by rw [List.filter_eq_self.mpr (fun s hs => decide_eq_true (hk s hs)), List.map_flatMap]; rfl)
      (by
        intro p hp
        obtain ⟨i, hi, hp⟩ := List.mem_flatMap.mp hp
        have hi := List.mem_range.mp hi
        simp only [List.mem_cons, List.not_mem_nil, or_false] at hp
        rcases hp with rfl | rfl
        · exact (chM i hi 1).2.to _
        · exact (chP i hi 1).2.to _)
    have hev : evs ((List.range N).flatMap (fun i => [((⟨x + 40 + 6 * i + 5, x + 9, 10 / (N : K), 1, .V⟩ : Synapse K), on (neg i) [b i + dly dt 1]),
        (⟨x + 40 + 6 * i + 4, x + 9, 10 / (N : K), 1, .V⟩, on (!neg i) [b i + dly dt 1])])) =
        (List.range N).map (fun i => (b i + dly dt 1, 10 / (N : K))) := by
      unfold evs
      rw [List.flatMap_assoc, List.map_eq_flatMap]
      congr 1
      funext i
      cases neg i <;> simp
    rw [hev] at hE
    have hne : ∀ (k : SynKind), k ≠ .V → InE net dt inj F n (x + 9) k [] := fun k hk' => inE_nil h.sync k (fun s hs e => hk' (by rw [← e]; exact hk s hs))
    refine gather_evs hr (h.std 9 (by simp)) (w := 10 / (N : K)) (by positivity) hE (hne _ (by decide)) (hne _ (by decide)) (hne _ (by decide)) ?_ ?_
      (fun j hj => ⟨by omega, by have := hM j hj; show b j + dly dt 1 ≤ _; omega⟩) ?_
    · rw [← mul_div_assoc, div_lt_iff₀ hNK]
      push_cast [Nat.cast_sub hN]; linarith
    · rw [mul_div_cancel₀ _ hNK.ne']
    · obtain ⟨i, hi, e⟩ := hM'
      exact ⟨i, hi, by show b i + dly dt 1 = _; rw [e]⟩
  have aS := ts.arr1 hdt (h.noinj 9 (by simp)) 1
  have hz : M + dly dt 1 + dly dt 1 = M + 2 * dly dt 1 := by ring
  rw [hz] at aS
  have hw : enc.wacc = (10 * 100 / enc.Tmax : K) := rfl
  have hb : ∀ P : ℕ → Bool, ∀ e ∈ linList dt enc.Tmin N c P a b,
      1 ≤ e.1 ∧ 1 ≤ e.2.1 ∧ e.1 ≤ M + 2 * dly dt 1 ∧ e.2.1 ≤ M + 2 * dly dt 1 ∧ 0 ≤ e.2.2 := by
    intro P e he
    obtain ⟨i, hi, _, rfl⟩ := linList_mem he
    have := hM i hi
    have := hu i hi
    refine ⟨?_, ?_, ?_, ?_, abs_nonneg _⟩
    all_goals (dsimp only; omega)
  have hkge : ∀ (y : ℕ) (f g : ℕ → ℕ), ∀ s ∈ ((⟨x + 9, y, enc.wacc, 1, .ge⟩ : Synapse K) :: (List.range N).flatMap (fun i =>
      [⟨f i, y, -|c i| * enc.wacc, 1, .ge⟩, ⟨g i, y, |c i| * enc.wacc, 1 + enc.Tmin, .ge⟩])), s.kind = .ge := by
    intro y f g s hs
    rcases List.mem_cons.mp hs with rfl | hs
    · rfl
    · obtain ⟨i, _, hs⟩ := List.mem_flatMap.mp hs
      simp only [List.mem_cons, List.not_mem_nil, or_false] at hs
      rcases hs with rfl | rfl <;> rfl
  have acc : ∀ {y : ℕ} {f g : ℕ → ℕ} {P : ℕ → Bool}, IsStd net s0 y → InS net y (⟨x + 9, y, enc.wacc, 1, .ge⟩ :: (List.range N).flatMap (fun i =>
      [⟨f i, y, -|c i| * enc.wacc, 1, .ge⟩, ⟨g i, y, |c i| * enc.wacc, 1 + enc.Tmin, .ge⟩])) →
      (∀ i < N, Arr dt inj F (f i) 1 (on (P i) [b i + dly dt 1])) → (∀ i < N, Arr dt inj F (g i) (1 + enc.Tmin) (on (P i) [a i + dly dt (1 + enc.Tmin)])) →
      linTop (linList dt enc.Tmin N c P a b) * dt < enc.Tmax →
      Train F y [M + 2 * dly dt 1 - 1 + ⌈enc.Tmax / dt - linSum (linList dt enc.Tmin N c P a b)⌉₊] := by
    intro y f g P hs hL hf hg htop
    refine Train.of fun n => ?_
    have hE := inE_of (dt := dt) (inj := inj) (F := F) (n := n) hL .ge
      (((⟨x + 9, y, enc.wacc, 1, .ge⟩ : Synapse K), [M + 2 * dly dt 1]) :: (List.range N).flatMap (fun i =>
        [((⟨f i, y, -|c i| * enc.wacc, 1, .ge⟩ : Synapse K), on (P i) [b i + dly dt 1]),
         ((⟨g i, y, |c i| * enc.wacc, 1 + enc.Tmin, .ge⟩ : Synapse K), on (P i) [a i + dly dt (1 + enc.Tmin)])]))
      (by rw [List.filter_eq_self.mpr (fun s hs => decide_eq_true (hkge y f g s hs)), List.map_cons, List.map_flatMap]; rfl)
      (by
        intro p hp
        rcases List.mem_cons.mp hp with rfl | hp
        · exact aS.to _
        · obtain ⟨i, hi, hp⟩ := List.mem_flatMap.mp hp
          have hi := List.mem_range.mp hi
          simp only [List.mem_cons, List.not_mem_nil, or_false] at hp
          rcases hp with rfl | rfl
          · exact (hf i hi).to _
          · exact (hg i hi).to _)
    refine acc_lin hr hdt hs hL (hkge y f g) hT (by omega) hE ?_ (hb P) htop
    rw [linEvs_list dt enc.wacc enc.Tmin N c P a b rfl, hw]
  have acc2 : ∀ {y : ℕ}, IsStd net s0 y → InS net y [⟨x + 9, y, enc.wacc, 1, .ge⟩] → Train F y [M + 2 * dly dt 1 - 1 + ⌈enc.Tmax / dt⌉₊] := by
    intro y hs hL
    refine Train.of fun n => ?_
    have hE := inE_of (dt := dt) (inj := inj) (F := F) (n := n) hL .ge [(_, [M + 2 * dly dt 1])] (by rfl) (by
      intro q hq; simp at hq; subst hq; exact aS.to _)
    have := acc_lin hr hdt hs hL (by simp) hT (l := []) (z := M + 2 * dly dt 1) (by omega) hE (by simp [evs, linEvs, hw]) (by simp) (by simpa [linTop] using hT)
    simpa [linSum] using this
  refine ⟨acc (h.std 0 (by simp)) h.acc1p ?_ ?_ hP, acc (h.std 1 (by simp)) h.acc1m ?_ ?_ hQ, acc2 (h.core.std 2 (by simp)) (h.core.ins 2 (by simp)),
    acc2 (h.core.std 3 (by simp)) (h.core.ins 3 (by simp)), ts.fires1⟩
  · intro i hi
    by_cases hc : 0 < c i
    · simpa [hc, toPlus] using (chP i hi 1).2
    · simpa [hc, toPlus] using (chM i hi 1).2
  · intro i hi
    by_cases hc : 0 < c i
    · simpa [hc, toPlus] using (chP i hi (1 + enc.Tmin)).1
    · simpa [hc, toPlus] using (chM i hi (1 + enc.Tmin)).1
  · intro i hi
    by_cases hc : 0 < c i
    · simpa [hc, toPlus] using (chM i hi 1).2
    · simpa [hc, toPlus] using (chP i hi 1).2
  · intro i hi
    by_cases hc : 0 < c i
    · simpa [hc, toPlus] using (chM i hi (1 + enc.Tmin)).1
    · simpa [hc, toPlus] using (chP i hi (1 + enc.Tmin)).1

theorem _root_.Axon.Train.eq2 {F : ℕ → ℕ → Bool} {x a b a' b' : ℕ} (h : Train F x [a, b]) (ha : a = a') (hb : b = b') : Train F x [a', b'] := by
  rw [← ha, ← hb]; exact h

/-- The synchronizer inside a linear combinator. -/
theorem LinAt.syncAt (h : LinAt net s0 inj enc x N c) : SyncAt net s0 inj enc (x + 10) 2 := by
  have E := h.core
  have hm : ∀ k, k = 0 ∨ (1 ≤ k ∧ k < 1 + 10 * 2 ∧ k % 10 ≠ 1) → 10 + k ∈ [2, 3, 4, 5, 6, 7, 8, 10, 11, 12, 13, 14, 15, 16, 17, 18, 19, 20, 21, 22, 23, 24, 25, 26, 27, 28, 29,
    30, 31, 32, 33, 34, 35, 36, 37, 38, 39] := by
    intro k hk
    simp only [List.mem_cons, List.not_mem_nil, or_false]
    omega
  refine ⟨fun k hk => ?_, fun k hk => ?_, ?_, ?_, ?_, ?_, ?_⟩
  · rw [Nat.add_assoc]; exact E.std _ (hm k hk)
  · rw [Nat.add_assoc]; exact E.noinj _ (hm k hk)
  · exact (show InS net (x + 10) [⟨x + 29, x + 10, syncW 2, 1, .V⟩, ⟨x + 19, x + 10, syncW 2, 1, .V⟩] from E.ins 10 (by simp)).trans (List.Perm.swap _ _ _)
  · intro j hj
    have : j = 0 ∨ j = 1 := by omega
    rcases this with rfl | rfl
    · exact E.sub 13 (by simp) (by intro k hk; simp at hk; rcases hk with rfl | rfl | rfl | rfl | rfl | rfl <;> rfl)
    · exact E.sub 23 (by simp) (by intro k hk; simp at hk; rcases hk with rfl | rfl | rfl | rfl | rfl | rfl <;> rfl)
  · intro j hj
    have : j = 0 ∨ j = 1 := by omega
    rcases this with rfl | rfl
    · exact E.ins 13 (by simp)
    · exact E.ins 23 (by simp)
  · intro j hj
    have : j = 0 ∨ j = 1 := by omega
    rcases this with rfl | rfl
    · exact E.ins 18 (by simp)
    · exact E.ins 28 (by simp)
  · intro j hj
    have : j = 0 ∨ j = 1 := by omega
    rcases this with rfl | rfl
    · exact E.ins 12 (by simp)
    · exact E.ins 22 (by simp)

/-- The `start` neuron of a linear combinator: it fires once, with the first spike of a result. -/
theorem LinAt.start (hr : IsRun net dt inj s0 S F) (hdt : 0 < dt) (h : LinAt net s0 inj enc x N c) {P M : List ℕ} (pn : P.Nodup) (mn : M.Nodup)
    (hP : Train F (x + 37) P) (hM : Train F (x + 38) M) (h0 : ∃ a b, a + dly dt 1 ≤ b ∧ ((P = [a, b] ∧ M = []) ∨ (P = [] ∧ M = [a, b]))) :
    Fires F (x + 8) 1 := by
  have E := h.core
  have hd := one_le_dly dt (1 : K)
  have i8 : InS net (x + 8) [⟨x + 8, x + 8, -10, 1, .V⟩, ⟨x + 38, x + 8, 10, 1, .V⟩, ⟨x + 37, x + 8, 10, 1, .V⟩] := E.ins 8 (by simp)
  have aP := hP.arr hdt pn (E.noinj 37 (by simp)) (1 : K)
  have aM := hM.arr hdt mn (E.noinj 38 (by simp)) (1 : K)
  obtain ⟨a, b, hab, hPM⟩ := h0
  refine Train.fires1 (a := a + dly dt 1) (Train.of fun n => ?_)
  induction n with
  | zero => intro i hi; rw [show i = 0 by omega, (hr.start _).2]; simp; omega
  | succ n ih =>
    have V := VIn.of (dt := dt) (inj := inj) (F := F) (n := n + 1) i8 [(_, [a + dly dt 1 + dly dt 1]), (_, M.map (· + dly dt (1 : K))), (_, P.map (· + dly dt (1 : K)))]
      [-4, 4, 4] (by rfl) (by simp) (by norm_num) (by
        intro p hp; simp only [List.mem_cons, List.not_mem_nil, or_false] at hp
        rcases hp with rfl | rfl | rfl
        · exact ih.arr hdt (by simp) (E.noinj 8 (by simp)) _
        · exact aM.to _
        · exact aP.to _)
    generalize dly dt (1 : K) = d at *
    rcases hPM with ⟨rfl, rfl⟩ | ⟨rfl, rfl⟩
    · simp only [List.zip_cons_cons, List.zip_nil_right, List.flatMap_cons, List.flatMap_nil, List.map_cons, List.map_nil, List.append_nil, List.cons_append, List.nil_append] at V
      refine V.one hr (E.std 8 (by simp)) (by omega) ?_ ?_ ?_ <;> (intros; vz_omega)
    · simp only [List.zip_cons_cons, List.zip_nil_right, List.flatMap_cons, List.flatMap_nil, List.map_cons, List.map_nil, List.append_nil, List.cons_append, List.nil_append] at V
      refine V.one hr (E.std 8 (by simp)) (by omega) ?_ ?_ ?_ <;> (intros; vz_omega)

/-- How often the neurons of a linear combinator (without the channels) fire; `A`: the positive rail answers, `C`: the negative one,
`B`: the result is positive and not too small. -/
def linFires (A B C : Bool) : List ℕ :=
  [1, 1, 1, 1, 2, 2, bif A then 2 else 0, bif C then 2 else 0, bif A || C then 1 else 0, 1, 1, 2, 2, 2, 1, 1, 1, 1, 1, 1, 2, 2, 2, 2, 1, 1, 1, 1, 1, 1, 2,
   2, 2, 1, 1, bif A then 0 else 1, bif B then 1 else 0, bif A then 2 else 0, bif C then 2 else 0,
   bif A then (bif B then 0 else 1) else (bif C then 0 else 1)]

/-- The second half of a linear combinator: from the accumulators to the output rails. -/
theorem LinAt.back (hr : IsRun net dt inj s0 S F) (hdt : 0 < dt) (hdt' : dt < 1 / 50) (hTm : dt ≤ enc.Tmin) (hT : 0 < enc.Tmax) (h : LinAt net s0 inj enc x N c)
    {p q r : ℕ} (t0 : Train F x [p]) (t1 : Train F (x + 1) [q]) (t2 : Train F (x + 2) [r]) (t3 : Train F (x + 3) [r])
    (hp : p + 2 * dly dt 1 ≤ r + dly dt (1 + enc.Tmin)) (hp' : r + dly dt (1 + enc.Tmin) ≤ p + dly dt 1 + ⌈enc.Tmax / dt⌉₊)
    (hq : q + 2 * dly dt 1 ≤ r + dly dt (1 + enc.Tmin)) (hq' : r + dly dt (1 + enc.Tmin) ≤ q + dly dt 1 + ⌈enc.Tmax / dt⌉₊) {Y : ℕ}
    (hY : Y = max p q + 11 * dly dt 1 + dly dt 2 + ⌈enc.Tmax / dt⌉₊ - 1) :
    Train F (x + 6) (if p ≤ q then [Y + (r + dly dt (1 + enc.Tmin) - q) + dly dt (3 * 1 + 2 * (1 / 100) : K),
      Y + (r + dly dt (1 + enc.Tmin) - p) + dly dt (enc.Tmin + (3 * 1 + 2 * (1 / 100)))] else []) ∧
    Train F (x + 7) (if q + (dly dt (2 * (1 / 100) : K) - dly dt (1 / 100 : K)) ≤ p then [Y + (r + dly dt (1 + enc.Tmin) - p) + dly dt (3 * 1 + 2 * (1 / 100) : K),
      Y + (r + dly dt (1 + enc.Tmin) - q) + dly dt (enc.Tmin + (3 * 1 + 2 * (1 / 100)))] else []) ∧
    (dly dt (3 * 1 + 2 * (1 / 100) : K) + dly dt 1 ≤ dly dt (enc.Tmin + (3 * 1 + 2 * (1 / 100))) →
      (p ≤ q ∨ q + (dly dt (2 * (1 / 100) : K) - dly dt (1 / 100 : K)) ≤ p) → ∀ k, 4 ≤ k → k < 40 → k ≠ 9 → Fires F (x + k) ((linFires (decide (p ≤ q))
      (decide (p + (dly dt (2 * (1 / 100) : K) - dly dt (1 / 100 : K)) ≤ q)) (decide (q + (dly dt (2 * (1 / 100) : K) - dly dt (1 / 100 : K)) ≤ p))).getD k 0)) := by
  have E := h.core
  have hd := one_le_dly dt (1 : K)
  have hD := subDelays (Tmin := enc.Tmin) hdt hdt' hTm
  have t5 : Train F (x + 5) [p + dly dt 1, r + dly dt (1 + enc.Tmin)] :=
    relay2 hr (E.std 5 (by simp)) (le_refl 10) (le_refl 10) (E.ins 5 (by simp)) (t2.arr1 hdt (E.noinj 2 (by simp)) (1 + enc.Tmin))
      (t0.arr1 hdt (h.noinj 0 (by simp)) 1) (by simp; have := one_le_dly dt (1 + enc.Tmin); omega) (by simp; omega) (by intro i; simp; tauto)
  have t4 : Train F (x + 4) [q + dly dt 1, r + dly dt (1 + enc.Tmin)] :=
    relay2 hr (E.std 4 (by simp)) (le_refl 10) (le_refl 10) (E.ins 4 (by simp)) (t3.arr1 hdt (E.noinj 3 (by simp)) (1 + enc.Tmin))
      (t1.arr1 hdt (h.noinj 1 (by simp)) 1) (by simp; have := one_le_dly dt (1 + enc.Tmin); omega) (by simp; omega) (by intro i; simp; tauto)
  have a5 := t5.arr2 hdt (by omega) (E.noinj 5 (by simp)) 1
  have a4 := t4.arr2 hdt (by omega) (E.noinj 4 (by simp)) 1
  have t11 := relay1 hr (E.std 11 (by simp)) (le_refl 10) (E.ins 11 (by simp)) a5 (by simp; omega)
  have t21 := relay1 hr (E.std 21 (by simp)) (le_refl 10) (E.ins 21 (by simp)) a4 (by simp; omega)
  have a11 := t11.arr2 hdt (by omega) (E.noinj 11 (by simp)) 1
  have a21 := t21.arr2 hdt (by omega) (E.noinj 21 (by simp)) 1
  obtain ⟨t10, ch⟩ := sync_core_full hr hdt hT h.syncAt (by norm_num) (by norm_num)
    (a := fun j => if j = 0 then p + dly dt 1 + dly dt 1 + dly dt 1 else q + dly dt 1 + dly dt 1 + dly dt 1)
    (b := fun _ => r + dly dt (1 + enc.Tmin) + dly dt 1 + dly dt 1)
    (by
      intro j hj
      have : j = 0 ∨ j = 1 := by omega
      rcases this with rfl | rfl
      · exact a11
      · exact a21)
    (by intro j _; split_ifs <;> omega) (by intro j _; split_ifs <;> omega) (by intro j _; split_ifs <;> omega)
    (M := max p q + dly dt 1 + dly dt 1 + dly dt 1) (by intro j _; split_ifs <;> omega)
    (by
      rcases le_total p q with h' | h'
      · exact ⟨1, by norm_num, by simp; omega⟩
      · exact ⟨0, by norm_num, by simp; omega⟩)
  have t12 := (ch 0 (by norm_num)).1
  have t22 := (ch 1 (by norm_num)).1
  have f12 := (ch 0 (by norm_num)).2.2
  have f22 := (ch 1 (by norm_num)).2.2
  simp only [Nat.mul_zero, Nat.add_zero, if_true, Nat.mul_one, one_ne_zero, if_false, Nat.add_assoc x] at t12 t22
  norm_num only at t12 t22
  have a12 := t12.arr2 hdt (by omega) (E.noinj 12 (by simp)) 1
  have a22 := t22.arr2 hdt (by omega) (E.noinj 22 (by simp)) 1
  have t31 := relay1 hr (E.std 31 (by simp)) (le_refl 10) (E.ins 31 (by simp)) a12 (by simp; omega)
  have t32 := relay1 hr (E.std 32 (by simp)) (le_refl 10) (E.ins 32 (by simp)) a22 (by simp; omega)
  have a31 := t31.arr2 hdt (by omega) (E.noinj 31 (by simp)) 1
  have a32 := t32.arr2 hdt (by omega) (E.noinj 32 (by simp)) 1
  have ES : Embeds net s0 inj (x + 31) (subSyns enc) [2, 3, 4, 5, 6, 7, 8] :=
    E.sub 31 (by simp) (by intro k hk; simp at hk; rcases hk with rfl | rfl | rfl | rfl | rfl | rfl | rfl <;> rfl)
  obtain ⟨⟨o37, o38⟩, f33, f34, f35, f36, f39⟩ := sub_core_full hr hdt hdt' hTm ES (a1 := Y) (a2 := Y)
    (s1 := Y - dly dt 1 + (r + dly dt (1 + enc.Tmin) - p)) (s2 := Y - dly dt 1 + (r + dly dt (1 + enc.Tmin) - q))
    (by convert a31 using 3 <;> omega) (by convert a32 using 3 <;> omega) (by omega) (by omega) (by omega) (by omega)
  have o37 : Train F (x + 37) _ := o37
  have o38 : Train F (x + 38) _ := o38
  have i6 : InS net (x + 6) [⟨x + 37, x + 6, 10, 1, .V⟩] := E.ins 6 (by simp)
  have i7 : InS net (x + 7) [⟨x + 38, x + 7, 10, 1, .V⟩] := E.ins 7 (by simp)
  have n37 := E.noinj 37 (by simp)
  have n38 := E.noinj 38 (by simp)
  have q6 := hD.h6
  have q2 := hD.h2
  have hYd : dly dt 1 ≤ Y := by omega
  have o6 : Train F (x + 6) (if p ≤ q then [Y + (r + dly dt (1 + enc.Tmin) - q) + dly dt (3 * 1 + 2 * (1 / 100) : K),
      Y + (r + dly dt (1 + enc.Tmin) - p) + dly dt (enc.Tmin + (3 * 1 + 2 * (1 / 100)))] else []) := by
    by_cases hpq : p ≤ q
    · rw [if_pos hpq]
      rw [if_pos (by omega)] at o37
      have := relay1 hr (E.std 6 (by simp)) (le_refl 10) i6 (o37.arr2 hdt (by omega) n37 1) (by simp; omega)
      exact this.eq2 (by omega) (by omega)
    · rw [if_neg hpq]
      rw [if_neg (by omega)] at o37
      exact relay_none hr (E.std 6 (by simp)) i6 (o37.arr0 hdt n37 1)
  have o7 : Train F (x + 7) (if q + (dly dt (2 * (1 / 100) : K) - dly dt (1 / 100 : K)) ≤ p then [Y + (r + dly dt (1 + enc.Tmin) - p) + dly dt (3 * 1 + 2 * (1 / 100) : K),
      Y + (r + dly dt (1 + enc.Tmin) - q) + dly dt (enc.Tmin + (3 * 1 + 2 * (1 / 100)))] else []) := by
    by_cases hpq : q + (dly dt (2 * (1 / 100) : K) - dly dt (1 / 100 : K)) ≤ p
    · rw [if_pos hpq]
      rw [if_pos (by omega)] at o38
      have := relay1 hr (E.std 7 (by simp)) (le_refl 10) i7 (o38.arr2 hdt (by omega) n38 1) (by simp; omega)
      exact this.eq2 (by omega) (by omega)
    · rw [if_neg hpq]
      rw [if_neg (by omega)] at o38
      exact relay_none hr (E.std 7 (by simp)) i7 (o38.arr0 hdt n38 1)
  refine ⟨o6, o7, fun hTd hz => ?_⟩
  have f8 : Fires F (x + 8) 1 := by
    rcases hz with hz | hz
    · rw [if_pos (by omega)] at o37
      rw [if_neg (by omega)] at o38
      refine h.start hr hdt (List.nodup_cons.mpr ⟨?_, List.nodup_singleton _⟩) List.nodup_nil o37 o38 ⟨_, _, by omega, .inl ⟨rfl, rfl⟩⟩
      rw [List.mem_singleton]; omega
    · rw [if_neg (by omega)] at o37
      rw [if_pos (by omega)] at o38
      refine h.start hr hdt List.nodup_nil (List.nodup_cons.mpr ⟨?_, List.nodup_singleton _⟩) o37 o38 ⟨_, _, by omega, .inr ⟨rfl, rfl⟩⟩
      rw [List.mem_singleton]; omega
  have f4 := t4.fires2 (by omega)
  have f5 := t5.fires2 (by omega)
  have f10 : Fires F (x + 10) 1 := t10.fires1
  have f11 := t11.fires2 (by omega)
  have f21 := t21.fires2 (by omega)
  have f31 := t31.fires2 (by omega)
  have f32 := t32.fires2 (by omega)
  have f6 : Fires F (x + 6) (if p ≤ q then 2 else 0) := by
    split_ifs at o6 ⊢
    · exact o6.fires2 (by omega)
    · exact o6.fires0
  have f7 : Fires F (x + 7) (if q + (dly dt (2 * (1 / 100) : K) - dly dt (1 / 100 : K)) ≤ p then 2 else 0) := by
    split_ifs at o7 ⊢
    · exact o7.fires2 (by omega)
    · exact o7.fires0
  have f37 : Fires F (x + 37) (if p ≤ q then 2 else 0) := by
    by_cases hpq : p ≤ q
    · rw [if_pos hpq]; rw [if_pos (by omega)] at o37; exact o37.fires2 (by omega)
    · rw [if_neg hpq]; rw [if_neg (by omega)] at o37; exact o37.fires0
  have f38 : Fires F (x + 38) (if q + (dly dt (2 * (1 / 100) : K) - dly dt (1 / 100 : K)) ≤ p then 2 else 0) := by
    by_cases hpq : q + (dly dt (2 * (1 / 100) : K) - dly dt (1 / 100 : K)) ≤ p
    · rw [if_pos hpq]; rw [if_pos (by omega)] at o38; exact o38.fires2 (by omega)
    · rw [if_neg hpq]; rw [if_neg (by omega)] at o38; exact o38.fires0
  have f33 : Fires F (x + 33) 1 := f33
  have f34 : Fires F (x + 34) 1 := f34
  have f35 : Fires F (x + 35) (if p ≤ q then 0 else 1) := by
    convert f35 using 1; split_ifs <;> omega
  have f36 : Fires F (x + 36) (if p + (dly dt (2 * (1 / 100) : K) - dly dt (1 / 100 : K)) ≤ q then 1 else 0) := by
    convert f36 using 1; split_ifs <;> omega
  have f39 : Fires F (x + 39) (if p ≤ q then (if p + (dly dt (2 * (1 / 100) : K) - dly dt (1 / 100 : K)) ≤ q then 0 else 1) else
      (if q + (dly dt (2 * (1 / 100) : K) - dly dt (1 / 100 : K)) ≤ p then 0 else 1)) := by
    convert f39 using 1; split_ifs <;> omega
  have g12 : ∀ k < 9, Fires F (x + (12 + k)) ([2, 2, 1, 1, 1, 1, 1, 1, 2].getD k 0) := fun k hk => by
    have := f12 k hk; rwa [show x + 10 + 10 * 0 + 2 + k = x + (12 + k) by ring] at this
  have g22 : ∀ k < 9, Fires F (x + (22 + k)) ([2, 2, 1, 1, 1, 1, 1, 1, 2].getD k 0) := fun k hk => by
    have := f22 k hk; rwa [show x + 10 + 10 * 1 + 2 + k = x + (22 + k) by ring] at this
  intro k hk1 hk2 hk3
  generalize dly dt (2 * (1 / 100) : K) - dly dt (1 / 100 : K) = δ at *
  by_cases c12 : 12 ≤ k ∧ k < 21
  · obtain ⟨j, rfl⟩ : ∃ j, k = 12 + j := ⟨k - 12, by omega⟩
    convert g12 j (by omega) using 1
    have : j = 0 ∨ j = 1 ∨ j = 2 ∨ j = 3 ∨ j = 4 ∨ j = 5 ∨ j = 6 ∨ j = 7 ∨ j = 8 := by omega
    rcases this with rfl | rfl | rfl | rfl | rfl | rfl | rfl | rfl | rfl <;> rfl
  by_cases c22 : 22 ≤ k ∧ k < 31
  · obtain ⟨j, rfl⟩ : ∃ j, k = 22 + j := ⟨k - 22, by omega⟩
    convert g22 j (by omega) using 1
    have : j = 0 ∨ j = 1 ∨ j = 2 ∨ j = 3 ∨ j = 4 ∨ j = 5 ∨ j = 6 ∨ j = 7 ∨ j = 8 := by omega
    rcases this with rfl | rfl | rfl | rfl | rfl | rfl | rfl | rfl | rfl <;> rfl
  have : k = 4 ∨ k = 5 ∨ k = 6 ∨ k = 7 ∨ k = 8 ∨ k = 10 ∨ k = 11 ∨ k = 21 ∨ k = 31 ∨ k = 32 ∨ k = 33 ∨ k = 34 ∨ k = 35 ∨ k = 36 ∨ k = 37 ∨ k = 38 ∨ k = 39 := by
    omega
  rcases this with rfl | rfl | rfl | rfl | rfl | rfl | rfl | rfl | rfl | rfl | rfl | rfl | rfl | rfl | rfl | rfl | rfl
  · exact f4
  · exact f5
  · convert f6 using 1; by_cases h1 : p ≤ q <;> simp [linFires, h1]
  · convert f7 using 1; by_cases h1 : q + δ ≤ p <;> simp [linFires, h1]
  · convert f8 using 1
    rcases hz with hz | hz <;> simp [linFires, hz]
  · exact f10
  · exact f11
  · exact f21
  · exact f31
  · exact f32
  · exact f33
  · exact f34
  · convert f35 using 1; by_cases h1 : p ≤ q <;> simp [linFires, h1]
  · convert f36 using 1; by_cases h1 : p + δ ≤ q <;> simp [linFires, h1]
  · convert f37 using 1; by_cases h1 : p ≤ q <;> simp [linFires, h1]
  · convert f38 using 1; by_cases h1 : q + δ ≤ p <;> simp [linFires, h1]
  · convert f39 using 1
    by_cases h1 : p ≤ q <;> by_cases h2 : p + δ ≤ q <;> by_cases h3 : q + δ ≤ p <;> simp [linFires, h1, h2, h3]

theorem linList_sum (dt Tmin : K) (N : ℕ) (c : ℕ → K) (P : ℕ → Bool) (a b : ℕ → ℕ) (g : ℕ × ℕ × K → K) :
    ((linList dt Tmin N c P a b).map g).sum = ∑ i ∈ Finset.range N, if P i then g (a i + dly dt (1 + Tmin), b i + dly dt 1, |c i|) else 0 := by
  induction N with
  | zero => simp [linList]
  | succ N ih =>
    rw [Finset.sum_range_succ, ← ih]
    unfold linList
    rw [List.range_succ, List.flatMap_append, List.map_append, List.sum_append]
    congr 1
    cases hP : P N <;> simp [hP]

/-- Bounds on the charge of one accumulator. -/
theorem lin_bounds {enc : Encoder K} (hdt : 0 < dt) (h1 : 0 < enc.Tmin) {N : ℕ} {c : ℕ → K} {P : ℕ → Bool} {a b : ℕ → ℕ} {v ε : ℕ → K}
    (hI : ∀ i < N, |((b i : K) * dt - (a i : K) * dt) - (enc.Tmin + v i * enc.Tcod)| ≤ ε i) (hv : ∀ i < N, 0 ≤ v i * enc.Tcod) :
    |linSum (linList dt enc.Tmin N c P a b) * dt - (∑ i ∈ Finset.range N, if P i then |c i| * v i else 0) * enc.Tcod| ≤
      ∑ i ∈ Finset.range N, (if P i then |c i| * (ε i + dt) else 0) ∧
    linTop (linList dt enc.Tmin N c P a b) * dt ≤ (∑ i ∈ Finset.range N, if P i then |c i| * v i else 0) * enc.Tcod +
      ∑ i ∈ Finset.range N, (if P i then |c i| * (ε i + dt) else 0) := by
  obtain ⟨d1, d2⟩ := dly_bd hdt (one_pos (α := K))
  obtain ⟨e1, e2⟩ := dly_bd hdt (show 0 < 1 + enc.Tmin by linarith)
  unfold linSum linTop
  rw [linList_sum, linList_sum]
  have hu : ∀ i < N, |(((b i + dly dt 1 : ℕ) : K) - ((a i + dly dt (1 + enc.Tmin) : ℕ) : K)) * dt - v i * enc.Tcod| ≤ ε i + dt := by
    intro i hi
    have := hI i hi
    rw [abs_le] at this ⊢
    push_cast
    constructor <;> linarith
  constructor
  · rw [Finset.sum_mul, Finset.sum_mul, ← Finset.sum_sub_distrib]
    refine (Finset.abs_sum_le_sum_abs _ _).trans (Finset.sum_le_sum fun i hi => ?_)
    cases P i
    · simp
    · simp only [if_true]
      rw [mul_assoc, mul_assoc, ← mul_sub, abs_mul, abs_abs]
      exact mul_le_mul_of_nonneg_left (hu i (Finset.mem_range.mp hi)) (abs_nonneg _)
  · rw [Finset.sum_mul, Finset.sum_mul, ← Finset.sum_add_distrib]
    refine Finset.sum_le_sum fun i hi => ?_
    have hi := Finset.mem_range.mp hi
    cases P i
    · simp
    · simp only [if_true]
      rw [mul_assoc, mul_assoc, ← mul_add]
      refine mul_le_mul_of_nonneg_left ?_ (abs_nonneg _)
      have h := abs_le.mp (hu i hi)
      have h0 : 0 ≤ ε i + dt := (abs_nonneg _).trans (hu i hi)
      rcases le_total (a i + dly dt (1 + enc.Tmin)) (b i + dly dt 1) with h' | h'
      · rw [Nat.cast_sub h']
        linarith
      · rw [Nat.sub_eq_zero_of_le h']
        have := hv i hi
        push_cast; linarith

/-- The value that a channel carries: sign and magnitude. -/
def signed (neg : Bool) (v : K) : K := if neg then -v else v

theorem toPlus_value (c : ℕ → K) (neg : ℕ → Bool) (v : ℕ → K) (i : ℕ) :
    c i * signed (neg i) (v i) = (if toPlus c neg i then |c i| * v i else 0) - (if !toPlus c neg i then |c i| * v i else 0) := by
  unfold toPlus signed
  by_cases hc : 0 < c i
  · rw [abs_of_pos hc]
    cases neg i <;> simp [hc]
  · rw [abs_of_nonpos (not_lt.mp hc)]
    cases neg i <;> simp [hc]

/-- Total error of a linear combinator whose inputs have interval errors `ε i`. -/
def linErr (dt : K) (N : ℕ) (c ε : ℕ → K) : K := ∑ i ∈ Finset.range N, |c i| * (ε i + dt)

theorem ceil_time {dt y : K} (hdt : 0 < dt) (hy : 0 ≤ y) : y ≤ (⌈y / dt⌉₊ : K) * dt ∧ (⌈y / dt⌉₊ : K) * dt < y + dt := by
  have h1 := Nat.le_ceil (y / dt)
  have h2 := Nat.ceil_lt_add_one (show 0 ≤ y / dt by positivity)
  rw [div_le_iff₀ hdt] at h1
  have h3 := mul_lt_mul_of_pos_right h2 hdt
  rw [add_mul, div_mul_cancel₀ _ hdt.ne', one_mul] at h3
  exact ⟨h1, h3⟩

set_option maxHeartbeats 1000000 in
/-- How often the inner neurons of channel `i` fire, if its value is negative (`u`) or not. -/
def LinChan (F : ℕ → ℕ → Bool) (x i : ℕ) (u : Bool) : Prop :=
  Fires F (x + 40 + 6 * i + 2) (bif u then 0 else 1) ∧ Fires F (x + 40 + 6 * i + 3) (bif u then 1 else 0) ∧
  Fires F (x + 40 + 6 * i + 4) (bif u then 0 else 1) ∧ Fires F (x + 40 + 6 * i + 5) (bif u then 1 else 0)

/-- **A linear combinator**, all outcomes: `z` is the number of steps that separate the two accumulators. -/
theorem lin_core_gen_full (hr : IsRun net dt inj s0 S F) (hdt : 0 < dt) (hdt' : dt < 1 / 50) (h2 : 0 < enc.Tcod) (h : LinAt net s0 inj enc x N c) (hN : 1 ≤ N)
    {neg : ℕ → Bool} {a b : ℕ → ℕ}
    (Ip : ∀ i < N, Arr dt inj F (x + 40 + 6 * i) 1 (on (!neg i) [a i, b i])) (Im : ∀ i < N, Arr dt inj F (x + 40 + 6 * i + 1) 1 (on (neg i) [a i, b i]))
    (ha : ∀ i < N, 1 ≤ a i) {M : ℕ} (hM : ∀ i < N, b i ≤ M) (hM' : ∃ i < N, b i = M) {v ε : ℕ → K}
    (hI : ∀ i < N, |((b i : K) * dt - (a i : K) * dt) - (enc.Tmin + v i * enc.Tcod)| ≤ ε i) (hv : ∀ i < N, 0 ≤ v i)
    (hε : ∀ i < N, ε i ≤ 1) (hε' : ∀ i < N, 1 + dt + ε i ≤ enc.Tmin) (hη : 1 + linErr dt N c ε + 2 * dt ≤ enc.Tmin)
    (hP : (∑ i ∈ Finset.range N, if toPlus c neg i then |c i| * v i else 0) * enc.Tcod + linErr dt N c ε ≤ enc.Tcod)
    (hQ : (∑ i ∈ Finset.range N, if !toPlus c neg i then |c i| * v i else 0) * enc.Tcod + linErr dt N c ε ≤ enc.Tcod) {y : K}
    (hy : y = ∑ i ∈ Finset.range N, c i * signed (neg i) (v i)) :
    (∀ i < N, LinChan F x i (neg i)) ∧
    ∃ z : ℤ, |(z : K) * dt - y * enc.Tcod| < linErr dt N c ε + dt ∧
      (0 ≤ z → ∃ p q, Train F (x + 6) [p, q] ∧ Train F (x + 7) [] ∧ 1 ≤ p ∧ p < q ∧
        |((q : K) * dt - (p : K) * dt) - (enc.Tmin + y * enc.Tcod)| ≤ linErr dt N c ε + 2 * dt ∧
        (q : K) * dt ≤ (M : K) * dt + 3 * enc.Tmax + 2 * enc.Tmin + 19 + 16 * dt ∧
        ∃ B, ∀ k < 40, Fires F (x + k) ((linFires true B false).getD k 0)) ∧
      (z + ((dly dt (2 * (1 / 100) : K) - dly dt (1 / 100 : K) : ℕ) : ℤ) ≤ 0 → ∃ p q, Train F (x + 6) [] ∧ Train F (x + 7) [p, q] ∧ 1 ≤ p ∧ p < q ∧
        |((q : K) * dt - (p : K) * dt) - (enc.Tmin - y * enc.Tcod)| ≤ linErr dt N c ε + 2 * dt ∧
        (q : K) * dt ≤ (M : K) * dt + 3 * enc.Tmax + 2 * enc.Tmin + 19 + 16 * dt ∧
        ∀ k < 40, Fires F (x + k) ((linFires false false true).getD k 0)) ∧
      (z < 0 → 0 < z + ((dly dt (2 * (1 / 100) : K) - dly dt (1 / 100 : K) : ℕ) : ℤ) → Train F (x + 6) [] ∧ Train F (x + 7) []) := by
  have hε0 : ∀ i < N, 0 ≤ ε i := fun i hi => (abs_nonneg _).trans (hI i hi)
  have hη0 : 0 ≤ linErr dt N c ε := Finset.sum_nonneg fun i hi => mul_nonneg (abs_nonneg _) (by have := hε0 i (Finset.mem_range.mp hi); linarith)
  have h1 : 1 < enc.Tmin := by linarith
  have hT : 0 < enc.Tmax := by unfold Encoder.Tmax; linarith
  have hTe : enc.Tmax = enc.Tmin + enc.Tcod := rfl
  obtain ⟨d1, d2⟩ := dly_bd hdt (one_pos (α := K))
  obtain ⟨e1, e2⟩ := dly_bd hdt (two_pos (α := K))
  obtain ⟨f1, f2⟩ := dly_bd hdt (show 0 < 1 + enc.Tmin by linarith)
  obtain ⟨g1, g2⟩ := dly_bd hdt (show (0 : K) < 3 * 1 + 2 * (1 / 100) by norm_num)
  obtain ⟨g3, g4⟩ := dly_bd hdt (show (0 : K) < enc.Tmin + (3 * 1 + 2 * (1 / 100)) by linarith)
  obtain ⟨m1, m2⟩ := dly_bd hdt (show (0 : K) < 1 / 100 by norm_num)
  obtain ⟨m3, m4⟩ := dly_bd hdt (show (0 : K) < 2 * (1 / 100) by norm_num)
  have hD := subDelays (Tmin := enc.Tmin) hdt hdt' (by linarith)
  have hvT : ∀ i < N, 0 ≤ v i * enc.Tcod := fun i hi => mul_nonneg (hv i hi) h2.le
  have hab : ∀ i < N, a i + dly dt 1 ≤ b i := by
    intro i hi
    have := abs_le.mp (hI i hi)
    have := hε' i hi
    have := hvT i hi
    refine step_le hdt ?_
    push_cast; linarith
  have hu : ∀ i < N, a i + dly dt (1 + enc.Tmin) ≤ b i + 2 * dly dt 1 := by
    intro i hi
    have := abs_le.mp (hI i hi)
    have := hε i hi
    have := hvT i hi
    refine step_le hdt ?_
    push_cast; linarith
  obtain ⟨bp1, bp2⟩ := lin_bounds hdt (by linarith) (P := toPlus c neg) (c := c) hI hvT
  obtain ⟨bq1, bq2⟩ := lin_bounds hdt (by linarith) (P := fun i => !toPlus c neg i) (c := c) hI hvT
  have hsplit : (∑ i ∈ Finset.range N, (if toPlus c neg i then |c i| * (ε i + dt) else 0)) +
      (∑ i ∈ Finset.range N, (if !toPlus c neg i then |c i| * (ε i + dt) else 0)) = linErr dt N c ε := by
    rw [← Finset.sum_add_distrib]
    refine Finset.sum_congr rfl fun i _ => ?_
    cases toPlus c neg i <;> simp
  have hnp : 0 ≤ ∑ i ∈ Finset.range N, (if toPlus c neg i then |c i| * (ε i + dt) else 0) :=
    Finset.sum_nonneg fun i hi => by
      have := hε0 i (Finset.mem_range.mp hi)
      split_ifs
      · positivity
      · exact le_rfl
  have hnq : 0 ≤ ∑ i ∈ Finset.range N, (if !toPlus c neg i then |c i| * (ε i + dt) else 0) :=
    Finset.sum_nonneg fun i hi => by
      have := hε0 i (Finset.mem_range.mp hi)
      split_ifs
      · positivity
      · exact le_rfl
  have hye : y = (∑ i ∈ Finset.range N, if toPlus c neg i then |c i| * v i else 0) - (∑ i ∈ Finset.range N, if !toPlus c neg i then |c i| * v i else 0) := by
    rw [hy, ← Finset.sum_sub_distrib]
    exact Finset.sum_congr rfl fun i _ => toPlus_value c neg v i
  have hPn : 0 ≤ (∑ i ∈ Finset.range N, if toPlus c neg i then |c i| * v i else 0) * enc.Tcod :=
    mul_nonneg (Finset.sum_nonneg fun i hi => by
      have := hv i (Finset.mem_range.mp hi)
      split_ifs
      · positivity
      · exact le_rfl) h2.le
  have hQn : 0 ≤ (∑ i ∈ Finset.range N, if !toPlus c neg i then |c i| * v i else 0) * enc.Tcod :=
    mul_nonneg (Finset.sum_nonneg fun i hi => by
      have := hv i (Finset.mem_range.mp hi)
      split_ifs
      · positivity
      · exact le_rfl) h2.le
  obtain ⟨t0, t1, t2, t3, f9⟩ := h.front hr hdt hT hN Ip Im ha hab hu hM hM' (by linarith) (by linarith)
  generalize (∑ i ∈ Finset.range N, if toPlus c neg i then |c i| * v i else 0) = P at *
  generalize (∑ i ∈ Finset.range N, if !toPlus c neg i then |c i| * v i else 0) = Q at *
  generalize (∑ i ∈ Finset.range N, (if toPlus c neg i then |c i| * (ε i + dt) else 0)) = ηp at *
  generalize (∑ i ∈ Finset.range N, (if !toPlus c neg i then |c i| * (ε i + dt) else 0)) = ηq at *
  generalize linSum (linList dt enc.Tmin N c (toPlus c neg) a b) = U at *
  generalize linSum (linList dt enc.Tmin N c (fun i => !toPlus c neg i) a b) = W at *
  generalize linErr dt N c ε = η at *
  rw [abs_le] at bp1 bq1
  have cU := ceil_time hdt (show 0 ≤ enc.Tmax - U * dt by linarith)
  have cW := ceil_time hdt (show 0 ≤ enc.Tmax - W * dt by linarith)
  have cT := ceil_time hdt hT.le
  rw [sub_div, mul_div_cancel_right₀ _ hdt.ne'] at cU cW
  generalize ⌈enc.Tmax / dt - U⌉₊ = CU at *
  generalize ⌈enc.Tmax / dt - W⌉₊ = CW at *
  have hd := one_le_dly dt (1 : K)
  have k1 : CU + 2 * dly dt 1 ≤ ⌈enc.Tmax / dt⌉₊ + dly dt (1 + enc.Tmin) := by
    refine step_le hdt ?_
    push_cast; linarith
  have k2 : CW + 2 * dly dt 1 ≤ ⌈enc.Tmax / dt⌉₊ + dly dt (1 + enc.Tmin) := by
    refine step_le hdt ?_
    push_cast; linarith
  have k3 : dly dt (1 + enc.Tmin) ≤ CU + dly dt 1 := by
    refine step_le hdt ?_
    push_cast; linarith
  have k4 : dly dt (1 + enc.Tmin) ≤ CW + dly dt 1 := by
    refine step_le hdt ?_
    push_cast; linarith
  obtain ⟨o6, o7, fb⟩ := h.back hr hdt hdt' (by linarith) hT t0 t1 t2 t3 (by omega) (by omega) (by omega) (by omega) rfl
  have hyT : y * enc.Tcod = P * enc.Tcod - Q * enc.Tcod := by rw [hye]; ring
  have hq2 := hD.h2
  have hq6 := hD.h6
  generalize ⌈enc.Tmax / dt⌉₊ = C at *
  have kU : 1 ≤ CU + dly dt 1 := by omega
  have hTd : dly dt (3 * 1 + 2 * (1 / 100) : K) + dly dt 1 ≤ dly dt (enc.Tmin + (3 * 1 + 2 * (1 / 100))) := by
    refine step_le hdt ?_
    push_cast; linarith
  have fr : ∀ A B C k, k < 40 → ((4 ≤ k → k < 40 → k ≠ 9 → Fires F (x + k) ((linFires A B C).getD k 0))) → Fires F (x + k) ((linFires A B C).getD k 0) := by
    intro A B C k hk hf
    by_cases hk' : 4 ≤ k ∧ k ≠ 9
    · exact hf hk'.1 hk hk'.2
    · have : k = 0 ∨ k = 1 ∨ k = 2 ∨ k = 3 ∨ k = 9 := by omega
      rcases this with rfl | rfl | rfl | rfl | rfl
      exacts [t0.fires1, t1.fires1, t2.fires1, t3.fires1, f9]
  refine ⟨fun i hi => ?_, (CW : ℤ) - CU, ?_, ?_, ?_, ?_⟩
  · obtain ⟨c1, c2⟩ := h.chan_fires hr hdt hi (k := 0) (by norm_num) (Ip i hi) (ha i hi) (hab i hi)
    obtain ⟨c3, c4⟩ := h.chan_fires hr hdt hi (k := 1) (by norm_num) (Im i hi) (ha i hi) (hab i hi)
    unfold LinChan
    cases hn : neg i <;> rw [hn] at c1 c2 c3 c4 <;> exact ⟨c1, c3, c2, c4⟩
  · push_cast
    rw [abs_lt]
    constructor <;> linarith
  · intro hz
    rw [if_pos (by omega)] at o6
    rw [if_neg (by omega)] at o7
    refine ⟨_, _, o6, o7, by omega, by omega, ?_, ?_, decide (M + 2 * dly dt 1 - 1 + CU + (dly dt (2 * (1 / 100) : K) - dly dt (1 / 100 : K)) ≤ M + 2 * dly dt 1 - 1 + CW), fun k hk => ?_⟩
    rotate_left 2
    · have := fb hTd (by omega) k
      rw [decide_eq_true (show M + 2 * dly dt 1 - 1 + CU ≤ M + 2 * dly dt 1 - 1 + CW by omega),
        decide_eq_false (show ¬ M + 2 * dly dt 1 - 1 + CW + _ ≤ M + 2 * dly dt 1 - 1 + CU by omega)] at this
      exact fr _ _ _ k hk this
    · have e1 : ∀ Y a b c d p q : ℕ, p ≤ a + b → q ≤ a + b → (((Y + (a + b - p) + d : ℕ) : K) * dt - ((Y + (a + b - q) + c : ℕ) : K) * dt) =
          (q : K) * dt - p * dt + (d * dt - c * dt) := by
        intro Y a b c d p q h1 h2
        push_cast [Nat.cast_sub h1, Nat.cast_sub h2]; ring
      rw [e1 _ _ _ _ _ _ _ (by omega) (by omega), abs_le]
      push_cast
      constructor <;> linarith
    · have : max (M + 2 * dly dt 1 - 1 + CU) (M + 2 * dly dt 1 - 1 + CW) + 11 * dly dt 1 + dly dt 2 + C - 1 +
          (M + 2 * dly dt 1 - 1 + C + dly dt (1 + enc.Tmin) - (M + 2 * dly dt 1 - 1 + CU)) + dly dt (enc.Tmin + (3 * 1 + 2 * (1 / 100))) + 2 ≤
          M + 3 * C + 12 * dly dt 1 + dly dt 2 + dly dt (1 + enc.Tmin) + dly dt (enc.Tmin + (3 * 1 + 2 * (1 / 100))) := by omega
      have this := mul_le_mul_of_nonneg_right (Nat.cast_le (α := K).mpr this) hdt.le
      generalize max (M + 2 * dly dt 1 - 1 + CU) (M + 2 * dly dt 1 - 1 + CW) + 11 * dly dt 1 + dly dt 2 + C - 1 +
          (M + 2 * dly dt 1 - 1 + C + dly dt (1 + enc.Tmin) - (M + 2 * dly dt 1 - 1 + CU)) + dly dt (enc.Tmin + (3 * 1 + 2 * (1 / 100))) = Z at *
      push_cast at this
      linarith
  · intro hz
    have hle : CW + (dly dt (2 * (1 / 100) : K) - dly dt (1 / 100 : K)) ≤ CU := by omega
    rw [if_neg (by omega)] at o6
    rw [if_pos (by omega)] at o7
    refine ⟨_, _, o6, o7, by omega, by omega, ?_, ?_, fun k hk => ?_⟩
    rotate_left 2
    · have := fb hTd (by omega) k
      rw [decide_eq_false (show ¬ M + 2 * dly dt 1 - 1 + CU ≤ M + 2 * dly dt 1 - 1 + CW by omega),
        decide_eq_false (show ¬ M + 2 * dly dt 1 - 1 + CU + (dly dt (2 * (1 / 100) : K) - dly dt (1 / 100 : K)) ≤ M + 2 * dly dt 1 - 1 + CW by omega),
        decide_eq_true (show M + 2 * dly dt 1 - 1 + CW + _ ≤ M + 2 * dly dt 1 - 1 + CU by omega)] at this
      exact fr _ _ _ k hk this
    · have e1 : ∀ Y a b c d p q : ℕ, p ≤ a + b → q ≤ a + b → (((Y + (a + b - p) + d : ℕ) : K) * dt - ((Y + (a + b - q) + c : ℕ) : K) * dt) =
          (q : K) * dt - p * dt + (d * dt - c * dt) := by
        intro Y a b c d p q h1 h2
        push_cast [Nat.cast_sub h1, Nat.cast_sub h2]; ring
      rw [e1 _ _ _ _ _ _ _ (by omega) (by omega), abs_le]
      push_cast
      constructor <;> linarith
    · have : max (M + 2 * dly dt 1 - 1 + CU) (M + 2 * dly dt 1 - 1 + CW) + 11 * dly dt 1 + dly dt 2 + C - 1 +
          (M + 2 * dly dt 1 - 1 + C + dly dt (1 + enc.Tmin) - (M + 2 * dly dt 1 - 1 + CW)) + dly dt (enc.Tmin + (3 * 1 + 2 * (1 / 100))) + 2 ≤
          M + 3 * C + 12 * dly dt 1 + dly dt 2 + dly dt (1 + enc.Tmin) + dly dt (enc.Tmin + (3 * 1 + 2 * (1 / 100))) := by omega
      have this := mul_le_mul_of_nonneg_right (Nat.cast_le (α := K).mpr this) hdt.le
      generalize max (M + 2 * dly dt 1 - 1 + CU) (M + 2 * dly dt 1 - 1 + CW) + 11 * dly dt 1 + dly dt 2 + C - 1 +
          (M + 2 * dly dt 1 - 1 + C + dly dt (1 + enc.Tmin) - (M + 2 * dly dt 1 - 1 + CW)) + dly dt (enc.Tmin + (3 * 1 + 2 * (1 / 100))) = Z at *
      push_cast at this
      linarith
  · intro hz hz'
    rw [if_neg (by omega)] at o6
    rw [if_neg (by omega)] at o7
    exact ⟨o6, o7⟩

/-- **A linear combinator**, all outcomes: `z` is the number of steps that separate the two accumulators. -/
theorem lin_core_gen (hr : IsRun net dt inj s0 S F) (hdt : 0 < dt) (hdt' : dt < 1 / 50) (h2 : 0 < enc.Tcod) (h : LinAt net s0 inj enc x N c) (hN : 1 ≤ N)
    {neg : ℕ → Bool} {a b : ℕ → ℕ}
    (Ip : ∀ i < N, Arr dt inj F (x + 40 + 6 * i) 1 (on (!neg i) [a i, b i])) (Im : ∀ i < N, Arr dt inj F (x + 40 + 6 * i + 1) 1 (on (neg i) [a i, b i]))
    (ha : ∀ i < N, 1 ≤ a i) {M : ℕ} (hM : ∀ i < N, b i ≤ M) (hM' : ∃ i < N, b i = M) {v ε : ℕ → K}
    (hI : ∀ i < N, |((b i : K) * dt - (a i : K) * dt) - (enc.Tmin + v i * enc.Tcod)| ≤ ε i) (hv : ∀ i < N, 0 ≤ v i)
    (hε : ∀ i < N, ε i ≤ 1) (hε' : ∀ i < N, 1 + dt + ε i ≤ enc.Tmin) (hη : 1 + linErr dt N c ε + 2 * dt ≤ enc.Tmin)
    (hP : (∑ i ∈ Finset.range N, if toPlus c neg i then |c i| * v i else 0) * enc.Tcod + linErr dt N c ε ≤ enc.Tcod)
    (hQ : (∑ i ∈ Finset.range N, if !toPlus c neg i then |c i| * v i else 0) * enc.Tcod + linErr dt N c ε ≤ enc.Tcod) {y : K}
    (hy : y = ∑ i ∈ Finset.range N, c i * signed (neg i) (v i)) :
    ∃ z : ℤ, |(z : K) * dt - y * enc.Tcod| < linErr dt N c ε + dt ∧
      (0 ≤ z → ∃ p q, Train F (x + 6) [p, q] ∧ Train F (x + 7) [] ∧ 1 ≤ p ∧ p < q ∧
        |((q : K) * dt - (p : K) * dt) - (enc.Tmin + y * enc.Tcod)| ≤ linErr dt N c ε + 2 * dt ∧
        (q : K) * dt ≤ (M : K) * dt + 3 * enc.Tmax + 2 * enc.Tmin + 19 + 16 * dt) ∧
      (z + ((dly dt (2 * (1 / 100) : K) - dly dt (1 / 100 : K) : ℕ) : ℤ) ≤ 0 → ∃ p q, Train F (x + 6) [] ∧ Train F (x + 7) [p, q] ∧ 1 ≤ p ∧ p < q ∧
        |((q : K) * dt - (p : K) * dt) - (enc.Tmin - y * enc.Tcod)| ≤ linErr dt N c ε + 2 * dt ∧
        (q : K) * dt ≤ (M : K) * dt + 3 * enc.Tmax + 2 * enc.Tmin + 19 + 16 * dt) ∧
      (z < 0 → 0 < z + ((dly dt (2 * (1 / 100) : K) - dly dt (1 / 100 : K) : ℕ) : ℤ) → Train F (x + 6) [] ∧ Train F (x + 7) []) := by
  obtain ⟨-, z, hz, hp, hm, hq⟩ := lin_core_gen_full hr hdt hdt' h2 h hN Ip Im ha hM hM' hI hv hε hε' hη hP hQ hy
  refine ⟨z, hz, fun h => ?_, fun h => ?_, hq⟩
  · obtain ⟨p, q, h1, h2, h3, h4, h5, h6, -⟩ := hp h
    exact ⟨p, q, h1, h2, h3, h4, h5, h6⟩
  · obtain ⟨p, q, h1, h2, h3, h4, h5, h6, -⟩ := hm h
    exact ⟨p, q, h1, h2, h3, h4, h5, h6⟩

/-- **A linear combinator**: the rails carry the linear combination of the values on the channels, if that is not close to zero. -/
theorem lin_core_full (hr : IsRun net dt inj s0 S F) (hdt : 0 < dt) (hdt' : dt < 1 / 50) (h2 : 0 < enc.Tcod) (h : LinAt net s0 inj enc x N c) (hN : 1 ≤ N)
    {neg : ℕ → Bool} {a b : ℕ → ℕ}
    (Ip : ∀ i < N, Arr dt inj F (x + 40 + 6 * i) 1 (on (!neg i) [a i, b i])) (Im : ∀ i < N, Arr dt inj F (x + 40 + 6 * i + 1) 1 (on (neg i) [a i, b i]))
    (ha : ∀ i < N, 1 ≤ a i) {M : ℕ} (hM : ∀ i < N, b i ≤ M) (hM' : ∃ i < N, b i = M) {v ε : ℕ → K}
    (hI : ∀ i < N, |((b i : K) * dt - (a i : K) * dt) - (enc.Tmin + v i * enc.Tcod)| ≤ ε i) (hv : ∀ i < N, 0 ≤ v i)
    (hε : ∀ i < N, ε i ≤ 1) (hε' : ∀ i < N, 1 + dt + ε i ≤ enc.Tmin) (hη : 1 + linErr dt N c ε + 2 * dt ≤ enc.Tmin)
    (hP : (∑ i ∈ Finset.range N, if toPlus c neg i then |c i| * v i else 0) * enc.Tcod + linErr dt N c ε ≤ enc.Tcod)
    (hQ : (∑ i ∈ Finset.range N, if !toPlus c neg i then |c i| * v i else 0) * enc.Tcod + linErr dt N c ε ≤ enc.Tcod) {y : K}
    (hy : y = ∑ i ∈ Finset.range N, c i * signed (neg i) (v i))
    (hyz : linErr dt N c ε ≤ y * enc.Tcod ∨ y * enc.Tcod + linErr dt N c ε + 1 / 100 + dt ≤ 0) :
    ∃ p q, Train F (x + 6) (on (!decide (y < 0)) [p, q]) ∧ Train F (x + 7) (on (decide (y < 0)) [p, q]) ∧ 1 ≤ p ∧ p < q ∧
      |((q : K) * dt - (p : K) * dt) - (enc.Tmin + |y| * enc.Tcod)| ≤ linErr dt N c ε + 2 * dt ∧
      (q : K) * dt ≤ (M : K) * dt + 3 * enc.Tmax + 2 * enc.Tmin + 19 + 16 * dt ∧
      (∀ i < N, LinChan F x i (neg i)) ∧
      ∃ B, (y < 0 → B = false) ∧ ∀ k < 40, Fires F (x + k) ((linFires (!decide (y < 0)) B (decide (y < 0))).getD k 0) := by
  obtain ⟨hch, z, hz, hp, hm, -⟩ := lin_core_gen_full hr hdt hdt' h2 h hN Ip Im ha hM hM' hI hv hε hε' hη hP hQ hy
  rw [abs_lt] at hz
  obtain ⟨m1, m2⟩ := dly_bd hdt (show (0 : K) < 1 / 100 by norm_num)
  obtain ⟨m3, m4⟩ := dly_bd hdt (show (0 : K) < 2 * (1 / 100) by norm_num)
  have hη0 : 0 ≤ linErr dt N c ε := Finset.sum_nonneg fun i hi => mul_nonneg (abs_nonneg _) (by
    have := (abs_nonneg _).trans (hI i (Finset.mem_range.mp hi)); linarith)
  rcases hyz with hyz | hyz
  · have hy0 : ¬ y < 0 := fun hc => by
      have : y * enc.Tcod < 0 := mul_neg_of_neg_of_pos hc h2
      linarith
    obtain ⟨p, q, o1, o2, o3, o4, o5, o6, B, o7⟩ := hp (by
      have : (-1 : K) < z := by
        by_contra hc
        have := mul_le_mul_of_nonneg_right (not_lt.mp hc) hdt.le
        linarith
      have : (-1 : ℤ) < z := by exact_mod_cast this
      omega)
    rw [abs_of_nonneg (not_lt.mp hy0)]
    simp only [hy0, decide_false, Bool.not_false, on_true, on_false]
    exact ⟨p, q, o1, o2, o3, o4, o5, o6, hch, B, fun h => h.elim, o7⟩
  · have hy0 : y < 0 := by
      by_contra hc
      have : 0 ≤ y * enc.Tcod := mul_nonneg (not_lt.mp hc) h2.le
      linarith
    have hq2 := (subDelays (Tmin := enc.Tmin) hdt hdt' (by linarith)).h2
    obtain ⟨p, q, o1, o2, o3, o4, o5, o6, o7⟩ := hm (by
      have : (z : K) + ((dly dt (2 * (1 / 100) : K) - dly dt (1 / 100 : K) : ℕ) : K) < 1 := by
        by_contra hc
        have := mul_le_mul_of_nonneg_right (not_lt.mp hc) hdt.le
        push_cast [Nat.cast_sub hq2.le] at this
        linarith
      have : z + ((dly dt (2 * (1 / 100) : K) - dly dt (1 / 100 : K) : ℕ) : ℤ) < 1 := by exact_mod_cast this
      omega)
    rw [abs_of_neg hy0]
    simp only [hy0, decide_true, Bool.not_true, on_true, on_false]
    rw [neg_mul, ← sub_eq_add_neg]
    exact ⟨p, q, o1, o2, o3, o4, o5, o6, hch, false, fun _ => rfl, o7⟩

/-- **A linear combinator**: the rails carry the linear combination of the values on the channels, if that is not close to zero. -/
theorem lin_core (hr : IsRun net dt inj s0 S F) (hdt : 0 < dt) (hdt' : dt < 1 / 50) (h2 : 0 < enc.Tcod) (h : LinAt net s0 inj enc x N c) (hN : 1 ≤ N)
    {neg : ℕ → Bool} {a b : ℕ → ℕ}
    (Ip : ∀ i < N, Arr dt inj F (x + 40 + 6 * i) 1 (on (!neg i) [a i, b i])) (Im : ∀ i < N, Arr dt inj F (x + 40 + 6 * i + 1) 1 (on (neg i) [a i, b i]))
    (ha : ∀ i < N, 1 ≤ a i) {M : ℕ} (hM : ∀ i < N, b i ≤ M) (hM' : ∃ i < N, b i = M) {v ε : ℕ → K}
    (hI : ∀ i < N, |((b i : K) * dt - (a i : K) * dt) - (enc.Tmin + v i * enc.Tcod)| ≤ ε i) (hv : ∀ i < N, 0 ≤ v i)
    (hε : ∀ i < N, ε i ≤ 1) (hε' : ∀ i < N, 1 + dt + ε i ≤ enc.Tmin) (hη : 1 + linErr dt N c ε + 2 * dt ≤ enc.Tmin)
    (hP : (∑ i ∈ Finset.range N, if toPlus c neg i then |c i| * v i else 0) * enc.Tcod + linErr dt N c ε ≤ enc.Tcod)
    (hQ : (∑ i ∈ Finset.range N, if !toPlus c neg i then |c i| * v i else 0) * enc.Tcod + linErr dt N c ε ≤ enc.Tcod) {y : K}
    (hy : y = ∑ i ∈ Finset.range N, c i * signed (neg i) (v i))
    (hyz : linErr dt N c ε ≤ y * enc.Tcod ∨ y * enc.Tcod + linErr dt N c ε + 1 / 100 + dt ≤ 0) :
    ∃ p q, Train F (x + 6) (on (!decide (y < 0)) [p, q]) ∧ Train F (x + 7) (on (decide (y < 0)) [p, q]) ∧ 1 ≤ p ∧ p < q ∧
      |((q : K) * dt - (p : K) * dt) - (enc.Tmin + |y| * enc.Tcod)| ≤ linErr dt N c ε + 2 * dt ∧
      (q : K) * dt ≤ (M : K) * dt + 3 * enc.Tmax + 2 * enc.Tmin + 19 + 16 * dt := by
  obtain ⟨p, q, h1, h2, h3, h4, h5, h6, -⟩ := lin_core_full hr hdt hdt' h2 h hN Ip Im ha hM hM' hI hv hε hε' hη hP hQ hy hyz
  exact ⟨p, q, h1, h2, h3, h4, h5, h6⟩

end run
end Axon
