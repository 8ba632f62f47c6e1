import Verif.Proofs.Train
import Verif.Proofs.Blocks
import Mathlib.Tactic.FinCases
import Mathlib.Tactic.IntervalCases

/-! # Embedded blocks of synapses and common gadgets of the network library -/
set_option linter.unusedSectionVars false
namespace Axon
open Spec
variable {K : Type*} [Field K] [LinearOrder K] [IsStrictOrderedRing K] [FloorRing K]

/-- The synapses of a block leading to its neuron number `k`. -/
def insOf (offs : List (Synapse K)) (k : ℕ) : List (Synapse K) := offs.filter (fun s => s.post = k)

/-- The block of synapses `offs` (numbered from 0) sits in the network at base `b`: each of its neurons
listed in `I` is a fresh library neuron that nobody injects into and that has exactly the incoming
synapses of the block. -/
structure Embeds (net : Net K) (s0 : ℕ → NState K) (inj : List (ℕ × K)) (b : ℕ) (offs : List (Synapse K))
    (I : List ℕ) : Prop where
  std : ∀ k ∈ I, IsStd net s0 (b + k)
  noinj : ∀ k ∈ I, injTimes inj (b + k) = []
  ins : ∀ k ∈ I, InS net (b + k) ((insOf offs k).map (Synapse.shift b))

theorem Embeds.sub {net : Net K} {s0} {inj} {b : ℕ} {big : List (Synapse K)} {I : List ℕ}
    (h : Embeds net s0 inj b big I) (o : ℕ) {small : List (Synapse K)} {J : List ℕ}
    (hJ : ∀ k ∈ J, o + k ∈ I)
    (hf : ∀ k ∈ J, insOf big (o + k) = (insOf small k).map (Synapse.shift o)) :
    Embeds net s0 inj (b + o) small J := by
  refine ⟨?_, ?_, ?_⟩
  · intro k hk; rw [Nat.add_assoc]; exact h.std _ (hJ k hk)
  · intro k hk; rw [Nat.add_assoc]; exact h.noinj _ (hJ k hk)
  · intro k hk
    have := h.ins _ (hJ k hk)
    rw [hf k hk, List.map_map] at this
    rw [Nat.add_assoc]
    refine this.trans (List.Perm.of_eq ?_)
    apply List.map_congr_left
    intro s _
    simp [Synapse.shift, Nat.add_assoc]

/-- A network consisting of one block. -/
theorem Embeds.whole {w : World K} {ns : List ℕ} {s0 : ℕ → NState K} {inj : List (ℕ × K)} {I : List ℕ}
    (h : ∀ k ∈ I, IsStd (w.net ns) s0 k) (hi : ∀ k ∈ I, injTimes inj k = []) :
    Embeds (w.net ns) s0 inj 0 w.syns I := by
  refine ⟨fun k hk => by rw [Nat.zero_add]; exact h k hk, fun k hk => by rw [Nat.zero_add]; exact hi k hk, ?_⟩
  intro k hk
  have e : (insOf w.syns k).map (Synapse.shift 0) = insOf w.syns k := by
    rw [show (Synapse.shift 0 : Synapse K → Synapse K) = id from by
      funext s; simp [Synapse.shift]]
    simp
  rw [e, Nat.zero_add]
  exact (List.reverse_perm w.syns).filter _

section run
variable {net : Net K} {dt : K} {inj : List (ℕ × K)} {s0 : ℕ → NState K} {S : ℕ → ℕ → NState K}
  {F : ℕ → ℕ → Bool}

/-- No synapse of type `k` leads to `x`. -/
theorem inE_nil {x n : ℕ} {L : List (Synapse K)} (h : InS net x L) (k : SynKind)
    (hL : ∀ s ∈ L, s.kind ≠ k) : InE net dt inj F n x k [] := by
  have := inE_of (dt := dt) (inj := inj) (F := F) (n := n) h k []
    (by simpa [List.filter_eq_nil_iff] using hL) (by simp)
  exact this

/-- A neuron all of whose inputs are V events, each step bringing 0 or at least `Vt`, fires exactly in
the steps with input. -/
theorem relay_train (hr : IsRun net dt inj s0 S F) {x n : ℕ} (hx : IsStd net s0 x) {L : List (Synapse K)}
    (hL : InS net x L) (hV : ∀ s ∈ L, s.kind = .V) {E : List (ℕ × K)} (hE : InE net dt inj F n x .V E)
    (hw : ∀ e ∈ E, 10 ≤ e.2 ∧ 1 ≤ e.1) {T : List ℕ} (hT : ∀ i, i ∈ T ↔ i ∈ E.map (·.1)) :
    TrainTo F n x T := by
  have hne : ∀ (k : SynKind), k ≠ .V → ∀ s ∈ L, s.kind ≠ k := by
    intro k hk s hs h; exact hk (h ▸ hV s hs)
  have hin : ∀ i, evAt E i = 0 ∧ i ∉ T ∨ 10 ≤ evAt E i ∧ i ∈ T := by
    intro i
    rw [hT]
    clear hT hE
    induction E with
    | nil => left; simp [evAt]
    | cons e E ih =>
      have ih' := ih (fun e' h' => hw e' (by simp [h']))
      have he := hw e (by simp)
      simp only [evAt, List.map_cons, List.sum_cons, List.mem_cons] at ih' ⊢
      by_cases h : e.1 = i
      · right
        rw [if_pos h]
        refine ⟨?_, Or.inl h.symm⟩
        rcases ih' with h' | h' <;> linarith [h'.1, he.1]
      · rw [if_neg h, zero_add]
        rcases ih' with h' | h'
        · left; exact ⟨h'.1, fun h2 => by
            rcases h2 with h2 | h2
            · exact h h2.symm
            · exact h'.2 h2⟩
        · right; exact ⟨h'.1, Or.inr h'.2⟩
  have h0 : 0 ∉ T := by
    rw [hT]; intro h
    obtain ⟨e, he, h1⟩ := List.mem_map.mp h
    have := (hw e he).2
    omega
  have key : ∀ i ≤ n, (F i x = true ↔ i ∈ T) ∧ S i x = ⟨0, 0, 0, 0⟩ := by
    intro i
    induction i with
    | zero =>
      intro _
      rw [(hr.start x).1, (hr.start x).2, hx.fresh]
      simp [h0]
    | succ i ih =>
      intro hi
      have hstep := hr.step i x hx.mem
      rw [hx.par, (ih (by omega)).2] at hstep
      simp only [nstep, stdPar, hE (i + 1) hi, inE_nil hL .ge (hne _ (by decide)) (i + 1) hi,
        inE_nil hL .gf (hne _ (by decide)) (i + 1) hi, inE_nil hL .gate (hne _ (by decide)) (i + 1) hi, evAt_nil,
        add_zero, mul_zero, zero_div, zero_add] at hstep
      rcases hin (i + 1) with ⟨h1, h2⟩ | ⟨h1, h2⟩
      · rw [h1, if_neg (by norm_num)] at hstep
        have := Prod.mk.inj hstep
        rw [this.1, this.2]
        simp [h2]
      · rw [if_pos h1] at hstep
        have := Prod.mk.inj hstep
        rw [this.1, this.2]
        simp [h2]
  exact fun i hi => (key i hi).1

/-- Relay with a single excitatory synapse. -/
theorem relay1 (hr : IsRun net dt inj s0 S F) {x p : ℕ} {D w : K} (hx : IsStd net s0 x) (hw : 10 ≤ w)
    (hL : InS net x [⟨p, x, w, D, .V⟩]) {A : List ℕ} (hA : Arr dt inj F p D A) (h1 : ∀ a ∈ A, 1 ≤ a) :
    Train F x A := by
  refine Train.of fun n => ?_
  refine relay_train hr hx hL (by simp) (inE_of hL .V [(⟨p, x, w, D, .V⟩, A)] (by simp) ?_) ?_ ?_
  · intro q hq; simp at hq; subst hq; exact hA.to n
  · intro e he
    simp only [evs, List.flatMap_cons, List.flatMap_nil, List.append_nil, List.mem_map] at he
    obtain ⟨a, ha, rfl⟩ := he
    exact ⟨hw, h1 a ha⟩
  · intro i; simp [evs]

/-- Relay with two excitatory synapses. -/
theorem relay2 (hr : IsRun net dt inj s0 S F) {x p q : ℕ} {D D' w w' : K} (hx : IsStd net s0 x) (hw : 10 ≤ w)
    (hw' : 10 ≤ w') (hL : InS net x [⟨p, x, w, D, .V⟩, ⟨q, x, w', D', .V⟩]) {A B : List ℕ}
    (hA : Arr dt inj F p D A) (hB : Arr dt inj F q D' B) (h1 : ∀ a ∈ A, 1 ≤ a) (h2 : ∀ a ∈ B, 1 ≤ a)
    {T : List ℕ} (hT : ∀ i, i ∈ T ↔ i ∈ A ∨ i ∈ B) :
    Train F x T := by
  refine Train.of fun n => ?_
  refine relay_train hr hx hL (by simp)
    (inE_of hL .V [(⟨p, x, w, D, .V⟩, A), (⟨q, x, w', D', .V⟩, B)] (by simp) ?_) ?_ ?_
  · intro r hr; simp at hr
    rcases hr with rfl | rfl
    · exact hA.to n
    · exact hB.to n
  · intro e he
    simp only [evs, List.flatMap_cons, List.flatMap_nil, List.append_nil, List.mem_append, List.mem_map] at he
    rcases he with ⟨a, ha, rfl⟩ | ⟨a, ha, rfl⟩
    · exact ⟨hw, h1 a ha⟩
    · exact ⟨hw', h2 a ha⟩
  · intro i; simp [evs, hT]

/-- A neuron without incoming synapses is silent. -/
theorem silent (hr : IsRun net dt inj s0 S F) {x : ℕ} (hx : IsStd net s0 x) (hL : InS net x []) :
    Train F x [] := by
  refine Train.of fun n => relay_train hr hx hL (by simp) (E := []) (inE_nil hL _ (by simp)) (by simp) (by simp)

/-- A neuron outside the simulated network is silent. -/
theorem silent_out (hr : IsRun net dt inj s0 S F) {x : ℕ} (hx : x ∉ net.neurons) : Train F x [] := by
  intro i; simp [(hr.outside i x hx).2]

/-- Unfolds `Phi` on explicit event lists. -/
theorem Phi_V (dt : K) (E : List (ℕ × K)) (lo i : ℕ) :
    Phi dt 100 E [] lo i = (E.map (fun e => if lo < e.1 ∧ e.1 ≤ i then e.2 else 0)).sum := by
  simp [Phi]

/-- The `first` gadget: driven by `inp`, inhibiting itself; fires only on the first of two spikes. -/
theorem first_train (hr : IsRun net dt inj s0 S F) (hdt : 0 < dt) {x p : ℕ} (hx : IsStd net s0 x)
    (hni : injTimes inj x = []) (hL : InS net x [⟨x, x, -10, 1, .V⟩, ⟨p, x, 10, 1, .V⟩]) {a b : ℕ}
    (hA : Arr dt inj F p 1 [a, b]) (ha : 1 ≤ a) (hab : a + dly dt 1 ≤ b) : Train F x [a] := by
  have hd := one_le_dly dt (1 : K)
  refine Train.of fun n => ?_
  induction n with
  | zero => intro i hi; rw [show i = 0 by omega, (hr.start x).2]; simp; omega
  | succ n ih =>
    have hself := ih.arr hdt (by simp) hni (1 : K)
    refine train_one hr hx (inE_of hL .V [(_, [a + dly dt 1]), (_, [a, b])] (by rfl) ?_)
      (inE_nil hL .ge (by simp)) (inE_nil hL .gf (by simp)) (inE_nil hL .gate (by simp)) ha ?_ ?_ ?_
    · intro q hq; simp at hq
      rcases hq with rfl | rfl
      · exact hself
      · exact hA.to _
    · intro i h1 h2
      simp only [evs, List.flatMap_cons, List.flatMap_nil, List.map_cons, List.map_nil, List.append_nil,
        List.cons_append, List.nil_append, Phi_V, List.sum_cons, List.sum_nil]
      rw [if_neg (by omega), if_neg (by omega), if_neg (by omega)]
      norm_num
    · simp only [evs, List.flatMap_cons, List.flatMap_nil, List.map_cons, List.map_nil, List.append_nil,
        List.cons_append, List.nil_append, Phi_V, List.sum_cons, List.sum_nil]
      rw [if_neg (by omega), if_pos (by omega), if_neg (by omega)]
      norm_num
    · intro i h1
      simp only [evs, List.flatMap_cons, List.flatMap_nil, List.map_cons, List.map_nil, List.append_nil,
        List.cons_append, List.nil_append, Phi_V, List.sum_cons, List.sum_nil]
      split_ifs <;> first | omega | norm_num

/-- The `last` gadget: two half-threshold events; fires on the second. -/
theorem last_train (hr : IsRun net dt inj s0 S F) {x p : ℕ} {D w : K} (hw : w = 5) (hx : IsStd net s0 x)
    (hL : InS net x [⟨p, x, w, D, .V⟩]) {a b : ℕ}
    (hA : Arr dt inj F p D [a, b]) (ha : 1 ≤ a) (hab : a ≤ b) : Train F x [b] := by
  subst hw
  refine Train.of fun n => ?_
  refine train_one hr hx (inE_of hL .V [(_, [a, b])] (by rfl) ?_)
    (inE_nil hL .ge (by simp)) (inE_nil hL .gf (by simp)) (inE_nil hL .gate (by simp)) (by omega) ?_ ?_ ?_
  · intro q hq; simp at hq; subst hq; exact hA.to _
  all_goals
    intros
    simp only [evs, List.flatMap_cons, List.flatMap_nil, List.map_cons, List.map_nil, List.append_nil,
      Phi_V, List.sum_cons, List.sum_nil]
    split_ifs <;> first | omega | norm_num

end run
end Axon
