import Verif.Spec.EndToEnd
import Verif.Proofs.Placed
import Verif.Props.LinComb
import Mathlib.Data.List.GetD

/-! # The modules of a compiled program compute -/
set_option linter.unusedSectionVars false
namespace Axon
open Spec
variable {K : Type*} [Field K] [LinearOrder K] [IsStrictOrderedRing K] [FloorRing K]

/-- The rails `hd` show the number `x` by time `D`, up to `ε`: seen by a reader behind a wire, and in the log. -/
def NodeOK (r dt : K) (inj : List (ℕ × K)) (F : ℕ → ℕ → Bool) (hd : Header) (x ε D : K) : Prop :=
  ∃ (neg : Bool), signed neg |x| = x ∧
    (∃ a b : ℕ, Arr dt inj F hd.plus 1 (on (!neg) [a, b]) ∧ Arr dt inj F hd.minus 1 (on neg [a, b]) ∧ 1 ≤ a ∧ a < b ∧
      |((b : K) * dt - (a : K) * dt) - (10 + |x| / r * 100)| ≤ ε ∧ (b : K) * dt ≤ D) ∧
    ∃ s t : K, |(t - s) - (10 + |x| / r * 100)| ≤ ε ∧ ∀ T, D ≤ T →
      injTimes inj hd.plus ++ emitted dt F (numSteps T dt) hd.plus = (if neg then [] else [s, t]) ∧
      injTimes inj hd.minus ++ emitted dt F (numSteps T dt) hd.minus = (if neg then [s, t] else [])

/-- The first part of `NodeOK`, with its witnesses. -/
structure NodeIn (r dt : K) (inj : List (ℕ × K)) (F : ℕ → ℕ → Bool) (hd : Header) (x ε D : K) (neg : Bool) (a b : ℕ) : Prop where
  plus : Arr dt inj F hd.plus 1 (on (!neg) [a, b])
  minus : Arr dt inj F hd.minus 1 (on neg [a, b])
  one : 1 ≤ a
  lt : a < b
  err : |((b : K) * dt - (a : K) * dt) - (10 + |x| / r * 100)| ≤ ε
  time : (b : K) * dt ≤ D

theorem NodeOK.in {r dt : K} {inj : List (ℕ × K)} {F : ℕ → ℕ → Bool} {hd : Header} {x ε D : K} (h : NodeOK r dt inj F hd x ε D) :
    ∃ neg a b, NodeIn r dt inj F hd x ε D neg a b := by
  obtain ⟨neg, -, ⟨a, b, h1, h2, h3, h4, h5, h6⟩, -⟩ := h
  exact ⟨neg, a, b, ⟨h1, h2, h3, h4, h5, h6⟩⟩

theorem emitted_none {dt : K} {F : ℕ → ℕ → Bool} {x N : ℕ} (h : Train F x []) : emitted dt F N x = [] := by
  simpa using emitted_of_train (dt := dt) h List.Pairwise.nil (N := N) (by simp)

theorem NodeOK.of_trains {r dt : K} (hdt : 0 < dt) {inj : List (ℕ × K)} {F : ℕ → ℕ → Bool} {hd : Header} {x ε D : K} {neg : Bool}
    (hneg : signed neg |x| = x) {p q : ℕ} (Tp : Train F hd.plus (on (!neg) [p, q])) (Tm : Train F hd.minus (on neg [p, q]))
    (ip : injTimes inj hd.plus = []) (im : injTimes inj hd.minus = []) (hp : 1 ≤ p) (hpq : p < q)
    (herr : |((q : K) * dt - (p : K) * dt) - (10 + |x| / r * 100)| ≤ ε) (hD : (q : K) * dt + 1 + dt ≤ D) :
    NodeOK r dt inj F hd x ε D := by
  obtain ⟨d1, d2⟩ := dly_bd hdt (one_pos (α := K))
  refine ⟨neg, hneg, ⟨p + dly dt 1, q + dly dt 1, ?_, ?_, by omega, by omega, ?_, ?_⟩, (p : K) * dt, (q : K) * dt, herr, ?_⟩
  · cases neg
    · exact Train.arr2 hdt Tp hpq ip 1
    · exact Train.arr0 hdt Tp ip 1
  · cases neg
    · exact Train.arr0 hdt Tm im 1
    · exact Train.arr2 hdt Tm hpq im 1
  · push_cast; rwa [show ((q : K) + dly dt (1 : K)) * dt - (p + dly dt (1 : K)) * dt = q * dt - p * dt by ring]
  · push_cast; linarith
  · intro T hT
    have hq : q ≤ numSteps T dt := le_numSteps hdt (by linarith)
    have two : ∀ y, Train F y [p, q] → emitted dt F (numSteps T dt) y = [(p : K) * dt, (q : K) * dt] := fun y hy => by
      have := emitted_of_train (dt := dt) hy (by simp [hpq]) (N := numSteps T dt) (by intro i hi; simp at hi; omega)
      simpa using this
    rw [ip, im, List.nil_append, List.nil_append]
    cases neg
    · exact ⟨two _ Tp, emitted_none Tm⟩
    · exact ⟨emitted_none Tp, two _ Tm⟩

/-- The neurons `a, …, a + n - 1` fire as often as a list with the property `P` says. -/
def BlockFires (F : ℕ → ℕ → Bool) (a n : ℕ) (P : List ℕ → Prop) : Prop :=
  ∃ l : List ℕ, l.length = n ∧ P l ∧ ∀ k < n, Fires F (a + k) (l.getD k 0)

/-- How often the neurons of a sign flipper fire; `m`: the operand is negative. -/
def negFires (m : Bool) : List ℕ := [bif !m then 2 else 0, bif m then 2 else 0, bif m then 2 else 0, bif !m then 2 else 0]

/-- How often the neurons of an adder fire; `A`: the result is not negative, `B`: it is positive and not too small, `m₁`, `m₂`: the operands are negative. -/
def addFires (A B m₁ m₂ : Bool) : List ℕ := linFires A B (!A) ++
    [bif !m₁ then 2 else 0, bif m₁ then 2 else 0, bif m₁ then 0 else 1, bif m₁ then 1 else 0, bif m₁ then 0 else 1, bif m₁ then 1 else 0,
     bif !m₂ then 2 else 0, bif m₂ then 2 else 0, bif m₂ then 0 else 1, bif m₂ then 1 else 0, bif m₂ then 0 else 1, bif m₂ then 1 else 0]

/-- How often the neurons of the module of an operation fire (injected spikes not counted). -/
def OpFires : OpType → List ℕ → Prop
  | .load, l => l = [0, 0]
  | .neg, l => ∃ m, l = negFires m
  | .add, l => ∃ A B m₁ m₂, (B = true → A = true) ∧ l = addFires A B m₁ m₂
  | .mul, l => ∃ m₁ m₂, l = smulnFires m₁ m₂
  | _, _ => False

/-- A run of a loaded compiled program. -/
structure CRun (h : SHeap K) (root : ℕ) (r dt : K) (w' : World K) (plan : Plan K) (L : Layout) (ns : List ℕ) (s0 : ℕ → NState K)
    (S : ℕ → ℕ → NState K) (F : ℕ → ℕ → Bool) : Prop where
  faith : Faithful h root r World.empty w' plan L
  good : ∀ v ∈ L.nodes, GoodNode h v
  run : IsRun (w'.net ns) dt (loadSpikes defaultEncoder h r L) s0 S F
  std : ∀ v ∈ L.nodes, ∀ k < (spawnEmpty (h.op v) r).2.neus.length, IsStd (w'.net ns) s0 (L.off v + k)

section
variable {h : SHeap K} {root : ℕ} {r dt : K} {w' : World K} {plan : Plan K} {L : Layout} {ns : List ℕ} {s0 : ℕ → NState K}
    {S : ℕ → ℕ → NState K} {F : ℕ → ℕ → Bool}

/-- The rails a module's input gets from an operand. -/
theorem CRun.feed (C : CRun h root r dt w' plan L ns s0 S F) (hdt : 0 < dt) {u : ℕ} {a b : ℕ} (ha : 1 ≤ a) (hab : a < b) {neg : Bool}
    {x y : ℕ} (Ix : InS (w'.net ns) x [⟨(L.out u).plus, x, 10, 1, .V⟩]) (Iy : InS (w'.net ns) y [⟨(L.out u).minus, y, 10, 1, .V⟩])
    (sx : IsStd (w'.net ns) s0 x) (sy : IsStd (w'.net ns) s0 y) (nx : injTimes (loadSpikes defaultEncoder h r L) x = [])
    (ny : injTimes (loadSpikes defaultEncoder h r L) y = [])
    (Ap : Arr dt (loadSpikes defaultEncoder h r L) F (L.out u).plus 1 (on (!neg) [a, b]))
    (Am : Arr dt (loadSpikes defaultEncoder h r L) F (L.out u).minus 1 (on neg [a, b])) :
    Arr dt (loadSpikes defaultEncoder h r L) F x 1 (on (!neg) [a + dly dt 1, b + dly dt 1]) ∧
    Arr dt (loadSpikes defaultEncoder h r L) F y 1 (on neg [a + dly dt 1, b + dly dt 1]) := by
  have tx := relay1 C.run sx le_rfl Ix Ap (by intro c hc; cases neg <;> simp [on] at hc; omega)
  have ty := relay1 C.run sy le_rfl Iy Am (by intro c hc; cases neg <;> simp [on] at hc; omega)
  cases neg
  · exact ⟨Train.arr2 hdt tx hab nx 1, Train.arr0 hdt ty ny 1⟩
  · exact ⟨Train.arr0 hdt tx nx 1, Train.arr2 hdt ty hab ny 1⟩

theorem CRun.noinj (C : CRun h root r dt w' plan L ns s0 S F) {v : ℕ} (hv : v ∈ L.nodes) (hop : h.op v ≠ .load) {k : ℕ}
    (hk : k < (spawnEmpty (h.op v) r).2.neus.length) : injTimes (loadSpikes defaultEncoder h r L) (L.off v + k) = [] := by
  rw [placed_inj C.faith C.good defaultEncoder hv hk, if_neg (fun h => hop h.1)]

theorem signed_neg_abs {neg : Bool} {x : K} (h : signed neg |x| = x) : signed (!neg) |-x| = -x := by
  rw [abs_neg]; unfold signed at *
  cases neg
  · simp only [Bool.not_false, if_true, Bool.false_eq_true, if_false] at h ⊢; rw [h]
  · simp only [Bool.not_true, if_true, Bool.false_eq_true, if_false] at h ⊢; linarith

/-- A loaded value. -/
theorem CRun.load_full (C : CRun h root r dt w' plan L ns s0 S F) (hr : 0 < r) (hdt : 0 < dt) (hdt' : dt ≤ 10) {v : ℕ} (hv : v ∈ L.nodes)
    (hop : h.op v = .load) (hx : |h.data v| ≤ r) {ε D : K} (hε : dt ≤ ε) (hD : 111 + dt ≤ D) :
    NodeOK r dt (loadSpikes defaultEncoder h r L) F (L.out v) (h.data v) ε D ∧
      BlockFires F (L.off v) 2 (OpFires .load) := by
  have hlen : (spawnEmpty (h.op v) r).2.neus.length = 2 := by rw [hop]; rfl
  have hout : L.out v = ⟨L.off v + 0, L.off v + 1⟩ := by rw [C.faith.outCopy v hv, hop]; rfl
  have hprev : h.prev v = [] := by
    have := (C.good v hv).2; rw [hop] at this; exact List.length_eq_zero_iff.mp this
  have I : ∀ k < 2, InS (w'.net ns) (L.off v + k) [] := by
    intro k hk
    have := placed_inner (ns := ns) C.faith C.good hv (k := k) (by omega) (by rw [hprev]; simp)
    rw [hop] at this
    exact this
  have t : ∀ k < 2, Train F (L.off v + k) [] := fun k hk => silent C.run (C.std v hv k (by omega)) (I k hk)
  have hT : (10 : K) + |h.data v| / r * 100 = 0 + (defaultEncoder : Encoder K).Tmin + |h.data v| / r * (defaultEncoder : Encoder K).Tcod := by
    simp [defaultEncoder]
  have h1 : |h.data v| / r ≤ 1 := (div_le_one hr).mpr hx
  have h0 : 0 ≤ |h.data v| / r := by positivity
  obtain ⟨v1, v2, v3, -, v5⟩ := value_arr hdt (enc := (defaultEncoder : Encoder K)) (v := |h.data v| / r) (t0 := 0) (by simp [defaultEncoder])
    (by simp [defaultEncoder]) (by simpa [defaultEncoder] using hdt') h0 le_rfl
  rw [← hT] at v2 v3 v5
  have hinj : ∀ k < 2, injTimes (loadSpikes defaultEncoder h r L) (L.off v + k) =
      if (if 0 ≤ h.data v then 0 else 1) = k then [0, 10 + |h.data v| / r * 100] else [] := by
    intro k hk
    rw [placed_inj C.faith C.good defaultEncoder hv (by omega), hout]
    by_cases hs : 0 ≤ h.data v
    · by_cases hk0 : 0 = k
      · subst hk0; simp [hop, hs, defaultEncoder]
      · simp [hop, hs, hk0, show ¬ k = 0 from fun e => hk0 e.symm]
    · by_cases hk0 : 1 = k
      · subst hk0; simp [hop, hs, defaultEncoder]
      · simp [hop, hs, hk0]
  have arr : ∀ k < 2, Arr dt (loadSpikes defaultEncoder h r L) F (L.off v + k) 1
      (if (if 0 ≤ h.data v then 0 else 1) = k then [arrInj dt 0 1, arrInj dt (10 + |h.data v| / r * 100) 1] else []) := by
    intro k hk
    have := (t k hk).arr_inj (inj := loadSpikes defaultEncoder h r L) hdt 1
    rw [hinj k hk] at this
    by_cases hc : (if 0 ≤ h.data v then 0 else 1) = k
    · rw [if_pos hc] at this ⊢; exact this
    · rw [if_neg hc] at this ⊢; exact this
  have a0 := arr 0 (by omega)
  have a1 := arr 1 (by omega)
  have i0 := hinj 0 (by omega)
  have i1 := hinj 1 (by omega)
  have e : ∀ {y N}, Train F y [] → emitted dt F N y = [] := fun h => emitted_none h
  refine ⟨?_, [0, 0], rfl, rfl, fun k hk => by
    have := (t k hk).fires0
    interval_cases k <;> exact this⟩
  rw [hout]
  refine ⟨decide (h.data v < 0), signed_abs _, ⟨arrInj dt 0 1, arrInj dt (10 + |h.data v| / r * 100) 1, ?_, ?_, v1, v2, ?_, ?_⟩, 0,
    10 + |h.data v| / r * 100, ?_, ?_⟩
  · by_cases hs : 0 ≤ h.data v
    · simp only [hs, not_lt.mpr hs, if_true, decide_false, Bool.not_false, on_true] at a0 ⊢; exact a0
    · simp only [hs, not_le.mp hs, if_false, decide_true, Bool.not_true, on_false] at a0 ⊢
      rw [if_neg (by omega)] at a0; exact a0
  · by_cases hs : 0 ≤ h.data v
    · simp only [hs, not_lt.mpr hs, if_true, decide_false, on_false] at a1 ⊢
      rw [if_neg (by omega)] at a1; exact a1
    · simp only [hs, not_le.mp hs, if_false, if_true, decide_true, on_true] at a1 ⊢; exact a1
  · have := v3.le; simp only [defaultEncoder] at this ⊢; linarith
  · linarith
  · simp only [sub_zero, sub_self, abs_zero]; linarith
  · intro T _
    simp only [i0, i1, e (t 0 (by omega)), e (t 1 (by omega)), List.append_nil]
    by_cases hs : 0 ≤ h.data v
    · simp [hs, not_lt.mpr hs]
    · simp [hs, not_le.mp hs]

theorem CRun.load (C : CRun h root r dt w' plan L ns s0 S F) (hr : 0 < r) (hdt : 0 < dt) (hdt' : dt ≤ 10) {v : ℕ} (hv : v ∈ L.nodes)
    (hop : h.op v = .load) (hx : |h.data v| ≤ r) {ε D : K} (hε : dt ≤ ε) (hD : 111 + dt ≤ D) :
    NodeOK r dt (loadSpikes defaultEncoder h r L) F (L.out v) (h.data v) ε D :=
  (C.load_full hr hdt hdt' hv hop hx hε hD).1

/-- A negation. -/
theorem CRun.neg_full (C : CRun h root r dt w' plan L ns s0 S F) (hdt : 0 < dt) {u v : ℕ} (hv : v ∈ L.nodes)
    (hop : h.op v = .neg) (hp : h.prev v = [u]) {x ε D D' : K} (hu : NodeOK r dt (loadSpikes defaultEncoder h r L) F (L.out u) x ε D)
    (hD : D + 2 + 2 * dt ≤ D') :
    NodeOK r dt (loadSpikes defaultEncoder h r L) F (L.out v) (-x) ε D' ∧
      BlockFires F (L.off v) 4 (OpFires .neg) := by
  have hlen : (spawnEmpty (h.op v) r).2.neus.length = 4 := by rw [hop]; rfl
  have hout : L.out v = ⟨L.off v + 2, L.off v + 3⟩ := by rw [C.faith.outCopy v hv, hop]; rfl
  have hinp : L.inp v 0 = ⟨L.off v + 0, L.off v + 1⟩ := by
    rw [(inp_at C.faith hv (C.good v hv) (k := 0) (by rw [hp]; simp)).1, hop]; rfl
  have I : ∀ k < 4, _ := fun k hk => placed_ins (ns := ns) C.faith C.good hv (k := k) (by omega)
  have n : ∀ k < 4, _ := fun k hk => C.noinj hv (by rw [hop]; simp) (k := k) (by omega)
  have st : ∀ k < 4, _ := fun k hk => C.std v hv k (by omega)
  rw [hop, hp] at I
  simp only [List.zipIdx_cons, List.zipIdx_nil, List.flatMap_cons, List.flatMap_nil, List.append_nil, hinp, wire] at I
  have e0 : insOf (spawnEmpty .neg r).2.syns 0 = [] := rfl
  have e1 : insOf (spawnEmpty .neg r).2.syns 1 = [] := rfl
  have e2 : insOf (spawnEmpty .neg r).2.syns 2 = [⟨1, 2, 10, 1, .V⟩] := rfl
  have e3 : insOf (spawnEmpty .neg r).2.syns 3 = [⟨0, 3, 10, 1, .V⟩] := rfl
  have I0 : InS (w'.net ns) (L.off v + 0) [⟨(L.out u).plus, L.off v + 0, 10, 1, .V⟩] := by
    simpa [e0, Synapse.shift] using I 0 (by omega)
  have I1 : InS (w'.net ns) (L.off v + 1) [⟨(L.out u).minus, L.off v + 1, 10, 1, .V⟩] := by
    simpa [e1, Synapse.shift] using I 1 (by omega)
  have I2 : InS (w'.net ns) (L.off v + 2) [⟨L.off v + 1, L.off v + 2, 10, 1, .V⟩] := by
    simpa [e2, Synapse.shift] using I 2 (by omega)
  have I3 : InS (w'.net ns) (L.off v + 3) [⟨L.off v + 0, L.off v + 3, 10, 1, .V⟩] := by
    simpa [e3, Synapse.shift] using I 3 (by omega)
  obtain ⟨neg, hneg, ⟨a, b, Ap, Am, ha, hab, herr, hb⟩, -⟩ := hu
  obtain ⟨d1, d2⟩ := dly_bd hdt (one_pos (α := K))
  obtain ⟨A0, A1⟩ := C.feed hdt ha hab I0 I1 (st 0 (by omega)) (st 1 (by omega)) (n 0 (by omega)) (n 1 (by omega)) Ap Am
  have t2 := relay1 C.run (st 2 (by omega)) le_rfl I2 A1 (by intro c hc; cases neg <;> simp [on] at hc; omega)
  have t3 := relay1 C.run (st 3 (by omega)) le_rfl I3 A0 (by intro c hc; cases neg <;> simp [on] at hc; omega)
  refine ⟨?_, negFires neg, rfl, ⟨neg, rfl⟩, fun k hk => ?_⟩
  swap
  · have f0 := Fires.of_arr2 hdt (n 0 (by omega)) hab A0
    have f1 := Fires.of_arr2 hdt (n 1 (by omega)) hab A1
    have f2 : Fires F (L.off v + 2) (bif neg then 2 else 0) := by
      cases neg
      · exact Train.fires0 t2
      · exact Train.fires2 t2 (by omega)
    have f3 : Fires F (L.off v + 3) (bif !neg then 2 else 0) := by
      cases neg
      · exact Train.fires2 t3 (by omega)
      · exact Train.fires0 t3
    interval_cases k
    · exact f0
    · exact f1
    · exact f2
    · exact f3
  rw [hout]
  refine NodeOK.of_trains hdt (signed_neg_abs hneg) (p := a + dly dt 1) (q := b + dly dt 1) (by simpa using t2) t3 (n 2 (by omega)) (n 3 (by omega))
    (by omega) (by omega) ?_ ?_
  · push_cast
    rwa [show ((b : K) + dly dt (1 : K)) * dt - (a + dly dt (1 : K)) * dt = b * dt - a * dt by ring, abs_neg]
  · push_cast; linarith

theorem CRun.neg (C : CRun h root r dt w' plan L ns s0 S F) (hdt : 0 < dt) {u v : ℕ} (hv : v ∈ L.nodes)
    (hop : h.op v = .neg) (hp : h.prev v = [u]) {x ε D D' : K} (hu : NodeOK r dt (loadSpikes defaultEncoder h r L) F (L.out u) x ε D)
    (hD : D + 2 + 2 * dt ≤ D') :
    NodeOK r dt (loadSpikes defaultEncoder h r L) F (L.out v) (-x) ε D' :=
  (C.neg_full hdt hv hop hp hu hD).1

theorem unsign {neg : Bool} {x r : K} (hr : 0 < r) (h : signed neg |x| = x) : signed neg (|x| / r) = x / r := by
  rw [← h]; unfold signed; cases neg <;> simp [neg_div]

theorem addTerm (neg : Bool) {x r : K} (hr : 0 < r) (h : signed neg |x| = x) :
    (if toPlus (fun _ => (1 : K)) (fun _ => neg) 0 then |(1 : K)| * (|x| / r) else 0) = max x 0 / r ∧
    (if !toPlus (fun _ => (1 : K)) (fun _ => neg) 0 then |(1 : K)| * (|x| / r) else 0) = max (-x) 0 / r := by
  unfold toPlus signed at *
  cases neg
  · simp only [Bool.false_eq_true, if_false] at h
    have h0 : 0 ≤ x := by rw [← h]; exact abs_nonneg x
    simp [abs_of_nonneg h0, max_eq_left h0, max_eq_right (neg_nonpos.mpr h0)]
  · simp only [if_true] at h
    have h0 : x ≤ 0 := by rw [← h]; exact neg_nonpos.mpr (abs_nonneg x)
    simp [abs_of_nonpos h0, max_eq_right h0, max_eq_left (neg_nonneg.mpr h0)]

theorem adder_syns (e : Encoder K) (n) : (adderNetwork' e n World.empty).2.syns = linSyns e 2 (fun i => ([1, 1] : List K).getD i 0) 2 := by
  rw [← adder_eq]
  exact (lin_spec e .adder n [1, 1]).2.1

theorem adder_len (e : Encoder K) (n) : (adderNetwork' e n World.empty).2.neus.length = 52 := by
  rw [← adder_eq]
  exact (lin_spec e .adder n [1, 1]).1.len

/-- The facts on the adder module. -/
theorem add_block (r : K) : (spawnEmpty .add r).1 = ⟨0, [⟨40, 41⟩, ⟨46, 47⟩], ⟨6, 7⟩⟩ ∧ (spawnEmpty .add r).2.neus.length = 52 ∧
    (spawnEmpty .add r).2.syns = linSyns defaultEncoder 2 (fun i => ([1, 1] : List K).getD i 0) 2 := by
  have e := spawnEmpty_add (K := K) r
  have a := adder_len (K := K) defaultEncoder (some "adder_mod")
  have b := adder_syns (K := K) defaultEncoder (some "adder_mod")
  generalize (adderNetwork' (K := K) defaultEncoder (some "adder_mod") World.empty).2 = B at *
  rw [e]
  exact ⟨rfl, a, b⟩

set_option maxHeartbeats 1000000 in
/-- An addition. -/
theorem CRun.add_full (C : CRun h root r dt w' plan L ns s0 S F) (hr : 0 < r) (hdt : 0 < dt) (hdt' : dt < 1 / 50) {u₁ u₂ v : ℕ} (hv : v ∈ L.nodes)
    (hop : h.op v = .add) (hp : h.prev v = [u₁, u₂]) {x₁ x₂ ε₁ ε₂ D₁ D₂ ε D : K}
    (h₁ : NodeOK r dt (loadSpikes defaultEncoder h r L) F (L.out u₁) x₁ ε₁ D₁)
    (h₂ : NodeOK r dt (loadSpikes defaultEncoder h r L) F (L.out u₂) x₂ ε₂ D₂)
    (hε₁ : ε₁ ≤ 1) (hε₂ : ε₂ ≤ 1)
    (hpos : (max x₁ 0 + max x₂ 0) / r * 100 + (ε₁ + ε₂ + 2 * dt) ≤ 100)
    (hneg : (max (-x₁) 0 + max (-x₂) 0) / r * 100 + (ε₁ + ε₂ + 2 * dt) ≤ 100)
    (hzero : ε₁ + ε₂ + 2 * dt ≤ (x₁ + x₂) / r * 100 ∨ (x₁ + x₂) / r * 100 + (ε₁ + ε₂ + 2 * dt) + 1 / 100 + dt ≤ 0)
    (hε : ε₁ + ε₂ + 4 * dt ≤ ε) (hD₁ : D₁ + 371 + 18 * dt ≤ D) (hD₂ : D₂ + 371 + 18 * dt ≤ D) :
    NodeOK r dt (loadSpikes defaultEncoder h r L) F (L.out v) (x₁ + x₂) ε D ∧
      BlockFires F (L.off v) 52 (OpFires .add) := by
  obtain ⟨es, el, ey⟩ := add_block (K := K) r
  have hlen : (spawnEmpty (h.op v) r).2.neus.length = 52 := by rw [hop, el]
  have hout : L.out v = ⟨L.off v + 6, L.off v + 7⟩ := by rw [C.faith.outCopy v hv, hop, es]; rfl
  have hi0 : L.inp v 0 = ⟨L.off v + 40, L.off v + 41⟩ := by
    rw [(inp_at C.faith hv (C.good v hv) (k := 0) (by rw [hp]; simp)).1, hop, es]; rfl
  have hi1 : L.inp v 1 = ⟨L.off v + 46, L.off v + 47⟩ := by
    rw [(inp_at C.faith hv (C.good v hv) (k := 1) (by rw [hp]; simp)).1, hop, es]; rfl
  have n : ∀ k < 52, _ := fun k hk => C.noinj hv (by rw [hop]; simp) (k := k) (by omega)
  have st : ∀ k < 52, _ := fun k hk => C.std v hv k (by omega)
  have I : ∀ k < 52, _ := fun k hk => placed_ins (ns := ns) C.faith C.good hv (k := k) (by omega)
  rw [hop, hp, ey] at I
  simp only [List.zipIdx_cons, List.zipIdx_nil, List.flatMap_cons, List.flatMap_nil, List.append_nil, hi0, Nat.zero_add, hi1, wire] at I
  have E : Embeds (w'.net ns) s0 (loadSpikes defaultEncoder h r L) (L.off v)
      (linSyns defaultEncoder 2 (fun i => ([1, 1] : List K).getD i 0) 2) (linInner 2) := by
    have hb : ∀ k ∈ linInner 2, k < 52 ∧ k ≠ 40 ∧ k ≠ 41 ∧ k ≠ 46 ∧ k ≠ 47 := by
      intro k hk
      simp [linInner] at hk
      omega
    refine ⟨fun k hk => st k (hb k hk).1, fun k hk => n k (hb k hk).1, fun k hk => ?_⟩
    obtain ⟨b0, b1, b2, b3, b4⟩ := hb k hk
    have := I k b0
    simpa [b1.symm, b2.symm, b3.symm, b4.symm] using this
  have hc : ∀ i < 2, ∀ o < 2, insOf (linSyns (defaultEncoder : Encoder K) 2 (fun i => ([1, 1] : List K).getD i 0) 2) (40 + 6 * i + o) = [] := by
    intro i hi o ho
    rw [insOf_lin_chan _ _ _ _ _ _ hi (by omega)]
    unfold insOf
    rw [List.filter_eq_nil_iff]
    intro s hs hc
    have := linRoundSyns_post _ _ _ _ s hs
    have := of_decide_eq_true hc
    omega
  have I40 : InS (w'.net ns) (L.off v + 40) [⟨(L.out u₁).plus, L.off v + 40, 10, 1, .V⟩] := by
    have := I 40 (by omega)
    rw [show insOf _ 40 = [] from hc 0 (by omega) 0 (by omega)] at this
    simpa using this
  have I41 : InS (w'.net ns) (L.off v + 41) [⟨(L.out u₁).minus, L.off v + 41, 10, 1, .V⟩] := by
    have := I 41 (by omega)
    rw [show insOf _ 41 = [] from hc 0 (by omega) 1 (by omega)] at this
    simpa using this
  have I46 : InS (w'.net ns) (L.off v + 46) [⟨(L.out u₂).plus, L.off v + 46, 10, 1, .V⟩] := by
    have := I 46 (by omega)
    rw [show insOf _ 46 = [] from hc 1 (by omega) 0 (by omega)] at this
    simpa using this
  have I47 : InS (w'.net ns) (L.off v + 47) [⟨(L.out u₂).minus, L.off v + 47, 10, 1, .V⟩] := by
    have := I 47 (by omega)
    rw [show insOf _ 47 = [] from hc 1 (by omega) 1 (by omega)] at this
    simpa using this
  obtain ⟨neg₁, hneg₁, ⟨a₁, b₁, Ap₁, Am₁, ha₁, hab₁, herr₁, hb₁⟩, -⟩ := h₁
  obtain ⟨neg₂, hneg₂, ⟨a₂, b₂, Ap₂, Am₂, ha₂, hab₂, herr₂, hb₂⟩, -⟩ := h₂
  obtain ⟨d1, d2⟩ := dly_bd hdt (one_pos (α := K))
  obtain ⟨A40, A41⟩ := C.feed hdt ha₁ hab₁ I40 I41 (st 40 (by omega)) (st 41 (by omega)) (n 40 (by omega)) (n 41 (by omega)) Ap₁ Am₁
  obtain ⟨A46, A47⟩ := C.feed hdt ha₂ hab₂ I46 I47 (st 46 (by omega)) (st 47 (by omega)) (n 46 (by omega)) (n 47 (by omega)) Ap₂ Am₂
  have hcase : ∀ {P : ℕ → Prop}, P 0 → P 1 → ∀ i < 2, P i := by
    intro P p0 p1 i hi
    match i, hi with
    | 0, _ => exact p0
    | 1, _ => exact p1
  let neg : ℕ → Bool := fun i => if i = 0 then neg₁ else neg₂
  let a : ℕ → ℕ := fun i => if i = 0 then a₁ + dly dt 1 else a₂ + dly dt 1
  let b : ℕ → ℕ := fun i => if i = 0 then b₁ + dly dt 1 else b₂ + dly dt 1
  let vv : ℕ → K := fun i => if i = 0 then |x₁| / r else |x₂| / r
  let ee : ℕ → K := fun i => if i = 0 then ε₁ else ε₂
  have hlin : linErr dt 2 (fun i => ([1, 1] : List K).getD i 0) ee = ε₁ + ε₂ + 2 * dt := by
    simp [linErr, Finset.sum_range_succ, ee]; ring
  have s₁ := addTerm neg₁ hr hneg₁
  have s₂ := addTerm neg₂ hr hneg₂
  have hsum : ∀ f : ℕ → K, ∑ i ∈ Finset.range 2, f i = f 0 + f 1 := fun f => by simp [Finset.sum_range_succ]
  have hy : (x₁ + x₂) / r = ∑ i ∈ Finset.range 2, ([1, 1] : List K).getD i 0 * signed (neg i) (vv i) := by
    rw [hsum]; simp only [neg, vv]; simp [unsign hr hneg₁, unsign hr hneg₂, add_div]
  obtain ⟨p, q, t6, t7, h1p, hpq, herr, hq, fch, B, hB, fco⟩ := lin_core_full C.run hdt hdt' (by simp [defaultEncoder]) (LinAt.of E) (by omega) (neg := neg) (a := a) (b := b)
    (hcase A40 A46) (hcase A41 A47) (hcase (by simp [a]; omega) (by simp [a]; omega)) (M := max b₁ b₂ + dly dt 1)
    (hcase (by simp [b]) (by simp [b]))
    (by
      rcases le_total b₁ b₂ with hle | hle
      · exact ⟨1, by omega, by simp [b, hle]⟩
      · exact ⟨0, by omega, by simp [b, hle]⟩) (v := vv) (ε := ee)
    (hcase
      (by
        simp only [a, b, vv, ee, if_true]; push_cast
        rw [show ((b₁ : K) + dly dt (1 : K)) * dt - (a₁ + dly dt (1 : K)) * dt = b₁ * dt - a₁ * dt by ring]; exact herr₁)
      (by
        simp only [a, b, vv, ee, if_neg (one_ne_zero (α := ℕ))]; push_cast
        rw [show ((b₂ : K) + dly dt (1 : K)) * dt - (a₂ + dly dt (1 : K)) * dt = b₂ * dt - a₂ * dt by ring]; exact herr₂))
    (hcase (by simp only [vv, if_true]; positivity) (by simp only [vv, if_neg (one_ne_zero (α := ℕ))]; positivity))
    (hcase (by simpa [ee] using hε₁) (by simpa [ee] using hε₂))
    (hcase (by simp only [ee, if_true, defaultEncoder]; linarith) (by simp only [ee, if_neg (one_ne_zero (α := ℕ)), defaultEncoder]; linarith))
    (by rw [hlin]; simp only [defaultEncoder]; linarith)
    (by
      rw [hlin, hsum]
      have e : (if toPlus (fun i => ([1, 1] : List K).getD i 0) neg 0 then |([1, 1] : List K).getD 0 0| * vv 0 else 0) = max x₁ 0 / r := s₁.1
      have e' : (if toPlus (fun i => ([1, 1] : List K).getD i 0) neg 1 then |([1, 1] : List K).getD 1 0| * vv 1 else 0) = max x₂ 0 / r := s₂.1
      rw [e, e', ← add_div]; exact hpos)
    (by
      rw [hlin, hsum]
      have e : (if !toPlus (fun i => ([1, 1] : List K).getD i 0) neg 0 then |([1, 1] : List K).getD 0 0| * vv 0 else 0) = max (-x₁) 0 / r := s₁.2
      have e' : (if !toPlus (fun i => ([1, 1] : List K).getD i 0) neg 1 then |([1, 1] : List K).getD 1 0| * vv 1 else 0) = max (-x₂) 0 / r := s₂.2
      rw [e, e', ← add_div]; exact hneg)
    hy (by rw [hlin]; exact hzero)
  have hs : decide ((x₁ + x₂) / r < 0) = decide (x₁ + x₂ < 0) := by
    rw [decide_eq_decide, div_lt_iff₀ hr, zero_mul]
  rw [hs] at t6 t7
  rw [hlin, abs_div, abs_of_pos hr] at herr
  have c0 := fch 0 (by omega)
  have c1 := fch 1 (by omega)
  refine ⟨?_, addFires (!decide ((x₁ + x₂) / r < 0)) B neg₁ neg₂, rfl, ⟨_, B, neg₁, neg₂, fun hBt => ?_, rfl⟩, fun k hk => ?_⟩
  rotate_left
  · by_cases hA : (x₁ + x₂) / r < 0
    · rw [hB hA] at hBt; cases hBt
    · simp [hA]
  · by_cases h40 : k < 40
    · unfold addFires
      rw [List.getD_append _ _ _ _ (by simpa [linFires] using h40), Bool.not_not]
      exact fco k h40
    · unfold addFires
      rw [List.getD_append_right _ _ _ _ (by simpa [linFires] using h40), Bool.not_not]
      have hl40 : (linFires (!decide ((x₁ + x₂) / r < 0)) B (decide ((x₁ + x₂) / r < 0))).length = 40 := rfl
      rw [hl40]
      obtain ⟨j, rfl⟩ : ∃ j, k = 40 + j := ⟨k - 40, by omega⟩
      rw [Nat.add_sub_cancel_left]
      have hj : j < 12 := by omega
      interval_cases j
      · exact Fires.of_arr2 hdt (n 40 (by omega)) hab₁ A40
      · exact Fires.of_arr2 hdt (n 41 (by omega)) hab₁ A41
      · exact c0.1
      · exact c0.2.1
      · exact c0.2.2.1
      · exact c0.2.2.2
      · exact Fires.of_arr2 hdt (n 46 (by omega)) hab₂ A46
      · exact Fires.of_arr2 hdt (n 47 (by omega)) hab₂ A47
      · exact c1.1
      · exact c1.2.1
      · exact c1.2.2.1
      · exact c1.2.2.2
  rw [hout]
  refine NodeOK.of_trains hdt (signed_abs _) t6 t7 (n 6 (by omega)) (n 7 (by omega)) h1p hpq (herr.trans (by linarith)) ?_
  have hmax : ((max b₁ b₂ : ℕ) : K) * dt + 371 + 18 * dt ≤ D := by
    rcases le_total b₁ b₂ with hle | hle
    · rw [max_eq_right hle]; linarith
    · rw [max_eq_left hle]; linarith
  push_cast at hq hmax ⊢
  have hTe : (defaultEncoder : Encoder K).Tmax = 110 := by simp [Encoder.Tmax, defaultEncoder]; norm_num
  have hTm : (defaultEncoder : Encoder K).Tmin = 10 := rfl
  rw [hTe, hTm] at hq
  linarith

theorem CRun.add (C : CRun h root r dt w' plan L ns s0 S F) (hr : 0 < r) (hdt : 0 < dt) (hdt' : dt < 1 / 50) {u₁ u₂ v : ℕ} (hv : v ∈ L.nodes)
    (hop : h.op v = .add) (hp : h.prev v = [u₁, u₂]) {x₁ x₂ ε₁ ε₂ D₁ D₂ ε D : K}
    (h₁ : NodeOK r dt (loadSpikes defaultEncoder h r L) F (L.out u₁) x₁ ε₁ D₁)
    (h₂ : NodeOK r dt (loadSpikes defaultEncoder h r L) F (L.out u₂) x₂ ε₂ D₂)
    (hε₁ : ε₁ ≤ 1) (hε₂ : ε₂ ≤ 1)
    (hpos : (max x₁ 0 + max x₂ 0) / r * 100 + (ε₁ + ε₂ + 2 * dt) ≤ 100)
    (hneg : (max (-x₁) 0 + max (-x₂) 0) / r * 100 + (ε₁ + ε₂ + 2 * dt) ≤ 100)
    (hzero : ε₁ + ε₂ + 2 * dt ≤ (x₁ + x₂) / r * 100 ∨ (x₁ + x₂) / r * 100 + (ε₁ + ε₂ + 2 * dt) + 1 / 100 + dt ≤ 0)
    (hε : ε₁ + ε₂ + 4 * dt ≤ ε) (hD₁ : D₁ + 371 + 18 * dt ≤ D) (hD₂ : D₂ + 371 + 18 * dt ≤ D) :
    NodeOK r dt (loadSpikes defaultEncoder h r L) F (L.out v) (x₁ + x₂) ε D :=
  (C.add_full hr hdt hdt' hv hop hp h₁ h₂ hε₁ hε₂ hpos hneg hzero hε hD₁ hD₂).1

theorem mulNorm_syns (e : Encoder K) (f : K) (n) : (signedMultiplierNormNetwork e f n World.empty).2.syns = smulnSyns f e := rfl

theorem mulNorm_len (e : Encoder K) (f : K) (n) : (signedMultiplierNormNetwork e f n World.empty).2.neus.length = 28 := rfl

theorem smuln_ports (f : K) (e : Encoder K) : ∀ k ∈ [18, 19, 20, 21], insOf (smulnSyns f e) k = [] := by
  intro k hk
  simp at hk
  rcases hk with rfl | rfl | rfl | rfl <;> rfl

/-- The facts on the multiplier module. -/
theorem mul_block (r : K) : (spawnEmpty .mul r).1 = ⟨0, [⟨18, 19⟩, ⟨20, 21⟩], ⟨22, 23⟩⟩ ∧ (spawnEmpty .mul r).2.neus.length = 28 ∧
    (spawnEmpty .mul r).2.syns = smulnSyns r defaultEncoder := by
  have e := spawnEmpty_mul (K := K) r
  have a := mulNorm_len (K := K) defaultEncoder r (some "mul_norm_mod")
  have b := mulNorm_syns (K := K) defaultEncoder r (some "mul_norm_mod")
  generalize (signedMultiplierNormNetwork (K := K) defaultEncoder r (some "mul_norm_mod") World.empty).2 = B at *
  rw [e]
  exact ⟨rfl, a, b⟩

theorem signed_mul {m₁ m₂ : Bool} {x₁ x₂ : K} (h₁ : signed m₁ |x₁| = x₁) (h₂ : signed m₂ |x₂| = x₂) :
    signed (m₁ != m₂) |x₁ * x₂| = x₁ * x₂ := by
  rw [abs_mul]
  conv_rhs => rw [← h₁, ← h₂]
  unfold signed
  cases m₁ <;> cases m₂ <;> simp

set_option maxHeartbeats 1000000 in
/-- A multiplication. -/
theorem CRun.mul_full (C : CRun h root r dt w' plan L ns s0 S F) (hr : 0 < r) (hdt : 0 < dt) (hdt' : dt ≤ 1) {u₁ u₂ v : ℕ} (hv : v ∈ L.nodes)
    (hop : h.op v = .mul) (hp : h.prev v = [u₁, u₂]) {x₁ x₂ ε₁ ε₂ D₁ D₂ ε D : K}
    (h₁ : NodeOK r dt (loadSpikes defaultEncoder h r L) F (L.out u₁) x₁ ε₁ D₁)
    (h₂ : NodeOK r dt (loadSpikes defaultEncoder h r L) F (L.out u₂) x₂ ε₂ D₂)
    (hx₁ : ε₁ + dt ≤ |x₁| / r * 100) (hx₁' : |x₁| / r * 100 + (ε₁ + dt) ≤ 100)
    (hx₂ : ε₂ + dt ≤ |x₂| / r * 100) (hx₂' : |x₂| / r * 100 + (ε₂ + dt) ≤ 100)
    (hxx : |x₁ * x₂| ≤ r)
    (hdecay : ∃ M : ℕ, left dt M ≤ (|x₁| / r - (ε₁ + dt) / 100) * (|x₂| / r - (ε₂ + dt) / 100) ∧ ((M : K) + 6) * dt ≤ 343)
    (hsmall : ε₁ + ε₂ + 6 * dt + decayLoss dt ≤ |x₁| / r * (|x₂| / r) * 100)
    (hamp : r * (ε₁ + ε₂ + 6 * dt + decayLoss dt) ≤ 10)
    (hε : r * (ε₁ + ε₂ + 6 * dt + decayLoss dt) + 2 * dt ≤ ε)
    (hD₁ : D₁ + 597 + 110 / r + 12 * dt ≤ D) (hD₂ : D₂ + 597 + 110 / r + 12 * dt ≤ D) :
    NodeOK r dt (loadSpikes defaultEncoder h r L) F (L.out v) (x₁ * x₂) ε D ∧
      BlockFires F (L.off v) 28 (OpFires .mul) := by
  obtain ⟨es, el, ey⟩ := mul_block (K := K) r
  have hlen : (spawnEmpty (h.op v) r).2.neus.length = 28 := by rw [hop, el]
  have hout : L.out v = ⟨L.off v + 22, L.off v + 23⟩ := by rw [C.faith.outCopy v hv, hop, es]; rfl
  have hi0 : L.inp v 0 = ⟨L.off v + 18, L.off v + 19⟩ := by
    rw [(inp_at C.faith hv (C.good v hv) (k := 0) (by rw [hp]; simp)).1, hop, es]; rfl
  have hi1 : L.inp v 1 = ⟨L.off v + 20, L.off v + 21⟩ := by
    rw [(inp_at C.faith hv (C.good v hv) (k := 1) (by rw [hp]; simp)).1, hop, es]; rfl
  have n : ∀ k < 28, _ := fun k hk => C.noinj hv (by rw [hop]; simp) (k := k) (by omega)
  have st : ∀ k < 28, _ := fun k hk => C.std v hv k (by omega)
  have I : ∀ k < 28, _ := fun k hk => placed_ins (ns := ns) C.faith C.good hv (k := k) (by omega)
  rw [hop, hp, ey] at I
  simp only [List.zipIdx_cons, List.zipIdx_nil, List.flatMap_cons, List.flatMap_nil, List.append_nil, hi0, Nat.zero_add, hi1, wire] at I
  have E : Embeds (w'.net ns) s0 (loadSpikes defaultEncoder h r L) (L.off v) (smulnSyns r defaultEncoder)
      [0, 1, 2, 3, 4, 5, 6, 7, 8, 9, 10, 11, 12, 13, 14, 15, 16, 17, 22, 23, 24, 25, 26, 27] := by
    have hb : ∀ k ∈ [0, 1, 2, 3, 4, 5, 6, 7, 8, 9, 10, 11, 12, 13, 14, 15, 16, 17, 22, 23, 24, 25, 26, 27],
        k < 28 ∧ k ≠ 18 ∧ k ≠ 19 ∧ k ≠ 20 ∧ k ≠ 21 := by
      intro k hk
      simp at hk
      omega
    refine ⟨fun k hk => st k (hb k hk).1, fun k hk => n k (hb k hk).1, fun k hk => ?_⟩
    obtain ⟨b0, b1, b2, b3, b4⟩ := hb k hk
    have := I k b0
    simpa [b1.symm, b2.symm, b3.symm, b4.symm] using this
  have hc := smuln_ports r (defaultEncoder : Encoder K)
  have I18 : InS (w'.net ns) (L.off v + 18) [⟨(L.out u₁).plus, L.off v + 18, 10, 1, .V⟩] := by
    have := I 18 (by omega)
    rw [hc 18 (by simp)] at this
    simpa using this
  have I19 : InS (w'.net ns) (L.off v + 19) [⟨(L.out u₁).minus, L.off v + 19, 10, 1, .V⟩] := by
    have := I 19 (by omega)
    rw [hc 19 (by simp)] at this
    simpa using this
  have I20 : InS (w'.net ns) (L.off v + 20) [⟨(L.out u₂).plus, L.off v + 20, 10, 1, .V⟩] := by
    have := I 20 (by omega)
    rw [hc 20 (by simp)] at this
    simpa using this
  have I21 : InS (w'.net ns) (L.off v + 21) [⟨(L.out u₂).minus, L.off v + 21, 10, 1, .V⟩] := by
    have := I 21 (by omega)
    rw [hc 21 (by simp)] at this
    simpa using this
  obtain ⟨neg₁, hneg₁, ⟨a₁, b₁, Ap₁, Am₁, ha₁, hab₁, herr₁, hb₁⟩, -⟩ := h₁
  obtain ⟨neg₂, hneg₂, ⟨a₂, b₂, Ap₂, Am₂, ha₂, hab₂, herr₂, hb₂⟩, -⟩ := h₂
  obtain ⟨d1, d2⟩ := dly_bd hdt (one_pos (α := K))
  obtain ⟨A18, A19⟩ := C.feed hdt ha₁ hab₁ I18 I19 (st 18 (by omega)) (st 19 (by omega)) (n 18 (by omega)) (n 19 (by omega)) Ap₁ Am₁
  obtain ⟨A20, A21⟩ := C.feed hdt ha₂ hab₂ I20 I21 (st 20 (by omega)) (st 21 (by omega)) (n 20 (by omega)) (n 21 (by omega)) Ap₂ Am₂
  have gap : ∀ {a b : ℕ} {y e : K}, |((b : K) * dt - (a : K) * dt) - (10 + y * 100)| ≤ e → e + dt ≤ y * 100 →
      a + dly dt 1 + dly dt 1 ≤ b + dly dt 1 := by
    intro a b y e he hy
    have := abs_le.mp he
    refine step_le hdt ?_
    push_cast; linarith
  have hDL : decayErr (defaultEncoder : Encoder K) dt = decayLoss dt := rfl
  have hTm : (defaultEncoder : Encoder K).Tmin = 10 := rfl
  have hTc : (defaultEncoder : Encoder K).Tcod = 100 := rfl
  have hTe : (defaultEncoder : Encoder K).Tmax = 110 := by simp [Encoder.Tmax, defaultEncoder]; norm_num
  obtain ⟨M, hM, hM'⟩ := hdecay
  have habs : r * (|x₁| / r * (|x₂| / r)) = |x₁ * x₂| / r := by rw [abs_mul]; field_simp
  obtain ⟨p, q, t22, t23, h1p, hpq, herr, hq, fc⟩ := smuln_core_full C.run hdt (by linarith) hr (by rw [hTc]; norm_num) (by rw [hTm]; linarith) (by rw [hTm]; linarith)
    E neg₁ neg₂ (by omega) (gap herr₁ hx₁) (by omega) (gap herr₂ hx₂) A18 A19 A20 A21 (v1 := |x₁| / r) (v2 := |x₂| / r) (ε1 := ε₁) (ε2 := ε₂)
    (by
      push_cast
      rw [show ((b₁ : K) + dly dt (1 : K)) * dt - (a₁ + dly dt (1 : K)) * dt = b₁ * dt - a₁ * dt by ring]; exact herr₁)
    (by
      push_cast
      rw [show ((b₂ : K) + dly dt (1 : K)) * dt - (a₂ + dly dt (1 : K)) * dt = b₂ * dt - a₂ * dt by ring]; exact herr₂)
    hx₁ hx₁' hx₂ hx₂' hM hM' (by rw [habs]; exact (div_le_one hr).mpr hxx) (by rw [hDL]; exact hamp) (by rw [hDL]; exact hsmall)
  rw [habs] at herr
  rw [show (neg₁ == neg₂) = !(neg₁ != neg₂) by cases neg₁ <;> cases neg₂ <;> rfl] at t22
  refine ⟨?_, smulnFires neg₁ neg₂, rfl, ⟨neg₁, neg₂, rfl⟩, fun k hk => ?_⟩
  swap
  · by_cases hk' : k < 18 ∨ 21 < k
    · exact fc k hk hk'
    · have : k = 18 ∨ k = 19 ∨ k = 20 ∨ k = 21 := by omega
      rcases this with rfl | rfl | rfl | rfl
      · have := Fires.of_arr2 hdt (n 18 (by omega)) hab₁ A18
        cases neg₁ <;> exact this
      · exact Fires.of_arr2 hdt (n 19 (by omega)) hab₁ A19
      · have := Fires.of_arr2 hdt (n 20 (by omega)) hab₂ A20
        cases neg₂ <;> exact this
      · exact Fires.of_arr2 hdt (n 21 (by omega)) hab₂ A21
  rw [hout]
  refine NodeOK.of_trains hdt (signed_mul hneg₁ hneg₂) t22 t23 (n 22 (by omega)) (n 23 (by omega)) h1p hpq (herr.trans hε) ?_
  have hmax : ((max (b₁ + dly dt 1) (b₂ + dly dt 1) : ℕ) : K) * dt + 596 + 110 / r + 11 * dt ≤ D := by
    rcases le_total (b₁ + dly dt 1) (b₂ + dly dt 1) with hle | hle
    · rw [max_eq_right hle]; push_cast; linarith
    · rw [max_eq_left hle]; push_cast; linarith
  rw [hTe, hTm, hTc] at hq
  linarith

theorem CRun.mul (C : CRun h root r dt w' plan L ns s0 S F) (hr : 0 < r) (hdt : 0 < dt) (hdt' : dt ≤ 1) {u₁ u₂ v : ℕ} (hv : v ∈ L.nodes)
    (hop : h.op v = .mul) (hp : h.prev v = [u₁, u₂]) {x₁ x₂ ε₁ ε₂ D₁ D₂ ε D : K}
    (h₁ : NodeOK r dt (loadSpikes defaultEncoder h r L) F (L.out u₁) x₁ ε₁ D₁)
    (h₂ : NodeOK r dt (loadSpikes defaultEncoder h r L) F (L.out u₂) x₂ ε₂ D₂)
    (hx₁ : ε₁ + dt ≤ |x₁| / r * 100) (hx₁' : |x₁| / r * 100 + (ε₁ + dt) ≤ 100)
    (hx₂ : ε₂ + dt ≤ |x₂| / r * 100) (hx₂' : |x₂| / r * 100 + (ε₂ + dt) ≤ 100)
    (hxx : |x₁ * x₂| ≤ r)
    (hdecay : ∃ M : ℕ, left dt M ≤ (|x₁| / r - (ε₁ + dt) / 100) * (|x₂| / r - (ε₂ + dt) / 100) ∧ ((M : K) + 6) * dt ≤ 343)
    (hsmall : ε₁ + ε₂ + 6 * dt + decayLoss dt ≤ |x₁| / r * (|x₂| / r) * 100)
    (hamp : r * (ε₁ + ε₂ + 6 * dt + decayLoss dt) ≤ 10)
    (hε : r * (ε₁ + ε₂ + 6 * dt + decayLoss dt) + 2 * dt ≤ ε)
    (hD₁ : D₁ + 597 + 110 / r + 12 * dt ≤ D) (hD₂ : D₂ + 597 + 110 / r + 12 * dt ≤ D) :
    NodeOK r dt (loadSpikes defaultEncoder h r L) F (L.out v) (x₁ * x₂) ε D :=
  (C.mul_full hr hdt hdt' hv hop hp h₁ h₂ hx₁ hx₁' hx₂ hx₂' hxx hdecay hsmall hamp hε hD₁ hD₂).1

set_option maxHeartbeats 1000000 in
/-- A signed multiplier with scaling one of whose operands comes with the shortest interval. -/
theorem smuln_zero {net : Net K} {inj : List (ℕ × K)} {s0 : ℕ → NState K} {S : ℕ → ℕ → NState K} {F : ℕ → ℕ → Bool} {f : K} {enc : Encoder K}
    (hr : IsRun net dt inj s0 S F) (hdt : 0 < dt) (hdt' : dt < 20) (hf : 0 < f) (h2 : 0 < enc.Tcod) (hd : 1 + dt ≤ enc.Tmin) {k l : ℕ}
    (hk : (k : K) * dt = 1) (hl : (l : K) * dt = enc.Tmin) {x : ℕ}
    (hE : Embeds net s0 inj x (smulnSyns f enc) [0, 1, 2, 3, 4, 5, 6, 7, 8, 9, 10, 11, 12, 13, 14, 15, 16, 17, 22, 23, 24, 25, 26, 27])
    (m1 m2 : Bool) {a1 b1 a2 b2 : ℕ} (h1 : 1 ≤ a1) (h1' : a1 + dly dt 1 ≤ b1) (h2a : 1 ≤ a2) (h2' : a2 + dly dt 1 ≤ b2)
    (I1p : Arr dt inj F (x + 18) 1 (on (!m1) [a1, b1])) (I1m : Arr dt inj F (x + 19) 1 (on m1 [a1, b1]))
    (I2p : Arr dt inj F (x + 20) 1 (on (!m2) [a2, b2])) (I2m : Arr dt inj F (x + 21) 1 (on m2 [a2, b2]))
    (hX1 : ((b1 + dly dt 1 - (a1 + dly dt (1 + enc.Tmin)) : ℕ) : K) * dt / enc.Tcod < 1)
    (hX2 : ((b2 + dly dt 1 - (a2 + dly dt (1 + enc.Tmin)) : ℕ) : K) * dt / enc.Tcod < 1)
    (hb : b1 ≤ a1 + l ∨ b2 ≤ a2 + l) (hfε : f * (2 * dt) ≤ enc.Tmin) :
    ∃ p q, Train F (x + 22) (on (m1 == m2) [p, q]) ∧ Train F (x + 23) (on (m1 != m2) [p, q]) ∧ 1 ≤ p ∧ p < q ∧
      |((q : K) * dt - (p : K) * dt) - enc.Tmin| ≤ f * (2 * dt) + 2 * dt ∧
      (q : K) * dt ≤ ((max b1 b2 : ℕ) : K) * dt + 357 + 3 * enc.Tmin + enc.Tcod + enc.Tmax / f + 9 * dt := by
  have e1 : dly dt (1 : K) = k := dly_exact hdt one_pos hk
  have e2 : dly dt (1 + enc.Tmin) = k + l := dly_exact hdt (by linarith) (by push_cast; linarith)
  have e3 : dly dt (2 : K) = 2 * k := dly_exact hdt two_pos (by push_cast; linarith)
  have hl1 : 1 ≤ l := by
    rcases Nat.eq_zero_or_pos l with rfl | h
    · push_cast at hl; linarith
    · exact h
  have hkl : k ≤ l := by
    refine step_le hdt ?_
    linarith
  have hd1 := one_le_dly dt (1 : K)
  have hd350 := one_le_dly dt (350 : K)
  have EM : Embeds net s0 inj x (mulSyns enc) [2, 3, 4, 5, 6, 7, 8, 9, 10, 11] :=
    hE.sub 0 (by simp) (by intro k hk; simp at hk; rcases hk with rfl | rfl | rfl | rfl | rfl | rfl | rfl | rfl | rfl | rfl <;> rfl)
  have hm := smul_front hr hdt EM (hE.std 0 (by simp)) (hE.std 1 (by simp)) (hE.noinj 0 (by simp)) (hE.noinj 1 (by simp))
    (i1p := x + 18) (i1m := x + 19) (i2p := x + 20) (i2m := x + 21) (hE.ins 0 (by simp)) (hE.ins 1 (by simp)) m1 m2 h1 h1' h2a h2' I1p I1m I2p I2m
  have t8 := hm.none8 hr hdt hdt' h2
    (by rwa [show b1 + dly dt (1 : K) + dly dt 1 - (a1 + dly dt 1 + dly dt (1 + enc.Tmin)) = b1 + dly dt 1 - (a1 + dly dt (1 + enc.Tmin)) by omega])
    (by rwa [show b2 + dly dt (1 : K) + dly dt 1 - (a2 + dly dt 1 + dly dt (1 + enc.Tmin)) = b2 + dly dt 1 - (a2 + dly dt (1 + enc.Tmin)) by omega])
    (by rw [e1, e2]; omega)
  obtain ⟨t11, -⟩ := hm.zero hr hdt t8 (hm.exp_none hr hdt hdt' t8) (by rw [e1, e2]; omega)
  obtain ⟨-, z2⟩ := dly_bd hdt (show (0 : K) < 350 by norm_num)
  obtain ⟨P, Q, o1, o2, hpP, hPQ, herr, hQ⟩ := smuln_back hr hdt hf h2 (by linarith) (x := x) hE m1 m2 h1 (by omega) h2a (by omega) I1p I1m I2p I2m t11
    (by omega) (by rw [e1, e2]; omega) (v := 0) (ε := 0) le_rfl le_rfl
    (by
      rw [e1, e2]; push_cast
      rw [show ∀ m : K, (m + (k + l)) * dt - (m + k) * dt - (enc.Tmin + 0 * enc.Tcod) = l * dt - enc.Tmin by intro m; ring, hl, sub_self, abs_zero])
    (by rw [e1, e2, e3]; omega) (by simp) (by rwa [add_zero])
  refine ⟨P, Q, o1, o2, by omega, hPQ, ?_, ?_⟩
  · rw [mul_zero, zero_mul, add_zero, add_zero] at herr; exact herr
  · refine hQ.trans ?_
    rw [e1]
    rcases le_total b1 b2 with hle | hle
    · rw [max_eq_right hle, max_eq_right (by omega)]; push_cast; linarith
    · rw [max_eq_left hle, max_eq_left (by omega)]; push_cast; linarith

/-- A loaded zero, or that negated: the interval is exact. -/
theorem CRun.zero (C : CRun h root r dt w' plan L ns s0 S F) (hr : 0 < r) (hdt : 0 < dt) (hdt' : dt ≤ 1) {l : ℕ} (hl : (l : K) * dt = 10)
    {v : ℕ} (hv : v ∈ L.nodes) {x ε D : K} (hB : Budget h r dt v x ε D) (hz : ZeroSource h v) :
    x = 0 ∧ ∃ neg a, NodeIn r dt (loadSpikes defaultEncoder h r L) F (L.out v) 0 0 D neg a (a + l) := by
  have hop' : ∀ {v u : ℕ}, v ∈ L.nodes → u ∈ h.prev v → u ∈ L.nodes := fun hv hu =>
    (C.faith.nodes _).mpr (((C.faith.nodes _).mp hv).tail hu)
  induction hz generalizing x ε D with
  | @load v hop hp hx =>
    have hhave : x = 0 ∧ 111 + dt ≤ D := by
      cases hB with
      | load _ _ _ _ hD => exact ⟨hx, hD⟩
      | neg hop' => rw [hop] at hop'; cases hop'
      | add hop' => rw [hop] at hop'; cases hop'
      | mul hop' => rw [hop] at hop'; cases hop'
      | mulZero hop' => rw [hop] at hop'; cases hop'
    refine ⟨hhave.1, ?_⟩
    have hlen : (spawnEmpty (h.op v) r).2.neus.length = 2 := by rw [hop]; rfl
    have hout : L.out v = ⟨L.off v + 0, L.off v + 1⟩ := by rw [C.faith.outCopy v hv, hop]; rfl
    have I : ∀ k < 2, InS (w'.net ns) (L.off v + k) [] := by
      intro k hk
      have := placed_inner (ns := ns) C.faith C.good hv (k := k) (by omega) (by rw [hp]; simp)
      rw [hop] at this
      exact this
    have t : ∀ k < 2, Train F (L.off v + k) [] := fun k hk => silent C.run (C.std v hv k (by omega)) (I k hk)
    have a0 := (t 0 (by omega)).arr_inj (inj := loadSpikes defaultEncoder h r L) hdt 1
    have a1 := (t 1 (by omega)).arr_inj (inj := loadSpikes defaultEncoder h r L) hdt 1
    rw [placed_inj C.faith C.good defaultEncoder hv (by omega), hout, hx] at a0 a1
    simp [hop, defaultEncoder] at a0 a1
    have ez := arrInj_zero (enc := (⟨10, 100⟩ : Encoder K)) hdt hl (t0 := 0) le_rfl
    simp only [zero_add, zero_mul, add_zero] at ez
    rw [ez] at a0
    obtain ⟨b1, b2⟩ := arrInj_bd (τ := (0 : K)) (D := 1) hdt (by norm_num)
    have hpos : 1 ≤ arrInj dt (0 : K) 1 := arrInj_pos _ _ _
    have hl0 : 0 < l := by
      rcases Nat.eq_zero_or_pos l with rfl | h
      · norm_num at hl
      · exact h
    refine ⟨false, arrInj dt 0 1, ?_⟩
    rw [hout]
    refine ⟨a0, a1, hpos, by omega, ?_, ?_⟩
    · push_cast
      rw [show ((arrInj dt (0 : K) 1 : K) + l) * dt - arrInj dt (0 : K) 1 * dt = l * dt by ring, hl]; simp
    · push_cast; linarith [hhave.2]
  | @neg v u hop hp hu ih =>
    obtain ⟨x', D', hx, hB', hD⟩ : ∃ x' D', x = -x' ∧ Budget h r dt u x' ε D' ∧ D' + 2 + 2 * dt ≤ D := by
      cases hB with
      | load hop' => rw [hop] at hop'; cases hop'
      | neg _ hp' hu' hD' => rw [hp] at hp'; cases hp'; exact ⟨_, _, rfl, hu', hD'⟩
      | add hop' => rw [hop] at hop'; cases hop'
      | mul hop' => rw [hop] at hop'; cases hop'
      | mulZero hop' => rw [hop] at hop'; cases hop'
    obtain ⟨e0, neg, a, N⟩ := ih (hop' hv (by rw [hp]; simp)) hB'
    refine ⟨by rw [hx, e0, neg_zero], !neg, a + dly dt 1 + dly dt 1, ?_⟩
    have hlen : (spawnEmpty (h.op v) r).2.neus.length = 4 := by rw [hop]; rfl
    have hout : L.out v = ⟨L.off v + 2, L.off v + 3⟩ := by rw [C.faith.outCopy v hv, hop]; rfl
    have hinp : L.inp v 0 = ⟨L.off v + 0, L.off v + 1⟩ := by
      rw [(inp_at C.faith hv (C.good v hv) (k := 0) (by rw [hp]; simp)).1, hop]; rfl
    have I : ∀ k < 4, _ := fun k hk => placed_ins (ns := ns) C.faith C.good hv (k := k) (by omega)
    have n : ∀ k < 4, _ := fun k hk => C.noinj hv (by rw [hop]; simp) (k := k) (by omega)
    have st : ∀ k < 4, _ := fun k hk => C.std v hv k (by omega)
    rw [hop, hp] at I
    simp only [List.zipIdx_cons, List.zipIdx_nil, List.flatMap_cons, List.flatMap_nil, List.append_nil, hinp, wire] at I
    have e0 : insOf (spawnEmpty .neg r).2.syns 0 = [] := rfl
    have e1 : insOf (spawnEmpty .neg r).2.syns 1 = [] := rfl
    have e2 : insOf (spawnEmpty .neg r).2.syns 2 = [⟨1, 2, 10, 1, .V⟩] := rfl
    have e3 : insOf (spawnEmpty .neg r).2.syns 3 = [⟨0, 3, 10, 1, .V⟩] := rfl
    have I0 : InS (w'.net ns) (L.off v + 0) [⟨(L.out u).plus, L.off v + 0, 10, 1, .V⟩] := by
      simpa [e0, Synapse.shift] using I 0 (by omega)
    have I1 : InS (w'.net ns) (L.off v + 1) [⟨(L.out u).minus, L.off v + 1, 10, 1, .V⟩] := by
      simpa [e1, Synapse.shift] using I 1 (by omega)
    have I2 : InS (w'.net ns) (L.off v + 2) [⟨L.off v + 1, L.off v + 2, 10, 1, .V⟩] := by
      simpa [e2, Synapse.shift] using I 2 (by omega)
    have I3 : InS (w'.net ns) (L.off v + 3) [⟨L.off v + 0, L.off v + 3, 10, 1, .V⟩] := by
      simpa [e3, Synapse.shift] using I 3 (by omega)
    have ha := N.one
    have hab := N.lt
    obtain ⟨d1, d2⟩ := dly_bd hdt (one_pos (α := K))
    obtain ⟨A0, A1⟩ := C.feed hdt ha hab I0 I1 (st 0 (by omega)) (st 1 (by omega)) (n 0 (by omega)) (n 1 (by omega)) N.plus N.minus
    have t2 := relay1 C.run (st 2 (by omega)) le_rfl I2 A1 (by intro c hc; cases neg <;> simp [on] at hc; omega)
    have t3 := relay1 C.run (st 3 (by omega)) le_rfl I3 A0 (by intro c hc; cases neg <;> simp [on] at hc; omega)
    rw [hout]
    have hlt : a + dly dt 1 < a + l + dly dt 1 := by omega
    refine ⟨?_, ?_, by omega, by omega, ?_, ?_⟩
    · rw [show a + dly dt (1 : K) + dly dt 1 + l = a + l + dly dt 1 + dly dt 1 by omega]
      cases neg
      · exact Train.arr0 hdt t2 (n 2 (by omega)) 1
      · exact Train.arr2 hdt t2 hlt (n 2 (by omega)) 1
    · rw [show a + dly dt (1 : K) + dly dt 1 + l = a + l + dly dt 1 + dly dt 1 by omega]
      cases neg
      · exact Train.arr2 hdt t3 hlt (n 3 (by omega)) 1
      · exact Train.arr0 hdt t3 (n 3 (by omega)) 1
    · have := N.err
      push_cast at this ⊢
      rw [show ((a : K) + dly dt (1 : K) + dly dt (1 : K) + l) * dt - (a + dly dt (1 : K) + dly dt (1 : K)) * dt = (a + l) * dt - a * dt by ring]
      exact this
    · have := N.time
      push_cast at this ⊢
      linarith

set_option maxHeartbeats 1000000 in
/-- A multiplication one of whose factors comes with the shortest interval. -/
theorem CRun.mulZero (C : CRun h root r dt w' plan L ns s0 S F) (hr : 0 < r) (hdt : 0 < dt) (hdt' : dt < 1 / 50) {k l : ℕ} (hk : (k : K) * dt = 1)
    (hl : (l : K) * dt = 10) {u₁ u₂ v : ℕ} (hv : v ∈ L.nodes)
    (hop : h.op v = .mul) (hp : h.prev v = [u₁, u₂]) {x₁ x₂ ε₁ ε₂ D₁ D₂ ε D : K} {neg₁ neg₂ : Bool} {a₁ b₁ a₂ b₂ : ℕ}
    (h₁ : NodeIn r dt (loadSpikes defaultEncoder h r L) F (L.out u₁) x₁ ε₁ D₁ neg₁ a₁ b₁)
    (h₂ : NodeIn r dt (loadSpikes defaultEncoder h r L) F (L.out u₂) x₂ ε₂ D₂ neg₂ a₂ b₂)
    (hb : b₁ = a₁ + l ∨ b₂ = a₂ + l) (hε₁ : ε₁ ≤ 8) (hε₂ : ε₂ ≤ 8)
    (hx₁' : |x₁| / r * 100 + (ε₁ + dt) ≤ 100) (hx₂' : |x₂| / r * 100 + (ε₂ + dt) ≤ 100) (hamp : r * (2 * dt) ≤ 10)
    (hε : r * (2 * dt) + 2 * dt ≤ ε) (hD₁ : D₁ + 597 + 110 / r + 12 * dt ≤ D) (hD₂ : D₂ + 597 + 110 / r + 12 * dt ≤ D) :
    NodeOK r dt (loadSpikes defaultEncoder h r L) F (L.out v) 0 ε D := by
  obtain ⟨es, el, ey⟩ := mul_block (K := K) r
  have hlen : (spawnEmpty (h.op v) r).2.neus.length = 28 := by rw [hop, el]
  have hout : L.out v = ⟨L.off v + 22, L.off v + 23⟩ := by rw [C.faith.outCopy v hv, hop, es]; rfl
  have hi0 : L.inp v 0 = ⟨L.off v + 18, L.off v + 19⟩ := by
    rw [(inp_at C.faith hv (C.good v hv) (k := 0) (by rw [hp]; simp)).1, hop, es]; rfl
  have hi1 : L.inp v 1 = ⟨L.off v + 20, L.off v + 21⟩ := by
    rw [(inp_at C.faith hv (C.good v hv) (k := 1) (by rw [hp]; simp)).1, hop, es]; rfl
  have n : ∀ k < 28, _ := fun k hk => C.noinj hv (by rw [hop]; simp) (k := k) (by omega)
  have st : ∀ k < 28, _ := fun k hk => C.std v hv k (by omega)
  have I : ∀ k < 28, _ := fun k hk => placed_ins (ns := ns) C.faith C.good hv (k := k) (by omega)
  rw [hop, hp, ey] at I
  simp only [List.zipIdx_cons, List.zipIdx_nil, List.flatMap_cons, List.flatMap_nil, List.append_nil, hi0, Nat.zero_add, hi1, wire] at I
  have E : Embeds (w'.net ns) s0 (loadSpikes defaultEncoder h r L) (L.off v) (smulnSyns r defaultEncoder)
      [0, 1, 2, 3, 4, 5, 6, 7, 8, 9, 10, 11, 12, 13, 14, 15, 16, 17, 22, 23, 24, 25, 26, 27] := by
    have hb : ∀ k ∈ [0, 1, 2, 3, 4, 5, 6, 7, 8, 9, 10, 11, 12, 13, 14, 15, 16, 17, 22, 23, 24, 25, 26, 27],
        k < 28 ∧ k ≠ 18 ∧ k ≠ 19 ∧ k ≠ 20 ∧ k ≠ 21 := by
      intro k hk
      simp at hk
      omega
    refine ⟨fun k hk => st k (hb k hk).1, fun k hk => n k (hb k hk).1, fun k hk => ?_⟩
    obtain ⟨b0, b1, b2, b3, b4⟩ := hb k hk
    have := I k b0
    simpa [b1.symm, b2.symm, b3.symm, b4.symm] using this
  have hc := smuln_ports r (defaultEncoder : Encoder K)
  have I18 : InS (w'.net ns) (L.off v + 18) [⟨(L.out u₁).plus, L.off v + 18, 10, 1, .V⟩] := by
    have := I 18 (by omega)
    rw [hc 18 (by simp)] at this
    simpa using this
  have I19 : InS (w'.net ns) (L.off v + 19) [⟨(L.out u₁).minus, L.off v + 19, 10, 1, .V⟩] := by
    have := I 19 (by omega)
    rw [hc 19 (by simp)] at this
    simpa using this
  have I20 : InS (w'.net ns) (L.off v + 20) [⟨(L.out u₂).plus, L.off v + 20, 10, 1, .V⟩] := by
    have := I 20 (by omega)
    rw [hc 20 (by simp)] at this
    simpa using this
  have I21 : InS (w'.net ns) (L.off v + 21) [⟨(L.out u₂).minus, L.off v + 21, 10, 1, .V⟩] := by
    have := I 21 (by omega)
    rw [hc 21 (by simp)] at this
    simpa using this
  obtain ⟨Ap₁, Am₁, ha₁, hab₁, herr₁, hb₁⟩ := h₁
  obtain ⟨Ap₂, Am₂, ha₂, hab₂, herr₂, hb₂⟩ := h₂
  obtain ⟨d1, d2⟩ := dly_bd hdt (one_pos (α := K))
  obtain ⟨A18, A19⟩ := C.feed hdt ha₁ hab₁ I18 I19 (st 18 (by omega)) (st 19 (by omega)) (n 18 (by omega)) (n 19 (by omega)) Ap₁ Am₁
  obtain ⟨A20, A21⟩ := C.feed hdt ha₂ hab₂ I20 I21 (st 20 (by omega)) (st 21 (by omega)) (n 20 (by omega)) (n 21 (by omega)) Ap₂ Am₂
  have hTm : (defaultEncoder : Encoder K).Tmin = 10 := rfl
  have hTc : (defaultEncoder : Encoder K).Tcod = 100 := rfl
  have hTe : (defaultEncoder : Encoder K).Tmax = 110 := by simp [Encoder.Tmax, defaultEncoder]; norm_num
  have pos : ∀ x : K, 0 ≤ |x| / r * 100 := fun x => by positivity
  have gap : ∀ {a b : ℕ} {x e : K}, |((b : K) * dt - (a : K) * dt) - (10 + |x| / r * 100)| ≤ e → e ≤ 8 →
      a + dly dt 1 + dly dt 1 ≤ b + dly dt 1 := by
    intro a b x e he hy
    have := abs_le.mp he
    have := pos x
    refine step_le hdt ?_
    push_cast; linarith
  have e1 : dly dt (1 : K) = k := dly_exact hdt one_pos hk
  have e2 : dly dt (1 + (defaultEncoder : Encoder K).Tmin) = k + l := dly_exact hdt (by rw [hTm]; norm_num) (by rw [hTm]; push_cast; linarith)
  have chg : ∀ {a b : ℕ} {x e : K}, |((b : K) * dt - (a : K) * dt) - (10 + |x| / r * 100)| ≤ e → |x| / r * 100 + (e + dt) ≤ 100 →
      ((b + dly dt 1 + dly dt 1 - (a + dly dt 1 + dly dt (1 + (defaultEncoder : Encoder K).Tmin)) : ℕ) : K) * dt / (defaultEncoder : Encoder K).Tcod < 1 := by
    intro a b x e he hx
    rw [hTc, div_lt_one (by norm_num), e1, e2]
    have h3 := abs_le.mp he
    rcases Nat.le_total (b + k + k) (a + k + (k + l)) with h | h
    · rw [Nat.sub_eq_zero_of_le h]; simp
    · rw [Nat.cast_sub h]; push_cast; linarith
  obtain ⟨p, q, t22, t23, h1p, hpq, herr, hq⟩ := smuln_zero C.run hdt (by linarith) hr (by rw [hTc]; norm_num) (by rw [hTm]; linarith) hk
    (by rw [hTm]; exact hl) E neg₁ neg₂ (by omega) (gap herr₁ hε₁) (by omega) (gap herr₂ hε₂) A18 A19 A20 A21 (chg herr₁ hx₁') (chg herr₂ hx₂')
    (by omega) (by rw [hTm]; exact hamp)
  rw [show (neg₁ == neg₂) = !(neg₁ != neg₂) by cases neg₁ <;> cases neg₂ <;> rfl] at t22
  rw [hout]
  refine NodeOK.of_trains hdt (neg := neg₁ != neg₂) (by cases (neg₁ != neg₂) <;> simp [signed]) t22 t23 (n 22 (by omega)) (n 23 (by omega)) h1p hpq
    (by rw [abs_zero, zero_div, zero_mul, add_zero]; rw [hTm] at herr; exact herr.trans hε) ?_
  have hmax : ((max (b₁ + dly dt 1) (b₂ + dly dt 1) : ℕ) : K) * dt + 596 + 110 / r + 11 * dt ≤ D := by
    rcases le_total (b₁ + dly dt 1) (b₂ + dly dt 1) with hle | hle
    · rw [max_eq_right hle]; push_cast; linarith
    · rw [max_eq_left hle]; push_cast; linarith
  rw [hTe, hTm, hTc] at hq
  linarith

/-- **Every operation of the program shows its value**, within its budget. -/
theorem CRun.node (C : CRun h root r dt w' plan L ns s0 S F) (hr : 0 < r) (hdt : 0 < dt) (hdt' : dt < 1 / 50) {v : ℕ} {x ε D : K}
    (hB : Budget h r dt v x ε D) (hv : v ∈ L.nodes) : NodeOK r dt (loadSpikes defaultEncoder h r L) F (L.out v) x ε D := by
  have hop' : ∀ {v u : ℕ}, v ∈ L.nodes → u ∈ h.prev v → u ∈ L.nodes := fun hv hu =>
    (C.faith.nodes _).mpr (((C.faith.nodes _).mp hv).tail hu)
  induction hB with
  | load hop _ hx hε hD => exact C.load hr hdt (by linarith) hv hop hx hε hD
  | neg hop hp _ hD ih => exact C.neg hdt hv hop hp (ih (hop' hv (by rw [hp]; simp))) hD
  | add hop hp _ _ hε₁ hε₂ hpos hneg hzero hε hD₁ hD₂ ih₁ ih₂ =>
    exact C.add hr hdt hdt' hv hop hp (ih₁ (hop' hv (by rw [hp]; simp))) (ih₂ (hop' hv (by rw [hp]; simp))) hε₁ hε₂ hpos hneg hzero hε hD₁ hD₂
  | mul hop hp _ _ hx₁ hx₁' hx₂ hx₂' hxx hdecay hsmall hamp hε hD₁ hD₂ ih₁ ih₂ =>
    exact C.mul hr hdt (by linarith) hv hop hp (ih₁ (hop' hv (by rw [hp]; simp))) (ih₂ (hop' hv (by rw [hp]; simp))) hx₁ hx₁' hx₂ hx₂' hxx
      hdecay hsmall hamp hε hD₁ hD₂
  | @mulZero v u₁ u₂ x₁ x₂ ε₁ ε₂ D₁ D₂ ε D hop hp B₁ B₂ hz hk hε₁ hε₂ hx₁' hx₂' hamp hε hD₁ hD₂ ih₁ ih₂ =>
    obtain ⟨k, hk⟩ := hk
    have hl : ((10 * k : ℕ) : K) * dt = 10 := by push_cast; linarith
    have v1 : u₁ ∈ L.nodes := hop' hv (by rw [hp]; simp)
    have v2 : u₂ ∈ L.nodes := hop' hv (by rw [hp]; simp)
    have p0 : ∀ x : K, 0 ≤ |x| / r * 100 := fun x => by positivity
    obtain ⟨n₁, a₁, b₁, N₁⟩ := (ih₁ v1).in
    obtain ⟨n₂, a₂, b₂, N₂⟩ := (ih₂ v2).in
    have g₁ : 0 ≤ ε₁ := (abs_nonneg _).trans N₁.err
    have g₂ : 0 ≤ ε₂ := (abs_nonneg _).trans N₂.err
    rcases hz with hz | hz
    · obtain ⟨e, m, a, N⟩ := C.zero hr hdt (by linarith) hl v1 B₁ hz
      rw [e, zero_mul]
      exact C.mulZero hr hdt hdt' hk hl hv hop hp N N₂ (.inl rfl) (by norm_num) hε₂ (by rw [abs_zero, zero_div, zero_mul]; linarith) hx₂' hamp hε hD₁ hD₂
    · obtain ⟨e, m, a, N⟩ := C.zero hr hdt (by linarith) hl v2 B₂ hz
      rw [e, mul_zero]
      exact C.mulZero hr hdt hdt' hk hl hv hop hp N₁ N (.inr rfl) hε₁ (by norm_num) hx₁' (by rw [abs_zero, zero_div, zero_mul]; linarith) hamp hε hD₁ hD₂

end
end Axon
