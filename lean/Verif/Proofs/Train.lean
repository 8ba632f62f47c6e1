import Verif.Props.Simulator
import Mathlib.Tactic.Ring
import Mathlib.Tactic.FieldSimp

/-! # Spike trains of single neurons

Tools for computing in which steps a neuron fires, from the steps in which events arrive.  All
statements have a horizon `n` ("up to step `n`"), so that feedback loops can be treated by induction
on the horizon. -/
set_option linter.unusedSectionVars false
namespace Axon
open Spec
variable {K : Type*} [Field K] [LinearOrder K] [IsStrictOrderedRing K] [FloorRing K]

/-- Number of steps a spike needs over a synapse with delay `D`. -/
def dly (dt D : K) : ℕ := max 1 ⌈D / dt⌉₊

theorem one_le_dly (dt D : K) : 1 ≤ dly dt D := le_max_left _ _

/-- Number of spikes arriving in step `i` over a synapse from `pre` with delay `D`. -/
def arrC (dt : K) (inj : List (ℕ × K)) (F : ℕ → ℕ → Bool) (pre : ℕ) (D : K) (i : ℕ) : ℕ :=
  arrivals dt inj F ⟨pre, 0, 0, D, .V⟩ i

/-- Up to step `n`, neuron `x` fires exactly in the steps listed in `T`. -/
def TrainTo (F : ℕ → ℕ → Bool) (n x : ℕ) (T : List ℕ) : Prop := ∀ i ≤ n, F i x = true ↔ i ∈ T

/-- Neuron `x` fires exactly in the steps listed in `T`. -/
def Train (F : ℕ → ℕ → Bool) (x : ℕ) (T : List ℕ) : Prop := ∀ i, F i x = true ↔ i ∈ T

/-- Up to step `n`, spikes of `pre` arrive over delay `D` in the steps listed in `A`. -/
def ArrTo (dt : K) (inj : List (ℕ × K)) (F : ℕ → ℕ → Bool) (n pre : ℕ) (D : K) (A : List ℕ) : Prop :=
  ∀ i ≤ n, arrC dt inj F pre D i = A.count i

/-- Spikes of `pre` arrive over delay `D` in the steps listed in `A`. -/
def Arr (dt : K) (inj : List (ℕ × K)) (F : ℕ → ℕ → Bool) (pre : ℕ) (D : K) (A : List ℕ) : Prop :=
  ∀ i, arrC dt inj F pre D i = A.count i

theorem Train.to {F : ℕ → ℕ → Bool} {x : ℕ} {T} (h : Train F x T) (n : ℕ) : TrainTo F n x T := fun i _ => h i
theorem Train.of {F : ℕ → ℕ → Bool} {x : ℕ} {T} (h : ∀ n, TrainTo F n x T) : Train F x T := fun i => h i i le_rfl
theorem Arr.to {dt : K} {inj} {F : ℕ → ℕ → Bool} {x : ℕ} {D : K} {A} (h : Arr dt inj F x D A) (n : ℕ) :
    ArrTo dt inj F n x D A := fun i _ => h i

theorem Arr.perm {dt : K} {inj} {F : ℕ → ℕ → Bool} {x : ℕ} {D : K} {A B} (h : Arr dt inj F x D A)
    (hp : A.Perm B) : Arr dt inj F x D B := fun i => by rw [h i, hp.count_eq]

theorem TrainTo.mono {F : ℕ → ℕ → Bool} {x n m : ℕ} {T} (h : TrainTo F n x T) (hm : m ≤ n) : TrainTo F m x T :=
  fun i hi => h i (by omega)

theorem ArrTo.mono {dt : K} {inj} {F : ℕ → ℕ → Bool} {x n m : ℕ} {D : K} {A} (h : ArrTo dt inj F n x D A)
    (hm : m ≤ n) : ArrTo dt inj F m x D A := fun i hi => h i (by omega)

theorem countP_range_unique (P : ℕ → Bool) (j0 : ℕ) (hu : ∀ j, P j = true → j = j0) (n : ℕ) :
    (List.range n).countP P = if j0 < n ∧ P j0 = true then 1 else 0 := by
  induction n with
  | zero => simp
  | succ n ih =>
    rw [List.range_succ, List.countP_append, ih]
    by_cases hP : P n = true
    · have := hu n hP
      subst this
      simp [hP]
    · simp only [List.countP_cons, List.countP_nil, hP, Bool.false_eq_true, if_false, Nat.add_zero]
      by_cases h0 : P j0 = true
      · have : j0 ≠ n := fun h => hP (h ▸ h0)
        simp only [h0, and_true]
        congr 1
        simp only [eq_iff_iff]; omega
      · simp [h0]

/-- Arrivals of injected and fired spikes. -/
theorem arr_of_train {dt : K} (hdt : 0 < dt) {inj} {F : ℕ → ℕ → Bool} {x n : ℕ} {T : List ℕ}
    (h : TrainTo F n x T) (hnd : T.Nodup) (D : K) :
    ArrTo dt inj F (n + 1) x D ((injTimes inj x).map (fun τ => arrInj dt τ D) ++ T.map (· + dly dt D)) := by
  intro i hi
  rw [List.count_append]
  unfold arrC arrivals
  congr 1
  · rw [injTimes, List.map_map, List.count, List.countP_map, List.countP_filter]
    apply List.countP_congr
    intro q _
    simp [and_comm]
  · rw [countP_range_unique _ (i - dly dt D)]
    · have h1 := one_le_dly dt D
      by_cases hd : dly dt D ≤ i
      · have e : i = (i - dly dt D) + dly dt D := by omega
        have hcount : (T.map (· + dly dt D)).count i = T.count (i - dly dt D) := by
          rw [List.count, List.countP_map, List.count]
          apply List.countP_congr
          intro j _
          simp; omega
        have hmem := h (i - dly dt D) (by omega)
        rw [hcount, hnd.count]
        simp only [C14_internal_delay dt hdt, hmem]
        congr 1
        have : i - dly dt D + max 1 ⌈D / dt⌉₊ = i := by
          show i - dly dt D + dly dt D = i
          omega
        simp [this]; omega
      · have hcount : (T.map (· + dly dt D)).count i = 0 := by
          rw [List.count_eq_zero]
          intro hm
          obtain ⟨j, -, hj⟩ := List.mem_map.mp hm
          omega
        rw [hcount, if_neg]
        simp only [C14_internal_delay dt hdt, decide_eq_true_eq]
        rintro ⟨-, -, h3⟩
        have : i - dly dt D + dly dt D = i := h3
        omega
    · intro j hj
      simp only [C14_internal_delay dt hdt, decide_eq_true_eq] at hj
      have : j + dly dt D = i := hj.2
      omega

/-- Fired spikes of a neuron nobody injects into. -/
theorem TrainTo.arr {dt : K} (hdt : 0 < dt) {inj} {F : ℕ → ℕ → Bool} {x n : ℕ} {T : List ℕ}
    (h : TrainTo F n x T) (hnd : T.Nodup) (hi : injTimes inj x = []) (D : K) :
    ArrTo dt inj F (n + 1) x D (T.map (· + dly dt D)) := by
  have := arr_of_train hdt h hnd (inj := inj) D
  rwa [hi, List.map_nil, List.nil_append] at this

theorem Train.arr {dt : K} (hdt : 0 < dt) {inj} {F : ℕ → ℕ → Bool} {x : ℕ} {T : List ℕ}
    (h : Train F x T) (hnd : T.Nodup) (hi : injTimes inj x = []) (D : K) :
    Arr dt inj F x D (T.map (· + dly dt D)) := fun i =>
  (h.to i).arr hdt hnd hi D i (by omega)

theorem Train.arr0 {dt : K} (hdt : 0 < dt) {inj} {F : ℕ → ℕ → Bool} {x : ℕ}
    (h : Train F x []) (hi : injTimes inj x = []) (D : K) : Arr dt inj F x D [] :=
  h.arr hdt (by simp) hi D

theorem Train.arr1 {dt : K} (hdt : 0 < dt) {inj} {F : ℕ → ℕ → Bool} {x a : ℕ}
    (h : Train F x [a]) (hi : injTimes inj x = []) (D : K) : Arr dt inj F x D [a + dly dt D] :=
  h.arr hdt (by simp) hi D

theorem Train.arr2 {dt : K} (hdt : 0 < dt) {inj} {F : ℕ → ℕ → Bool} {x a b : ℕ}
    (h : Train F x [a, b]) (hab : a < b) (hi : injTimes inj x = []) (D : K) :
    Arr dt inj F x D [a + dly dt D, b + dly dt D] :=
  h.arr hdt (by simp; omega) hi D

/-- Injected spikes of a silent neuron. -/
theorem Train.arr_inj {dt : K} (hdt : 0 < dt) {inj} {F : ℕ → ℕ → Bool} {x : ℕ}
    (h : Train F x []) (D : K) :
    Arr dt inj F x D ((injTimes inj x).map (fun τ => arrInj dt τ D)) := fun i => by
  have := arr_of_train hdt (h.to i) List.nodup_nil (inj := inj) D i (by omega)
  simpa using this

/-! ## Weighted events -/

/-- Sum of the weights of the events in step `i`. -/
def evAt (E : List (ℕ × K)) (i : ℕ) : K := (E.map (fun e => if e.1 = i then e.2 else 0)).sum

theorem evAt_nil (i : ℕ) : evAt ([] : List (ℕ × K)) i = 0 := rfl

theorem evAt_append (E E' : List (ℕ × K)) (i : ℕ) : evAt (E ++ E') i = evAt E i + evAt E' i := by
  simp [evAt]

theorem evAt_perm {E E' : List (ℕ × K)} (h : E.Perm E') (i : ℕ) : evAt E i = evAt E' i :=
  (h.map _).sum_eq

theorem evAt_map (A : List ℕ) (w : K) (i : ℕ) : evAt (A.map (fun a => (a, w))) i = (A.count i : K) * w := by
  induction A with
  | nil => simp [evAt]
  | cons a A ih =>
    simp only [List.map_cons, evAt, List.sum_cons, List.count_cons] at ih ⊢
    rw [ih]
    by_cases h : a = i
    · simp [h]; ring
    · simp [h]

section run
variable {net : Net K} {dt : K} {inj : List (ℕ × K)} {s0 : ℕ → NState K} {S : ℕ → ℕ → NState K}
  {F : ℕ → ℕ → Bool}

/-- Up to step `n`, the type-`k` input of `x` is the event list `E`. -/
def InE (net : Net K) (dt : K) (inj : List (ℕ × K)) (F : ℕ → ℕ → Bool) (n x : ℕ) (k : SynKind)
    (E : List (ℕ × K)) : Prop := ∀ i ≤ n, input net dt inj F k x i = evAt E i

/-- The synapses leading to `x` are those of `L`, in some order. -/
def InS (net : Net K) (x : ℕ) (L : List (Synapse K)) : Prop :=
  (net.syns.filter (fun s => s.post = x)).Perm L

theorem input_inS {x : ℕ} {L : List (Synapse K)} (h : InS net x L) (k : SynKind) (i : ℕ) :
    input net dt inj F k x i =
      ((L.filter (fun s => s.kind = k)).map (fun s => (arrC dt inj F s.pre s.delay i : K) * s.weight)).sum := by
  have hp : (net.syns.filter (fun s => s.post = x ∧ s.kind = k)).Perm (L.filter (fun s => s.kind = k)) := by
    have := h.filter (fun s => decide (s.kind = k))
    rw [List.filter_filter] at this
    refine (List.Perm.of_eq ?_).trans this
    congr 1
    funext s
    by_cases h1 : s.post = x <;> by_cases h2 : s.kind = k <;> simp [h1, h2]
  unfold input
  exact (hp.map _).sum_eq

/-- The event list made of arrivals `A` over each synapse of `L`. -/
def evs (L : List (Synapse K × List ℕ)) : List (ℕ × K) :=
  L.flatMap (fun p => p.2.map (fun a => (a, p.1.weight)))

theorem inE_of {x n : ℕ} {L : List (Synapse K)} (h : InS net x L) (k : SynKind)
    (LA : List (Synapse K × List ℕ)) (hL : L.filter (fun s => s.kind = k) = LA.map (·.1))
    (hA : ∀ p ∈ LA, ArrTo dt inj F n p.1.pre p.1.delay p.2) : InE net dt inj F n x k (evs LA) := by
  intro i hi
  rw [input_inS h, hL]
  clear hL
  induction LA with
  | nil => simp [evs, evAt]
  | cons p LA ih =>
    have ih' := ih (fun q hq => hA q (by simp [hq]))
    rw [List.map_cons, List.map_cons, List.sum_cons, ih', show evs (p :: LA) = p.2.map (fun a => (a, p.1.weight)) ++ evs LA from rfl,
      evAt_append, evAt_map, hA p (by simp) i hi]

/-! ## Neurons driven by V and ge events -/

/-- Contribution to the potential in step `i` of the V events `E` and ge events `G` that arrived after
step `lo`, if nothing was reset in between. -/
def Phi (dt tm : K) (E G : List (ℕ × K)) (lo i : ℕ) : K :=
  (E.map (fun e => if lo < e.1 ∧ e.1 ≤ i then e.2 else 0)).sum +
  (G.map (fun e => if lo < e.1 ∧ e.1 ≤ i then e.2 * ((i - e.1 + 1 : ℕ) : K) * dt / tm else 0)).sum

/-- Sum of the ge events that arrived after step `lo`, up to step `i`. -/
def Gsum (G : List (ℕ × K)) (lo i : ℕ) : K :=
  (G.map (fun e => if lo < e.1 ∧ e.1 ≤ i then e.2 else 0)).sum

theorem Gsum_succ (G : List (ℕ × K)) {lo i : ℕ} (h : lo ≤ i) :
    Gsum G lo (i + 1) = Gsum G lo i + evAt G (i + 1) := by
  unfold Gsum evAt
  induction G with
  | nil => simp
  | cons e G ih =>
    simp only [List.map_cons, List.sum_cons, ih]
    by_cases h1 : e.1 = i + 1
    · rw [if_pos (by omega), if_neg (by omega), if_pos h1]; ring
    · by_cases h2 : lo < e.1 ∧ e.1 ≤ i
      · rw [if_pos (by omega), if_pos h2, if_neg h1]; ring
      · rw [if_neg (by omega), if_neg h2, if_neg h1]; ring

theorem Gsum_self (G : List (ℕ × K)) (i : ℕ) : Gsum G i i = 0 := by
  unfold Gsum
  rw [List.sum_eq_zero]
  intro x hx
  obtain ⟨e, -, rfl⟩ := List.mem_map.mp hx
  rw [if_neg (by omega)]

theorem Phi_self (dt tm : K) (E G : List (ℕ × K)) (i : ℕ) : Phi dt tm E G i i = 0 := by
  have h1 := Gsum_self E i
  unfold Gsum at h1
  unfold Phi
  rw [h1, zero_add, List.sum_eq_zero]
  intro x hx
  obtain ⟨e, -, rfl⟩ := List.mem_map.mp hx
  rw [if_neg (by omega)]

theorem Phi_succ (dt tm : K) (E G : List (ℕ × K)) {lo i : ℕ} (h : lo ≤ i) :
    Phi dt tm E G lo (i + 1) = Phi dt tm E G lo i + evAt E (i + 1) + dt * Gsum G lo (i + 1) / tm := by
  have hE := Gsum_succ E h
  have hG : (G.map (fun e => if lo < e.1 ∧ e.1 ≤ i + 1 then e.2 * ((i + 1 - e.1 + 1 : ℕ) : K) * dt / tm else 0)).sum
      = (G.map (fun e => if lo < e.1 ∧ e.1 ≤ i then e.2 * ((i - e.1 + 1 : ℕ) : K) * dt / tm else 0)).sum
        + dt * Gsum G lo (i + 1) / tm := by
    unfold Gsum
    induction G with
    | nil => simp
    | cons e G ih =>
      simp only [List.map_cons, List.sum_cons, ih]
      by_cases h1 : e.1 = i + 1
      · rw [if_pos (by omega), if_neg (by omega), if_pos (by omega)]
        have : i + 1 - e.1 + 1 = 1 := by omega
        rw [this]; push_cast; ring
      · by_cases h2 : lo < e.1 ∧ e.1 ≤ i
        · rw [if_pos (by omega), if_pos h2, if_pos (by omega)]
          have : i + 1 - e.1 + 1 = (i - e.1 + 1) + 1 := by omega
          rw [this]; push_cast; ring
        · rw [if_neg (by omega), if_neg h2, if_neg (by omega)]; ring
  unfold Phi
  rw [hG]
  unfold Gsum at hE
  rw [hE]
  unfold Gsum
  ring

/-- The last step in `T` before `i` (0 if there is none). -/
def lastBefore (T : List ℕ) (i : ℕ) : ℕ := (T.filter (fun t => t < i)).foldr max 0

theorem le_foldr_max (l : List ℕ) {a : ℕ} (h : a ∈ l) : a ≤ l.foldr max 0 := by
  induction l with
  | nil => simp at h
  | cons b l ih =>
    rcases List.mem_cons.mp h with rfl | h
    · exact le_max_left _ _
    · exact (ih h).trans (le_max_right _ _)

theorem foldr_max_le (l : List ℕ) {b : ℕ} (h : ∀ a ∈ l, a ≤ b) : l.foldr max 0 ≤ b := by
  induction l with
  | nil => simp
  | cons a l ih => exact max_le (h a (by simp)) (ih (fun a' h' => h a' (by simp [h'])))

theorem lastBefore_succ (T : List ℕ) (i : ℕ) :
    lastBefore T (i + 1) = if i ∈ T then i else lastBefore T i := by
  by_cases h : i ∈ T
  · rw [if_pos h]
    apply le_antisymm
    · apply foldr_max_le
      intro a ha
      have := (List.mem_filter.mp ha).2
      simp at this; omega
    · apply le_foldr_max
      simp [h]
  · rw [if_neg h]
    unfold lastBefore
    congr 1
    apply List.filter_congr
    intro t ht
    have : t ≠ i := fun e => h (e ▸ ht)
    simp; omega

theorem lastBefore_le (T : List ℕ) (i : ℕ) : lastBefore T (i + 1) ≤ i := by
  apply foldr_max_le
  intro a ha
  have := (List.mem_filter.mp ha).2
  simp at this; omega

/-- Parameters of all neurons of the library networks: Vt = 10, tm = 100, tf = 20, Vreset = 0. -/
def stdPar : Params K := ⟨10, 100, 20, 0⟩

/-- Neuron `x` is a library neuron of the network that was fresh at the start. -/
structure IsStd (net : Net K) (s0 : ℕ → NState K) (x : ℕ) : Prop where
  mem : x ∈ net.neurons
  par : net.par x = stdPar
  fresh : s0 x = ⟨0, 0, 0, 0⟩

/-- **Response of a neuron driven by V and ge events**: certificate form. -/
theorem train_cert (hr : IsRun net dt inj s0 S F) {x n : ℕ} (hx : IsStd net s0 x) {E G : List (ℕ × K)}
    (hE : InE net dt inj F n x .V E) (hG : InE net dt inj F n x .ge G)
    (hf : InE net dt inj F n x .gf []) (hg : InE net dt inj F n x .gate []) (T : List ℕ) (hT0 : 0 ∉ T)
    (hc : ∀ i, 1 ≤ i → i ≤ n → (i ∈ T ↔ 10 ≤ Phi dt 100 E G (lastBefore T i) i)) :
    ∀ i ≤ n, (F i x = true ↔ i ∈ T) ∧
      S i x = if i ∈ T then ⟨0, 0, 0, 0⟩ else
        ⟨Phi dt 100 E G (lastBefore T i) i, Gsum G (lastBefore T i) i, 0, 0⟩ := by
  intro i
  induction i with
  | zero =>
    intro _
    refine ⟨?_, ?_⟩
    · rw [(hr.start x).2]; simp [hT0]
    · rw [(hr.start x).1, hx.fresh, if_neg hT0]
      have : lastBefore T 0 = 0 := by simp [lastBefore]
      rw [this, Phi_self, Gsum_self]
  | succ i ih =>
    intro hi
    obtain ⟨-, ihS⟩ := ih (by omega)
    have hst : S i x = ⟨Phi dt 100 E G (lastBefore T (i + 1)) i, Gsum G (lastBefore T (i + 1)) i, 0, 0⟩ := by
      rw [ihS, lastBefore_succ]
      by_cases h : i ∈ T
      · rw [if_pos h, if_pos h, Phi_self, Gsum_self]
      · rw [if_neg h, if_neg h]
    have hle := lastBefore_le T i
    have hstep := hr.step i x hx.mem
    rw [hx.par, hst] at hstep
    simp only [nstep, stdPar, hE (i + 1) hi, hG (i + 1) hi, hf (i + 1) hi, hg (i + 1) hi, evAt_nil,
      add_zero, mul_zero, ← Gsum_succ G hle, ← Phi_succ dt 100 E G hle] at hstep
    have hci := hc (i + 1) (by omega) hi
    by_cases h : 10 ≤ Phi dt 100 E G (lastBefore T (i + 1)) (i + 1)
    · rw [if_pos h] at hstep
      have := Prod.mk.inj hstep
      rw [this.1, this.2, if_pos (hci.mpr h)]
      exact ⟨by simp [hci.mpr h], rfl⟩
    · rw [if_neg h] at hstep
      have := Prod.mk.inj hstep
      have hn : i + 1 ∉ T := fun hh => h (hci.mp hh)
      rw [this.1, this.2, if_neg hn]
      refine ⟨by simp [hn], ?_⟩
      simp

theorem train_none (hr : IsRun net dt inj s0 S F) {x n : ℕ} (hx : IsStd net s0 x) {E G : List (ℕ × K)}
    (hE : InE net dt inj F n x .V E) (hG : InE net dt inj F n x .ge G)
    (hf : InE net dt inj F n x .gf []) (hg : InE net dt inj F n x .gate [])
    (h : ∀ i, 1 ≤ i → i ≤ n → Phi dt 100 E G 0 i < 10) : TrainTo F n x [] := by
  intro i hi
  refine (train_cert hr hx hE hG hf hg [] (by simp) ?_ i hi).1
  intro i h1 h2
  simp only [List.not_mem_nil, false_iff, not_le, lastBefore, List.filter_nil, List.foldr_nil]
  exact h i h1 h2

theorem train_one (hr : IsRun net dt inj s0 S F) {x n : ℕ} (hx : IsStd net s0 x) {E G : List (ℕ × K)}
    (hE : InE net dt inj F n x .V E) (hG : InE net dt inj F n x .ge G)
    (hf : InE net dt inj F n x .gf []) (hg : InE net dt inj F n x .gate []) {p : ℕ} (hp : 1 ≤ p)
    (h1 : ∀ i, 1 ≤ i → i < p → Phi dt 100 E G 0 i < 10) (h2 : 10 ≤ Phi dt 100 E G 0 p)
    (h3 : ∀ i, p < i → Phi dt 100 E G p i < 10) : TrainTo F n x [p] := by
  intro i hi
  refine (train_cert hr hx hE hG hf hg [p] (by simp; omega) ?_ i hi).1
  intro i a b
  rcases lt_trichotomy i p with h | rfl | h
  · have : lastBefore [p] i = 0 := by
      unfold lastBefore; rw [List.filter_cons_of_neg (by simp; omega)]; rfl
    rw [this]
    have := h1 i a h
    simp only [List.mem_singleton]
    exact ⟨fun e => by omega, fun e => (not_le.mpr this e).elim⟩
  · have : lastBefore [i] i = 0 := by simp [lastBefore]
    rw [this]; simp [h2]
  · have : lastBefore [p] i = p := by simp [lastBefore, h]
    rw [this]
    have := h3 i h
    simp only [List.mem_singleton]
    exact ⟨fun e => by omega, fun e => (not_le.mpr this e).elim⟩

theorem train_two (hr : IsRun net dt inj s0 S F) {x n : ℕ} (hx : IsStd net s0 x) {E G : List (ℕ × K)}
    (hE : InE net dt inj F n x .V E) (hG : InE net dt inj F n x .ge G)
    (hf : InE net dt inj F n x .gf []) (hg : InE net dt inj F n x .gate []) {p q : ℕ} (hp : 1 ≤ p)
    (hpq : p < q)
    (h1 : ∀ i, 1 ≤ i → i < p → Phi dt 100 E G 0 i < 10) (h2 : 10 ≤ Phi dt 100 E G 0 p)
    (h3 : ∀ i, p < i → i < q → Phi dt 100 E G p i < 10) (h4 : 10 ≤ Phi dt 100 E G p q)
    (h5 : ∀ i, q < i → Phi dt 100 E G q i < 10) : TrainTo F n x [p, q] := by
  intro i hi
  refine (train_cert hr hx hE hG hf hg [p, q] (by simp; omega) ?_ i hi).1
  intro i a b
  have hl : lastBefore [p, q] i = if q < i then q else if p < i then p else 0 := by
    unfold lastBefore
    by_cases e1 : q < i
    · rw [if_pos e1, List.filter_cons_of_pos (by simp; omega), List.filter_cons_of_pos (by simp [e1])]
      simp; omega
    · by_cases e2 : p < i
      · rw [if_neg e1, if_pos e2, List.filter_cons_of_pos (by simp [e2]), List.filter_cons_of_neg (by simp; omega)]
        simp
      · rw [if_neg e1, if_neg e2, List.filter_cons_of_neg (by simp; omega), List.filter_cons_of_neg (by simp; omega)]
        simp
  rw [hl]
  simp only [List.mem_cons, List.not_mem_nil, or_false]
  rcases lt_trichotomy i p with h | rfl | h
  · rw [if_neg (by omega), if_neg (by omega)]
    have := h1 i a h
    exact ⟨fun e => by omega, fun e => (not_le.mpr this e).elim⟩
  · rw [if_neg (by omega), if_neg (by omega)]
    simp [h2]
  · rcases lt_trichotomy i q with h' | rfl | h'
    · rw [if_neg (by omega), if_pos h]
      have := h3 i h h'
      exact ⟨fun e => by omega, fun e => (not_le.mpr this e).elim⟩
    · rw [if_neg (by omega), if_pos h]
      simp [h4]
    · rw [if_pos h']
      have := h5 i h'
      exact ⟨fun e => by omega, fun e => (not_le.mpr this e).elim⟩

end run
end Axon
