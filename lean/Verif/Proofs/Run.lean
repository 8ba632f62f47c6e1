import Verif.Proofs.Simulate

set_option linter.unusedSectionVars false
namespace Axon
open Spec
variable {K : Type*} [Field K] [LinearOrder K] [IsStrictOrderedRing K] [FloorRing K]

/-! ## The naive run exists and is unique -/

theorem input_congr (net : Net K) (dt : K) (inj : List (ℕ × K)) {F F' : ℕ → ℕ → Bool} (k : SynKind)
    (n i : ℕ) (h : ∀ j < i, ∀ m, F j m = F' j m) :
    input net dt inj F k n i = input net dt inj F' k n i := by
  unfold input
  congr 1
  apply List.map_congr_left
  intro s _
  congr 2
  unfold arrivals
  congr 1
  apply List.countP_congr
  intro j hj
  rw [h j (List.mem_range.mp hj)]

theorem Spec.IsRun.unique {net : Net K} {dt : K} {inj} {s0} {S S' : ℕ → ℕ → NState K}
    {F F' : ℕ → ℕ → Bool} (h : IsRun net dt inj s0 S F) (h' : IsRun net dt inj s0 S' F') (i : ℕ) :
    (∀ n, S i n = S' i n) ∧ (∀ n, F i n = F' i n) := by
  induction i using Nat.strong_induction_on with
  | _ i ih =>
    match i with
    | 0 => exact ⟨fun n => by rw [(h.start n).1, (h'.start n).1], fun n => by rw [(h.start n).2, (h'.start n).2]⟩
    | i + 1 =>
      have key : ∀ n, (S (i + 1) n, F (i + 1) n) = (S' (i + 1) n, F' (i + 1) n) := by
        intro n
        by_cases hn : n ∈ net.neurons
        · rw [h.step i n hn, h'.step i n hn, (ih i (by omega)).1 n]
          congr 1
          funext k
          exact input_congr net dt inj k n (i + 1) (fun j hj m => (ih j hj).2 m)
        · rw [(h.outside _ n hn).1, (h.outside _ n hn).2, (h'.outside _ n hn).1, (h'.outside _ n hn).2]
      exact ⟨fun n => (Prod.mk.inj (key n)).1, fun n => (Prod.mk.inj (key n)).2⟩

/-- The naive run, computed step by step: states and firing history. -/
def dense (net : Net K) (dt : K) (inj : List (ℕ × K)) (s0 : ℕ → NState K) :
    ℕ → (ℕ → NState K) × (ℕ → ℕ → Bool)
  | 0 => (s0, fun _ _ => false)
  | i + 1 =>
    let r := dense net dt inj s0 i
    let a := fun n => nstep (net.par n) dt (r.1 n) (fun k => input net dt inj r.2 k n (i + 1))
    (fun n => if n ∈ net.neurons then (a n).1 else r.1 n,
     fun j n => if j = i + 1 then decide (n ∈ net.neurons) && (a n).2 else r.2 j n)

def denseS (net : Net K) (dt : K) (inj : List (ℕ × K)) (s0 : ℕ → NState K) (i n : ℕ) : NState K :=
  (dense net dt inj s0 i).1 n
def denseF (net : Net K) (dt : K) (inj : List (ℕ × K)) (s0 : ℕ → NState K) (i n : ℕ) : Bool :=
  (dense net dt inj s0 i).2 i n

theorem dense_hist (net : Net K) (dt : K) (inj : List (ℕ × K)) (s0 : ℕ → NState K) (i : ℕ) :
    ∀ j ≤ i, ∀ n, (dense net dt inj s0 i).2 j n = denseF net dt inj s0 j n := by
  induction i with
  | zero => intro j hj n; obtain rfl : j = 0 := by omega
            rfl
  | succ i ih =>
    intro j hj n
    by_cases h : j = i + 1
    · subst h; rfl
    · have : (dense net dt inj s0 (i + 1)).2 j n = (dense net dt inj s0 i).2 j n := by
        simp [dense, h]
      rw [this, ih j (by omega)]

theorem dense_isRun (net : Net K) (dt : K) (inj : List (ℕ × K)) (s0 : ℕ → NState K) :
    IsRun net dt inj s0 (denseS net dt inj s0) (denseF net dt inj s0) := by
  refine ⟨fun n => ⟨rfl, rfl⟩, ?_, ?_⟩
  · intro i n hn
    have hin : ∀ k, input net dt inj (dense net dt inj s0 i).2 k n (i + 1)
        = input net dt inj (denseF net dt inj s0) k n (i + 1) := fun k =>
      input_congr net dt inj k n (i + 1) (fun j hj m => dense_hist net dt inj s0 i j (by omega) m)
    simp only [denseS, denseF, dense, hn, if_true, decide_true, Bool.true_and, hin]
  · intro i n hn
    induction i with
    | zero => exact ⟨rfl, rfl⟩
    | succ i ih =>
      simp only [denseS, denseF, dense, hn, if_false, decide_false, Bool.false_and, if_true, and_true]
      exact ih.1

/-! ## Injection -/

theorem injectAll_spec (H : EventHeap K) (net : Net K) (dt : K) (inj : List (ℕ × K)) (st : Sim K)
    (hq : H.Inv st.queue) :
    H.Inv (st.injectAll H net inj).queue ∧
    (st.injectAll H net inj).queue.Perm (st.queue ++ (tagInj net dt inj).map (·.2)) ∧
    (st.injectAll H net inj).nst = st.nst ∧
    (st.injectAll H net inj).voltLog = st.voltLog ∧
    (st.injectAll H net inj).cnt = st.cnt ∧
    ∀ n, (st.injectAll H net inj).spikeLog n =
      if (st.spikeLog n).isSome ∨ injTimes inj n ≠ [] then some ((st.spikeLog n).getD [] ++ injTimes inj n)
      else none := by
  have h := injectAll_spec' H net inj st hq
  have e : (tagInj net dt inj).map (·.2) = inj.flatMap (fun q => (net.out q.1).map (synEvent q.2)) := by
    simp [tagInj, List.map_flatMap, Function.comp_def]
  rwa [e]

theorem startOK (H : EventHeap K) (net : Net K) (dt : K) (inj : List (ℕ × K)) (s0 : ℕ → NState K) :
    StartOK H net dt inj s0 ((Sim.init net s0).injectAll H net inj) := by
  obtain ⟨h1, h2, h3, h4, h5, h6⟩ := injectAll_spec H net dt inj (Sim.init net s0) H.inv_nil
  refine ⟨h1, by simpa [Sim.init] using h2, ?_, ?_, ?_⟩
  · intro n; rw [h3]; rfl
  · intro n hn
    rw [h6]; simp [Sim.init, hn]
  · intro n
    rw [h4]
    by_cases hn : n ∈ net.neurons <;> simp [Sim.init, hn]

/-- Everything observable about a `Simulator` after injecting `inj` and simulating for `T`. -/
structure Outcome (net : Net K) (dt : K) (inj : List (ℕ × K)) (S : ℕ → ℕ → NState K)
    (F : ℕ → ℕ → Bool) (N : ℕ) (st : Sim K) : Prop where
  nst : ∀ n, st.nst n = S N n
  log : ∀ n, st.spikeLog n = if n ∈ net.neurons ∨ injTimes inj n ≠ [] then
    some (injTimes inj n ++ emitted dt F N n) else none
  volt : ∀ n, st.voltLog n = if n ∈ net.neurons then some (voltEntries net dt inj S F N n) else none
  cnt : ∀ k, st.cnt k =
    (((tagged net dt inj F N).filter (fun x => x.1 ≤ N)).filter (fun x => x.2.kind = k)).length
  queue : st.queue.Perm (((tagged net dt inj F N).filter (fun x => N < x.1)).map (·.2))

theorem Outcome.log_mem {net : Net K} {dt : K} {inj} {S F} {N} {st : Sim K}
    (o : Outcome net dt inj S F N st) {n : ℕ} (hn : n ∈ net.neurons) :
    st.spikeLog n = some (injTimes inj n ++ emitted dt F N n) := by
  rw [o.log]; simp [hn]

theorem simLoop_outcome (H : EventHeap K) {ord : ℕ → List ℕ → List ℕ} (hord : SetOrder ord)
    {net : Net K} (wf : WellFormed net) {dt : K} (hdt : 0 < dt) {inj} {s0} {S} {F}
    (hrest : Resting net s0) (hr : IsRun net dt inj s0 S F) (N : ℕ) :
    ∃ st act, simLoop H ord net dt N ((Sim.init net s0).injectAll H net inj, []) = .ok (st, act) ∧
      Outcome net dt inj S F N st := by
  obtain ⟨st, act, h, r⟩ := simLoop_refines hord wf hdt (startOK H net dt inj s0) hrest hr N
  obtain ⟨-, -, -, h4, h5, h6⟩ := injectAll_spec H net dt inj (Sim.init net s0) H.inv_nil
  refine ⟨st, act, h, r.nst, ?_, ?_, ?_, r.queue⟩
  · intro n
    rw [r.log, h6]
    by_cases hn : n ∈ net.neurons
    · simp [Sim.init, hn]
    · have he : emitted dt F N n = [] := by
        unfold emitted
        rw [List.filter_eq_nil_iff.mpr]
        · rfl
        · intro i _; simp [(hr.outside i n hn).2]
      by_cases hi : injTimes inj n = [] <;> simp [Sim.init, hn, hi, he]
  · intro n
    rw [r.volt, h4]
    by_cases hn : n ∈ net.neurons <;> simp [Sim.init, hn]
  · intro k
    rw [r.cnt, h5]; simp [Sim.init]

/-- `simulate` on a well-formed resting network is the naive run, for every heap and set order. -/
theorem simulate_outcome (H : EventHeap K) {ord : ℕ → List ℕ → List ℕ} (hord : SetOrder ord)
    {net : Net K} (wf : WellFormed net) {dt : K} (hdt : 0 < dt) {inj} {s0} {S} {F}
    (hrest : Resting net s0) (hr : IsRun net dt inj s0 S F) (T : K) :
    ∃ st, ((Sim.init net s0).injectAll H net inj).simulate H ord net dt T = .ok st ∧
      Outcome net dt inj S F (numSteps T dt) st := by
  obtain ⟨st, act, h, o⟩ := simLoop_outcome H hord wf hdt hrest hr (numSteps T dt)
  refine ⟨st, ?_, o⟩
  unfold Sim.simulate
  rw [if_neg hdt.ne', h]

end Axon
