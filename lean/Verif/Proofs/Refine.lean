import Verif.Spec.Dense
import Verif.Proofs.Queue
import Mathlib.Algebra.Order.Field.Basic
import Mathlib.Data.List.Range
import Mathlib.Tactic.Linarith

set_option linter.unusedSectionVars false
namespace Axon
open Spec

section Struct
variable {K : Type*} [LinearOrder K]

theorem foldl_push (H : EventHeap K) (l : List (Event K)) : ∀ q, H.Inv q →
    H.Inv (l.foldl (fun q e => addEvent H q e) q) ∧
    (l.foldl (fun q e => addEvent H q e) q).Perm (q ++ l) := by
  induction l with
  | nil => intro q hq; simp [hq]
  | cons e l ih =>
    intro q hq
    obtain ⟨h1, h2⟩ := ih (addEvent H q e) (H.inv_push q e hq)
    refine ⟨h1, h2.trans ?_⟩
    have := (H.perm_push q e hq).append_right l
    exact this.trans (List.perm_middle.symm)

theorem emit_queue [Add K] (H : EventHeap K) (net : Net K) (st : Sim K) (n : ℕ) (t : K)
    (hq : H.Inv st.queue) :
    H.Inv (st.emit H net n t).queue ∧
    (st.emit H net n t).queue.Perm (st.queue ++ (net.out n).map (synEvent t)) := by
  have := foldl_push H ((net.out n).map (synEvent t)) st.queue hq
  rw [List.foldl_map] at this
  exact this

/-- Known synapse types. -/
def SynKind.Known (k : SynKind) : Prop := k = .V ∨ k = .ge ∨ k = .gf ∨ k = .gate

/-- Sum of the weights of the events of kind `k` for neuron `n` in a batch. -/
def evSum [Add K] [Zero K] (evs : List (Event K)) (n : ℕ) (k : SynKind) : K :=
  ((evs.filter (fun e => e.neuron = n ∧ e.kind = k)).map (fun e => e.weight)).sum

end Struct

section Inject
variable {K : Type*} [LinearOrder K] [Add K]

/-- simulator.py:71-82: a sequence of `apply_input_spike` calls. -/
def Sim.injectAll (H : EventHeap K) (net : Net K) (st : Sim K) (inj : List (ℕ × K)) : Sim K :=
  inj.foldl (fun st q => st.applyInputSpike H net q.1 q.2) st

/-- Times injected into neuron `n`, in call order. -/
def injTimes (inj : List (ℕ × K)) (n : ℕ) : List K := (inj.filter (fun q => q.1 = n)).map (·.2)

theorem injectAll_append (H : EventHeap K) (net : Net K) (st : Sim K) (a b : List (ℕ × K)) :
    st.injectAll H net (a ++ b) = (st.injectAll H net a).injectAll H net b := by
  unfold Sim.injectAll; rw [List.foldl_append]

theorem injectAll_spec' (H : EventHeap K) (net : Net K) (inj : List (ℕ × K)) :
    ∀ (st : Sim K), H.Inv st.queue →
    H.Inv (st.injectAll H net inj).queue ∧
    (st.injectAll H net inj).queue.Perm (st.queue ++ inj.flatMap (fun q => (net.out q.1).map (synEvent q.2))) ∧
    (st.injectAll H net inj).nst = st.nst ∧
    (st.injectAll H net inj).voltLog = st.voltLog ∧
    (st.injectAll H net inj).cnt = st.cnt ∧
    ∀ n, (st.injectAll H net inj).spikeLog n =
      if (st.spikeLog n).isSome ∨ injTimes inj n ≠ [] then some ((st.spikeLog n).getD [] ++ injTimes inj n)
      else none := by
  induction inj with
  | nil =>
    intro st hq
    refine ⟨hq, by simp [Sim.injectAll], rfl, rfl, rfl, ?_⟩
    intro n
    cases h : st.spikeLog n <;> simp [Sim.injectAll, injTimes, h]
  | cons q inj ih =>
    intro st hq
    have hE := emit_queue H net (st.logSpike q.1 q.2) q.1 q.2 hq
    obtain ⟨h1, h2, h3, h4, h5, h6⟩ := ih (st.applyInputSpike H net q.1 q.2) hE.1
    have hcons : st.injectAll H net (q :: inj) = (st.applyInputSpike H net q.1 q.2).injectAll H net inj := rfl
    rw [hcons]
    refine ⟨h1, ?_, h3, h4, h5, ?_⟩
    · refine h2.trans ?_
      rw [List.flatMap_cons, ← List.append_assoc]
      exact hE.2.append_right _
    · intro n
      rw [h6]
      have hlog : (st.applyInputSpike H net q.1 q.2).spikeLog n
          = if n = q.1 then appendLog (st.spikeLog q.1) q.2 else st.spikeLog n := by
        by_cases h : n = q.1
        · subst h; simp [Sim.applyInputSpike, Sim.emit, Sim.logSpike]
        · simp [Sim.applyInputSpike, Sim.emit, Sim.logSpike, h]
      rw [hlog]
      by_cases h : n = q.1
      · subst h
        cases st.spikeLog q.1 <;> simp [appendLog, injTimes]
      · have : injTimes (q :: inj) n = injTimes inj n := by
          simp [injTimes, Ne.symm h]
        rw [this]; simp [h]

end Inject

section Deliver
variable {K : Type*} [LinearOrder K] [AddCommMonoid K]

/-- A neuron state after adding the sums `a`. -/
def NState.addSums (s : NState K) (a : SynKind → K) : NState K :=
  ⟨s.V + a .V, s.ge + a .ge, s.gf + a .gf, s.gate + a .gate⟩

theorem evSum_perm {evs evs' : List (Event K)} (h : evs.Perm evs') (n k) :
    evSum evs n k = evSum evs' n k := by
  unfold evSum
  exact ((h.filter _).map _).sum_eq

theorem deliver_fold (evs : List (Event K)) : ∀ (st : Sim K) (a : List ℕ),
    (∀ e ∈ evs, e.kind.Known) →
    evs.foldlM deliver (st, a) = .ok
      ({ st with nst := fun n => (st.nst n).addSums (evSum evs n),
                 cnt := fun k => st.cnt k + (evs.filter (fun e => e.kind = k)).length },
        a ++ evs.map (fun e => e.neuron)) := by
  induction evs with
  | nil =>
    intro st a _
    simp [evSum, NState.addSums, pure, Except.pure]
  | cons e evs ih =>
    intro st a hk
    rw [List.foldlM_cons]
    have hrec : receive (st.nst e.neuron) e.kind e.weight
        = .ok ((st.nst e.neuron).addSums (evSum [e] e.neuron)) := by
      rcases hk e (by simp) with h | h | h | h <;>
        simp [receive, h, NState.addSums, evSum]
    have hd : deliver (st, a) e = .ok
        ({ st with nst := Function.update st.nst e.neuron ((st.nst e.neuron).addSums (evSum [e] e.neuron))
                   cnt := Function.update st.cnt e.kind (st.cnt e.kind + 1) }, a ++ [e.neuron]) := by
      simp only [deliver, hrec]
    rw [hd]
    show List.foldlM deliver _ evs = _
    rw [ih _ _ (fun e' he' => hk e' (by simp [he']))]
    congr 2
    · congr 1
      · funext n
        by_cases hn : n = e.neuron
        · subst hn
          simp only [Function.update_self, NState.addSums, evSum]
          have key : ∀ k x, x + ((List.filter (fun x => decide (x.neuron = e.neuron ∧ x.kind = k)) [e]).map
              (fun e => e.weight)).sum +
              ((List.filter (fun x => decide (x.neuron = e.neuron ∧ x.kind = k)) evs).map
              (fun e => e.weight)).sum = x +
              ((List.filter (fun x => decide (x.neuron = e.neuron ∧ x.kind = k)) (e :: evs)).map
              (fun e => e.weight)).sum := by
            intro k x
            by_cases h : e.kind = k <;> simp [h, add_assoc]
          simp only [key]
        · simp only [ne_eq, hn, not_false_eq_true, Function.update_of_ne]
          simp [NState.addSums, evSum, Ne.symm hn]
      · funext k
        by_cases hk' : k = e.kind
        · subst hk'; simp; omega
        · simp [hk', Ne.symm hk']
    · simp

end Deliver

section Fold
variable {K : Type*} [LinearOrder K] [Add K] [Sub K] [Mul K] [Div K] [Zero K]

/-- What one update does to a neuron's state: Euler step, then reset if it fires. -/
def post (p : Params K) (dt : K) (s : NState K) : NState K :=
  if (updateAndSpike p dt s).2 then NState.reset p else (updateAndSpike p dt s).1

theorem updateAndSpike_gate (p : Params K) (dt : K) (s : NState K) :
    (updateAndSpike p dt s).1.gate = s.gate := rfl

structure NFold (H : EventHeap K) (net : Net K) (dt t : K) (i : ℕ) (L : List ℕ)
    (st : Sim K) (act : List ℕ) (st' : Sim K) (act' : List ℕ) : Prop where
  nst : ∀ n, st'.nst n = if n ∈ L then post (net.par n) dt (st.nst n) else st.nst n
  log : ∀ n, st'.spikeLog n =
    if n ∈ L ∧ (updateAndSpike (net.par n) dt (st.nst n)).2 then appendLog (st.spikeLog n) t
    else st.spikeLog n
  volt : ∀ n, st'.voltLog n =
    if n ∈ L then (st.voltLog n).map (· ++ [((post (net.par n) dt (st.nst n)).V, i)])
    else st.voltLog n
  cnt : st'.cnt = st.cnt
  inv : H.Inv st'.queue
  queue : st'.queue.Perm (st.queue ++
    (L.filter (fun n => (updateAndSpike (net.par n) dt (st.nst n)).2)).flatMap
      (fun n => (net.out n).map (synEvent t)))
  act : act' = act ++ L.filter (fun n => (post (net.par n) dt (st.nst n)).active)

theorem neuronStep_ok (H : EventHeap K) (net : Net K) (dt t : K) (i : ℕ) (st : Sim K) (act : List ℕ)
    (n : ℕ) (hm : (net.par n).tm ≠ 0) (hf : (net.par n).tf ≠ 0) (hv : (st.voltLog n).isSome)
    (hq : H.Inv st.queue) :
    ∃ st' act', neuronStep H net dt t i (st, act) n = .ok (st', act') ∧
      NFold H net dt t i [n] st act st' act' := by
  obtain ⟨l, hl⟩ := Option.isSome_iff_exists.mp hv
  have hguard : ¬ ((net.par n).tm = 0 ∨ (st.nst n).gate ≠ 0 ∧ (net.par n).tf = 0) := by
    simp [hm, hf]
  unfold neuronStep
  simp only [hguard, if_false]
  by_cases hs : (updateAndSpike (net.par n) dt (st.nst n)).2 = true
  · have hpost : post (net.par n) dt (st.nst n) = NState.reset (net.par n) := by simp [post, hs]
    simp only [hs, if_true, Sim.logVolt, Sim.emit, Sim.logSpike, hl]
    refine ⟨_, _, rfl, ?_⟩
    have hE := foldl_push H ((net.out n).map (synEvent t)) st.queue hq
    rw [List.foldl_map] at hE
    refine ⟨?_, ?_, ?_, rfl, hE.1, ?_, ?_⟩
    · intro m
      by_cases h : m = n
      · subst h; simp [hpost]
      · simp [h]
    · intro m
      by_cases h : m = n
      · subst h; simp [hs]
      · simp [h]
    · intro m
      by_cases h : m = n
      · subst h; simp [hpost, hl, NState.reset]
      · simp [h]
    · simpa [hs] using hE.2
    · simp [hpost, NState.active, NState.reset]
  · have hpost : post (net.par n) dt (st.nst n) = (updateAndSpike (net.par n) dt (st.nst n)).1 := by
      simp [post, hs]
    simp only [hs, Sim.logVolt, hl, Bool.false_eq_true, if_false]
    refine ⟨_, _, rfl, ?_⟩
    refine ⟨?_, ?_, ?_, rfl, hq, ?_, ?_⟩
    · intro m
      by_cases h : m = n
      · subst h; simp [hpost]
      · simp [h]
    · intro m
      by_cases h : m = n
      · subst h; simp [hs]
      · simp [h]
    · intro m
      by_cases h : m = n
      · subst h; simp [hpost, hl]
      · simp [h]
    · simp [hs]
    · by_cases ha : (updateAndSpike (net.par n) dt (st.nst n)).1.active <;> simp [hpost, ha]

theorem neuronFold (H : EventHeap K) (net : Net K) (dt t : K) (i : ℕ) (L : List ℕ) :
    ∀ (st : Sim K) (act : List ℕ), L.Nodup → (∀ n ∈ L, (net.par n).tm ≠ 0) →
    (∀ n ∈ L, (net.par n).tf ≠ 0) → (∀ n ∈ L, (st.voltLog n).isSome) → H.Inv st.queue →
    ∃ st' act', L.foldlM (neuronStep H net dt t i) (st, act) = .ok (st', act') ∧
      NFold H net dt t i L st act st' act' := by
  induction L with
  | nil =>
    intro st act _ _ _ _ hq
    exact ⟨st, act, rfl, ⟨by simp, by simp, by simp, rfl, hq, by simp, by simp⟩⟩
  | cons n L ih =>
    intro st act hnd hm hf hv hq
    obtain ⟨hnL, hnd⟩ := List.nodup_cons.mp hnd
    obtain ⟨st1, act1, h1, f1⟩ := neuronStep_ok H net dt t i st act n (hm n (by simp))
      (hf n (by simp)) (hv n (by simp)) hq
    have hne : ∀ m ∈ L, m ≠ n := fun m hm' h => hnL (h ▸ hm')
    have hst : ∀ m ∈ L, st1.nst m = st.nst m := by
      intro m hm'; rw [f1.nst]; simp [hne m hm']
    obtain ⟨st2, act2, h2, f2⟩ := ih st1 act1 hnd (fun m hm' => hm m (by simp [hm']))
      (fun m hm' => hf m (by simp [hm'])) (by
        intro m hm'
        rw [f1.volt]
        simp only [List.mem_singleton, hne m hm', if_false]
        exact hv m (by simp [hm'])) f1.inv
    refine ⟨st2, act2, ?_, ?_⟩
    · rw [List.foldlM_cons, h1]; exact h2
    · refine ⟨?_, ?_, ?_, f2.cnt.trans f1.cnt, f2.inv, ?_, ?_⟩
      · intro m
        rw [f2.nst]
        by_cases h : m ∈ L
        · simp [h, hst m h]
        · simp only [h, if_false]
          rw [f1.nst]
          by_cases h' : m = n <;> simp [h', h, hnL]
      · intro m
        rw [f2.log]
        by_cases h : m ∈ L
        · rw [f1.log]; simp [h, hst m h, hne m h]
        · simp only [h, false_and, if_false]
          rw [f1.log]
          by_cases h' : m = n <;> simp [h', h]
      · intro m
        rw [f2.volt]
        by_cases h : m ∈ L
        · rw [f1.volt]; simp [h, hst m h, hne m h]
        · simp only [h, if_false]
          rw [f1.volt]
          by_cases h' : m = n <;> simp [h', h]
      · refine f2.queue.trans ((f1.queue.append_right _).trans ?_)
        have hfil : L.filter (fun m => (updateAndSpike (net.par m) dt (st1.nst m)).2)
            = L.filter (fun m => (updateAndSpike (net.par m) dt (st.nst m)).2) := by
          apply List.filter_congr; intro m hm'; rw [hst m hm']
        rw [hfil, List.append_assoc, ← List.flatMap_append, ← List.filter_append]
        simp
      · rw [f2.act, f1.act]
        have hfil : L.filter (fun m => (post (net.par m) dt (st1.nst m)).active)
            = L.filter (fun m => (post (net.par m) dt (st.nst m)).active) := by
          apply List.filter_congr; intro m hm'; rw [hst m hm']
        rw [hfil, List.append_assoc, ← List.filter_append]
        simp

end Fold

section Step
variable {K : Type*} [Field K] [LinearOrder K] [IsStrictOrderedRing K] [FloorRing K]

theorem firstStep_le {dt : K} (hdt : 0 < dt) (lo : ℕ) (x : K) (i : ℕ) :
    firstStep dt lo x ≤ i ↔ lo ≤ i ∧ x ≤ (i : K) * dt := by
  unfold firstStep
  rw [max_le_iff, Nat.ceil_le, div_le_iff₀ hdt]

theorem le_firstStep (dt : K) (lo : ℕ) (x : K) : lo ≤ firstStep dt lo x := le_max_left _ _

/-- Events with their arrival steps: those of injected spikes. -/
def tagInj (net : Net K) (dt : K) (inj : List (ℕ × K)) : List (ℕ × Event K) :=
  inj.flatMap fun q => (net.out q.1).map fun s => (arrInj dt q.2 s.delay, synEvent q.2 s)

/-- Events with their arrival steps: those of spikes fired in step `j`. -/
def tagFired (net : Net K) (dt : K) (F : ℕ → ℕ → Bool) (j : ℕ) : List (ℕ × Event K) :=
  (net.neurons.dedup.filter (fun n => F j n)).flatMap fun n =>
    (net.out n).map fun s => (arrInt dt j s.delay, synEvent ((j : K) * dt) s)

/-- All events known after step `N`. -/
def tagged (net : Net K) (dt : K) (inj : List (ℕ × K)) (F : ℕ → ℕ → Bool) (N : ℕ) :
    List (ℕ × Event K) :=
  tagInj net dt inj ++ (List.range (N + 1)).flatMap (tagFired net dt F)

theorem tagged_succ (net : Net K) (dt : K) (inj) (F : ℕ → ℕ → Bool) (N : ℕ) :
    tagged net dt inj F (N + 1) = tagged net dt inj F N ++ tagFired net dt F (N + 1) := by
  unfold tagged
  rw [List.range_succ (n := N + 1), List.flatMap_append, ← List.append_assoc]; simp

theorem due_eq (net : Net K) (dt : K) (inj) (F : ℕ → ℕ → Bool) (N : ℕ) :
    due net dt inj F (N + 1) = ((tagged net dt inj F N).filter (fun x => x.1 = N + 1)).map (·.2) := by
  unfold due tagged tagInj tagFired
  rw [List.filter_append, List.map_append]
  congr 1
  · rw [List.filter_flatMap, List.map_flatMap]
    congr 1; funext q
    rw [List.filter_map, List.map_map]; rfl
  · rw [List.filter_flatMap, List.map_flatMap]
    congr 1; funext j
    rw [List.filter_flatMap, List.map_flatMap]
    congr 1; funext n
    rw [List.filter_map, List.map_map]; rfl

theorem tagged_arr {net : Net K} {dt : K} {inj} {F : ℕ → ℕ → Bool} {N : ℕ} {x : ℕ × Event K}
    (hx : x ∈ tagged net dt inj F N) :
    1 ≤ x.1 ∧ ∃ lo ≤ N + 1, x.1 = firstStep dt lo x.2.time := by
  unfold tagged tagInj tagFired at hx
  rw [List.mem_append] at hx
  rcases hx with hx | hx
  · simp only [List.mem_flatMap, List.mem_map] at hx
    obtain ⟨q, _, s, _, rfl⟩ := hx
    exact ⟨le_firstStep dt 1 _, 1, by omega, rfl⟩
  · simp only [List.mem_flatMap, List.mem_map, List.mem_range] at hx
    obtain ⟨j, hj, n, _, s, _, rfl⟩ := hx
    exact ⟨le_trans (by omega) (le_firstStep dt (j + 1) _), j + 1, by omega, rfl⟩

theorem tagged_time {net : Net K} {dt : K} (hdt : 0 < dt) {inj} {F : ℕ → ℕ → Bool} {N : ℕ}
    {x : ℕ × Event K} (hx : x ∈ tagged net dt inj F N) (hN : N < x.1) :
    x.2.time ≤ ((N + 1 : ℕ) : K) * dt ↔ x.1 = N + 1 := by
  obtain ⟨_, lo, hlo, he⟩ := tagged_arr hx
  have h := firstStep_le hdt lo x.2.time (N + 1)
  rw [← he] at h
  constructor
  · intro ht
    have := h.mpr ⟨hlo, ht⟩
    omega
  · intro he'
    exact (h.mp (by omega)).2

theorem out_post {net : Net K} (_wf : WellFormed net) {n : ℕ} {s} (hs : s ∈ net.out n) :
    s ∈ net.syns ∧ s.pre = n := by
  unfold Net.out at hs
  simpa using hs

theorem tagged_wf {net : Net K} (wf : WellFormed net) {dt : K} {inj} {F : ℕ → ℕ → Bool} {N : ℕ}
    {x : ℕ × Event K} (hx : x ∈ tagged net dt inj F N) :
    x.2.kind.Known ∧ x.2.neuron ∈ net.neurons := by
  unfold tagged tagInj tagFired at hx
  rw [List.mem_append] at hx
  rcases hx with hx | hx
  · simp only [List.mem_flatMap, List.mem_map] at hx
    obtain ⟨q, _, s, hs, rfl⟩ := hx
    exact ⟨wf.kind s (out_post wf hs).1, wf.target s (out_post wf hs).1⟩
  · simp only [List.mem_flatMap, List.mem_map, List.mem_range] at hx
    obtain ⟨j, hj, n, _, s, hs, rfl⟩ := hx
    exact ⟨wf.kind s (out_post wf hs).1, wf.target s (out_post wf hs).1⟩

end Step
end Axon
