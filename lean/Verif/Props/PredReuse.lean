import Verif.Spec.Reuse
import Verif.Proofs.PredRest
import Verif.Props.PredReplay

/-!
# C93: using a network again, and at another time, in the predictive simulator
-/
set_option linter.unusedSectionVars false
namespace Axon
open Spec
variable {K : Type*} [Field K] [LinearOrder K] [IsStrictOrderedRing K] [FloorRing K]

theorem runsTo_done {E : PEnv K} (hdt : 0 < E.dt) (hdel : ∀ s ∈ E.net.syns, 0 < s.delay) {nst : ℕ → NState K} {last : ℕ → K}
    {cs : List (Call K)} {st : PSim K} (h : RunsTo E nst last cs st) (n : ℕ) :
    ∃ vs, Done E n (nst n) (last n) vs (Spec.PSim.spikesOf st n) (st.nst n) (st.last n) none ∧
      (vs.flatMap Volley.items).Perm (arriving E.net (cs.flatMap (predSpikes E.enc)) (Spec.PSim.spikesOf st) n) := by
  obtain ⟨i, fuel, st0, st1, hi, hc, hs⟩ := h
  obtain ⟨bs, st', hs', hl, rfl⟩ := simulate_steps hs
  obtain ⟨p, hp, hP⟩ := past_steps E hdt hdel hi hc hs'
  have hp0 : p = [] := hp.len_zero.mp hl
  subst hp0
  obtain ⟨vs, h1, -, h3⟩ := hP.link n
  have hann : announced (st'.poss n) = none := by
    match ha : st'.poss n with
    | none => rfl
    | some none => rfl
    | some (some e) => exact absurd (hP.poss n e ha).1 (by simp)
  rw [hann] at h1
  have e : hitsE n ([] : List (UEvent K)) = [] := rfl
  rw [e, List.append_nil] at h3
  exact ⟨vs, h1, h3⟩

theorem runsTo_consistent {E : PEnv K} (hdt : 0 < E.dt) (hdel : ∀ s ∈ E.net.syns, 0 < s.delay) {nst : ℕ → NState K} {last : ℕ → K}
    {cs : List (Call K)} {st : PSim K} (h : RunsTo E nst last cs st) :
    Consistent E nst last (cs.flatMap (predSpikes E.enc)) (Spec.PSim.spikesOf st) := by
  obtain ⟨i, fuel, st0, st1, hi, hc, hs⟩ := h
  exact C78_logs_are_consistent E hdt hdel hi hc hs

theorem consistent_outside {E : PEnv K} (hE : Runnable E.net) {s0 l0} {inj : List (ℕ × K)} (hin : ∀ q ∈ inj, q.1 ∈ E.net.neurons) {L : ℕ → List K}
    (h : Consistent E s0 l0 inj L) : ∀ n ∉ E.net.neurons, L n = [] := by
  intro n hn
  obtain ⟨vs, h1, h2, h3, h4⟩ := h n
  have harr : arriving E.net inj L n = [] := by
    unfold arriving
    rw [List.filter_eq_nil_iff.mpr, List.filter_eq_nil_iff.mpr]
    · rfl
    · intro s hs hh; exact hn (by simp at hh; rw [← hh]; exact hE.post s hs)
    · intro q hq hh; exact hn (by simp at hh; rw [← hh]; exact hin q hq)
  rw [harr] at h3
  have hvs : vs = [] := by
    by_contra hne
    obtain ⟨v, hv⟩ := List.exists_mem_of_ne_nil _ hne
    obtain ⟨x, hx⟩ := List.exists_mem_of_ne_nil _ (h2 v hv)
    have := h3.mem_iff.mp (List.mem_flatMap.mpr ⟨v, hv, List.mem_map.mpr ⟨x, hx, rfl⟩⟩)
    simp at this
  subst hvs
  generalize L n = l at h4
  cases h4
  rfl

/-- Nothing happens to what is not in the network. -/
theorem Spec.outside {E : PEnv K} (hE : Runnable E.net) {s : NState K} {l : K} {inj : List (ℕ × K)} (hin : ∀ q ∈ inj, q.1 ∈ E.net.neurons) {L : ℕ → List K}
    {n : ℕ} (hn : n ∉ E.net.neurons) (hL : L n = []) : ∃ vs : List (Volley K), (vs.map Volley.time).Pairwise (· < ·) ∧ (∀ v ∈ vs, v.hits ≠ []) ∧
    (vs.flatMap Volley.items).Perm (arriving E.net inj L n) ∧ Reacts E n s l vs (L n) := by
  refine ⟨[], by simp, by simp, ?_, by rw [hL]; exact Reacts.done⟩
  unfold arriving
  rw [List.filter_eq_nil_iff.mpr, List.filter_eq_nil_iff.mpr]
  · simp
  · intro s hs hh; exact hn (by simp at hh; rw [← hh]; exact hE.post s hs)
  · intro q hq hh; exact hn (by simp at hh; rw [← hh]; exact hin q hq)

theorem arriving_flat (net : Net K) {ι : Type*} (os : List ι) (inj : ι → List (ℕ × K)) (L : ι → ℕ → List K) (n : ℕ) {i : Item K}
    (hi : i ∈ arriving net (os.flatMap inj) (fun x => os.flatMap (fun o => L o x)) n) : ∃ o ∈ os, i ∈ arriving net (inj o) (L o) n := by
  unfold arriving at hi ⊢
  rcases List.mem_append.mp hi with hi | hi
  · obtain ⟨q, hq, rfl⟩ := List.mem_map.mp hi
    obtain ⟨hq1, hq2⟩ := List.mem_filter.mp hq
    obtain ⟨o, ho, hq1⟩ := List.mem_flatMap.mp hq1
    exact ⟨o, ho, List.mem_append.mpr (.inl (List.mem_map.mpr ⟨q, List.mem_filter.mpr ⟨hq1, hq2⟩, rfl⟩))⟩
  · obtain ⟨s, hs, hi⟩ := List.mem_flatMap.mp hi
    obtain ⟨y, hy, rfl⟩ := List.mem_map.mp hi
    obtain ⟨o, ho, hy⟩ := List.mem_flatMap.mp hy
    exact ⟨o, ho, List.mem_append.mpr (.inr (List.mem_flatMap.mpr ⟨s, hs, List.mem_map.mpr ⟨y, hy, rfl⟩⟩))⟩

/-- **C93.** A network that comes to rest can be used again.  Take any number of simulations of a network, each on its own, starting with all neurons
at rest and finishing with all neurons at rest (`V` at its reset value, `ge = gf = gate = 0`).  If the spikes of each are
injected only after everything is over in the ones before it, then making all these injections in a single simulation gives for every neuron
the spike logs of the separate simulations, one after the other. -/
theorem C93_use_again (E : PEnv K) (hdt : 0 < E.dt) (hdel : ∀ s ∈ E.net.syns, 0 < s.delay) (hE : Runnable E.net)
    {nst : ℕ → NState K} {last : ℕ → K} (hfresh : ∀ n ∈ E.net.neurons, nst n = ⟨(E.net.par n).Vreset, 0, 0, 0⟩)
    (runs : List (List (Call K) × PSim K)) (hrun : ∀ o ∈ runs, RunsTo E nst last o.1 o.2)
    (hrest : ∀ o ∈ runs, ∀ n ∈ E.net.neurons, o.2.nst n = ⟨(E.net.par n).Vreset, 0, 0, 0⟩)
    (hin : ∀ o ∈ runs, ∀ q ∈ o.1.flatMap (predSpikes E.enc), q.1 ∈ E.net.neurons)
    (hsep : runs.Pairwise (fun o o' => ∀ q ∈ o'.1.flatMap (predSpikes E.enc), Over E.net (o.1.flatMap (predSpikes E.enc)) (Spec.PSim.spikesOf o.2) q.2))
    {i : ℕ} {st0 st1 : PSim K} (hi : PSim.init E nst last i = .ok st0) (hc : st0.calls E (runs.flatMap Prod.fst) = .ok st1) :
    ∃ N st, (∀ fuel ≥ N, st1.simulate E fuel = some (.ok st)) ∧
      ∀ n ∈ E.net.neurons, st.spikeLog n = some (runs.flatMap (fun o => Spec.PSim.spikesOf o.2 n)) := by
  have key : ∀ rs : List (List (Call K) × PSim K), (∀ o ∈ rs, RunsTo E nst last o.1 o.2) →
      (∀ o ∈ rs, ∀ n ∈ E.net.neurons, o.2.nst n = ⟨(E.net.par n).Vreset, 0, 0, 0⟩) → (∀ o ∈ rs, ∀ q ∈ o.1.flatMap (predSpikes E.enc), q.1 ∈ E.net.neurons) →
      (rs.Pairwise (fun o o' => ∀ q ∈ o'.1.flatMap (predSpikes E.enc), Over E.net (o.1.flatMap (predSpikes E.enc)) (Spec.PSim.spikesOf o.2) q.2)) →
      ∀ n ∈ E.net.neurons, RestsAs E (E.net.par n).Vreset (last n) (rs.flatMap (fun o => o.1.flatMap (predSpikes E.enc))) (fun x => rs.flatMap (fun o => Spec.PSim.spikesOf o.2 x)) n := by
    intro rs
    induction rs with
    | nil =>
      intro _ _ _ _ n _
      refine RestsAs.none ?_ rfl
      unfold arriving
      simp
    | cons o rs ih =>
      intro h1 h2 h3 h4 n hn
      rw [List.pairwise_cons] at h4
      obtain ⟨ws, m, b1, b2⟩ := ih (fun o ho => h1 o (by simp [ho])) (fun o ho => h2 o (by simp [ho])) (fun o ho => h3 o (by simp [ho])) h4.2 n hn
      obtain ⟨vs, a2, a1⟩ := runsTo_done hdt hdel (h1 o (by simp)) n
      rw [h2 o (by simp) n hn, hfresh n hn] at a2
      obtain ⟨m', b3⟩ := b2.restart' (o.2.last n)
      simp only [List.flatMap_cons]
      refine ⟨vs ++ ws, m', ?_, ?_⟩
      · rw [List.flatMap_append]
        exact (a1.append b1).trans (arriving_append _ _ _ _ _ _)
      · refine a2.append b3 fun w hw => ?_
        obtain ⟨y, hy⟩ := List.exists_mem_of_ne_nil _ (b2.sorted.2 w hw)
        have hm := b1.mem_iff.mp (List.mem_flatMap.mpr ⟨w, hw, List.mem_map.mpr ⟨y, hy, rfl⟩⟩)
        obtain ⟨o', ho', hm'⟩ := arriving_flat E.net rs (fun o => o.1.flatMap (predSpikes E.enc)) (fun o => Spec.PSim.spikesOf o.2) n hm
        have hcon := runsTo_consistent hdt hdel (h1 o' (by simp [ho']))
        obtain ⟨q, hq, hqw⟩ := (causal hdt hdel hcon E.net.neurons (consistent_outside hE (h3 o' (by simp [ho'])) hcon)).2 n _ hm'
        have hov := h4.1 o' ho' q hq
        refine ⟨fun v hv => ?_, fun y hy => ((hov.2 n y hy).1.trans_le hqw).le⟩
        obtain ⟨z, hz⟩ := List.exists_mem_of_ne_nil _ (a2.sorted.2 v hv)
        have hmv := a1.mem_iff.mp (List.mem_flatMap.mpr ⟨v, hv, List.mem_map.mpr ⟨z, hz, rfl⟩⟩)
        refine lt_of_lt_of_le ?_ hqw
        unfold arriving at hmv
        rcases List.mem_append.mp hmv with hmv | hmv
        · obtain ⟨p, hp, e⟩ := List.mem_map.mp hmv
          have : p.2 = v.time := by injection e
          rw [← this]
          exact hov.1 p (List.mem_filter.mp hp).1
        · obtain ⟨s, hs, hmv⟩ := List.mem_flatMap.mp hmv
          obtain ⟨y, hy, e⟩ := List.mem_map.mp hmv
          have : y + s.delay = v.time := by injection e
          rw [← this]
          exact (hov.2 s.pre y hy).2 s (List.mem_filter.mp hs).1 rfl
  have hall := key runs hrun hrest hin hsep
  have einj : (runs.flatMap Prod.fst).flatMap (predSpikes E.enc) = runs.flatMap (fun o => o.1.flatMap (predSpikes E.enc)) := List.flatMap_assoc
  refine C78_computes_the_behaviour E hdt hdel hE hi hc ?_ (LS := fun x => runs.flatMap (fun o => Spec.PSim.spikesOf o.2 x)) ?_
  · rw [einj]
    intro q hq
    obtain ⟨o, ho, hq⟩ := List.mem_flatMap.mp hq
    exact hin o ho q hq
  · rw [einj]
    intro n
    by_cases hn : n ∈ E.net.neurons
    rotate_left
    · refine Spec.outside hE ?_ hn ?_
      · intro q hq
        obtain ⟨o, ho, hq⟩ := List.mem_flatMap.mp hq
        exact hin o ho q hq
      · refine List.flatMap_eq_nil_iff.mpr fun o ho => ?_
        exact consistent_outside hE (hin o ho) (runsTo_consistent hdt hdel (hrun o ho)) n hn
    obtain ⟨vs, l, h1, h2⟩ := hall n hn
    refine ⟨vs, h2.sorted.1, h2.sorted.2, h1, ?_⟩
    rw [hfresh n hn]
    have := h2.reacts (ws := []) (L' := []) Reacts.done (by simp)
    rwa [List.append_nil, List.append_nil] at this

/-- The simulation has finished in a state as described by `p`. -/
def finishedWith (r : Option (Except PyErr (PSim K))) (p : PSim K → Bool) : Bool :=
  match r with
  | some (.ok st) => p st
  | _ => false

theorem finished_with {r : Option (Except PyErr (PSim K))} {p : PSim K → Bool} (h : finishedWith r p = true) : ∃ st, r = some (.ok st) ∧ p st = true := by
  match r, h with
  | some (.ok st), h => exact ⟨st, rfl, h⟩

/-- Two uses of `chainNet`: each ends with both neurons at rest, and the second starts after everything is over in the first. -/
example : ∃ a b : PSim ℚ, RunsTo chainEnv (fun _ => ⟨0, 0, 0, 0⟩) (fun _ => 0) [.spike 0 3] a ∧
    RunsTo chainEnv (fun _ => ⟨0, 0, 0, 0⟩) (fun _ => 0) [.spike 0 20, .spike 0 21] b ∧
    (∀ n ∈ [0, 1], a.nst n = ⟨0, 0, 0, 0⟩ ∧ b.nst n = ⟨0, 0, 0, 0⟩) ∧
    [0, 1].map (Spec.PSim.spikesOf a) = [[3], [5]] ∧ [0, 1].map (Spec.PSim.spikesOf b) = [[20, 21], [22, 23]] := by
  obtain ⟨st0, st1, hi, hc, hs⟩ : ∃ st0 st1, PSim.init chainEnv (fun _ => ⟨0, 0, 0, 0⟩) (fun _ => 0) 0 = .ok st0 ∧
      st0.calls chainEnv [.spike 0 3] = .ok st1 ∧ finishedWith (st1.simulate chainEnv 12) (fun st => decide (st.nst 0 = ⟨0, 0, 0, 0⟩ ∧ st.nst 1 = ⟨0, 0, 0, 0⟩ ∧ [0, 1].map (Spec.PSim.spikesOf st) = [[3], [5]])) = true := ⟨_, _, rfl, rfl, by decide +kernel⟩
  obtain ⟨st0', st1', hi', hc', hs'⟩ : ∃ st0 st1, PSim.init chainEnv (fun _ => ⟨0, 0, 0, 0⟩) (fun _ => 0) 0 = .ok st0 ∧
      st0.calls chainEnv [.spike 0 20, .spike 0 21] = .ok st1 ∧ finishedWith (st1.simulate chainEnv 12) (fun st => decide (st.nst 0 = ⟨0, 0, 0, 0⟩ ∧ st.nst 1 = ⟨0, 0, 0, 0⟩ ∧ [0, 1].map (Spec.PSim.spikesOf st) = [[20, 21], [22, 23]])) = true := ⟨_, _, rfl, rfl, by decide +kernel⟩
  obtain ⟨a, ha, pa⟩ := finished_with hs
  obtain ⟨b, hb, pb⟩ := finished_with hs'
  rw [decide_eq_true_eq] at pa pb
  exact ⟨a, b, ⟨0, 12, st0, st1, hi, hc, ha⟩, ⟨0, 12, st0', st1', hi', hc', hb⟩, by simp [pa.1, pa.2.1, pb.1, pb.2.1], pa.2.2, pb.2.2⟩

theorem arriving_shift (net : Net K) (inj : List (ℕ × K)) (L : ℕ → List K) (D : K) (n : ℕ) :
    arriving net (inj.map (fun q => (q.1, q.2 + D))) (fun x => (L x).map (· + D)) n =
      (arriving net inj L n).map (fun i => match i with | .hit t k w => .hit (t + D) k w | .spike t => .spike (t + D)) := by
  unfold arriving
  rw [List.map_append]
  congr 1
  · rw [List.filter_map, List.map_map, List.map_map]; rfl
  · rw [List.map_flatMap]
    refine List.flatMap_congr fun s _ => ?_
    rw [List.map_map, List.map_map]
    refine List.map_congr_left fun y _ => ?_
    simp only [Function.comp]
    congr 1
    ring

/-- **C93 (another time).** Starting with all neurons at rest, injecting every spike later by `D` gives every spike of every neuron later by `D`. -/
theorem C93_another_time (E : PEnv K) (hdt : 0 < E.dt) (hdel : ∀ s ∈ E.net.syns, 0 < s.delay) (hE : Runnable E.net)
    {nst : ℕ → NState K} {last : ℕ → K} (hfresh : ∀ n ∈ E.net.neurons, nst n = ⟨(E.net.par n).Vreset, 0, 0, 0⟩)
    {cs cs' : List (Call K)} {st : PSim K} (hrun : RunsTo E nst last cs st) (hin : ∀ q ∈ cs.flatMap (predSpikes E.enc), q.1 ∈ E.net.neurons) (D : K)
    (hcs : (cs'.flatMap (predSpikes E.enc)).Perm ((cs.flatMap (predSpikes E.enc)).map (fun q => (q.1, q.2 + D))))
    {i : ℕ} {st0 st1 : PSim K} (hi : PSim.init E nst last i = .ok st0) (hc : st0.calls E cs' = .ok st1) :
    ∃ N st', (∀ fuel ≥ N, st1.simulate E fuel = some (.ok st')) ∧
      ∀ n ∈ E.net.neurons, st'.spikeLog n = some ((Spec.PSim.spikesOf st n).map (· + D)) := by
  refine C78_computes_the_behaviour E hdt hdel hE hi hc ?_ (LS := fun n => (Spec.PSim.spikesOf st n).map (· + D)) ?_
  · intro q hq
    obtain ⟨p, hp, rfl⟩ := List.mem_map.mp (hcs.mem_iff.mp hq)
    exact hin p hp
  · refine Spec.Consistent.congr rfl rfl rfl hcs.symm ?_
    intro n
    by_cases hn : n ∈ E.net.neurons
    rotate_left
    · refine Spec.outside hE ?_ hn ?_
      · intro q hq
        obtain ⟨p, hp, rfl⟩ := List.mem_map.mp hq
        exact hin p hp
      · show (Spec.PSim.spikesOf st n).map (· + D) = []
        rw [consistent_outside hE hin (runsTo_consistent hdt hdel hrun) n hn]; rfl
    obtain ⟨vs, h1, h2⟩ := runsTo_done hdt hdel hrun n
    have h3 := h1.shift D
    rw [hfresh n hn] at h3
    obtain ⟨l', h4⟩ := h3.restart' (last n)
    refine ⟨_, h4.sorted.1, h4.sorted.2, ?_, ?_⟩
    · rw [arriving_shift]
      refine List.Perm.trans (List.Perm.of_eq ?_) (h2.map _)
      rw [List.map_flatMap, List.flatMap_map]
      refine List.flatMap_congr fun v _ => ?_
      simp [Volley.items, List.map_map, Function.comp_def]
    · rw [hfresh n hn]
      have := h4.reacts (ws := []) (L' := []) Reacts.done (by simp)
      rwa [List.append_nil, List.append_nil] at this

end Axon
