import Verif.Proofs.StepRest

/-! # Using a network again, in the time-stepped simulator -/
set_option linter.unusedSectionVars false
namespace Axon
open Spec
variable {K : Type*} [Field K] [LinearOrder K] [IsStrictOrderedRing K] [FloorRing K]

/-- An empty queue after `simulate` means that everything has arrived. -/
theorem Outcome.all_arrived {net : Net K} {dt : K} {inj : List (ℕ × K)} {s0} {S F} {N : ℕ} {st : Sim K} (hr : IsRun net dt inj s0 S F) (o : Outcome net dt inj S F N st)
    (hq : st.queue = []) :
    (∀ q ∈ inj, ∀ s ∈ net.syns, s.pre = q.1 → arrInj dt q.2 s.delay ≤ N) ∧
    ∀ j ≤ N, ∀ n, F j n = true → ∀ s ∈ net.syns, s.pre = n → arrInt dt j s.delay ≤ N := by
  have h0 : ∀ x ∈ tagged net dt inj F N, x.1 ≤ N := by
    intro x hx
    by_contra hlt
    have hm : x.2 ∈ ((tagged net dt inj F N).filter (fun x => N < x.1)).map (·.2) :=
      List.mem_map.mpr ⟨x, List.mem_filter.mpr ⟨hx, by simpa using hlt⟩, rfl⟩
    have := o.queue.mem_iff.mpr hm
    rw [hq] at this
    cases this
  constructor
  · intro q hq s hs hp
    exact h0 (arrInj dt q.2 s.delay, synEvent q.2 s)
      (List.mem_append_left _ (List.mem_flatMap.mpr ⟨q, hq, List.mem_map.mpr ⟨s, by simp [Net.out, hs, hp], rfl⟩⟩))
  · intro j hj n hF s hs hp
    have hn : n ∈ net.neurons := by
      by_contra hn
      rw [(hr.outside j n hn).2] at hF
      cases hF
    refine h0 (arrInt dt j s.delay, synEvent ((j : K) * dt) s) (List.mem_append_right _ (List.mem_flatMap.mpr ⟨j, List.mem_range.mpr (by omega), ?_⟩))
    exact List.mem_flatMap.mpr ⟨n, List.mem_filter.mpr ⟨List.mem_dedup.mpr hn, hF⟩, List.mem_map.mpr ⟨s, by simp [Net.out, hs, hp], rfl⟩⟩

/-- **C97.** A network used again: `simulate(T₁)` of a first group of injected spikes leaves an empty queue and neurons without currents (their voltages may differ from
those at the start).  Then one `simulate(T₂)` of both groups, the second one arriving after `T₁`, emits for every neuron the spikes of the first simulation
followed by the spikes of a simulation of the second group alone by another `Simulator` created on the neurons as the first simulation has left them, and
ends in the same neuron states as the latter. -/
theorem C97_used_again (H : EventHeap K) {ord} (hord : SetOrder ord) {net : Net K} (wf : WellFormed net) {dt : K} (hdt : 0 < dt) (inj1 inj2 : List (ℕ × K))
    {s0} (hrest : Resting net s0) {T₁ T₂ : K} (hT : T₁ ≤ T₂) {st₁ : Sim K}
    (h1 : ((Sim.init net s0).injectAll H net inj1).simulate H ord net dt T₁ = .ok st₁) (hq : st₁.queue = []) (hst : Resting net st₁.nst)
    (hl : ∀ q ∈ inj2, ∀ s ∈ net.out q.1, T₁ < q.2 + s.delay) :
    ∃ st₂ st, ((Sim.init net st₁.nst).injectAll H net inj2).simulate H ord net dt T₂ = .ok st₂ ∧
      ((Sim.init net s0).injectAll H net (inj1 ++ inj2)).simulate H ord net dt T₂ = .ok st ∧ st.nst = st₂.nst ∧
      ∀ n ∈ net.neurons, ∃ e₁ e₂, st₁.spikeLog n = some (injTimes inj1 n ++ e₁) ∧ st₂.spikeLog n = some (injTimes inj2 n ++ e₂) ∧
        st.spikeLog n = some (injTimes (inj1 ++ inj2) n ++ (e₁ ++ e₂)) := by
  have hr1 := dense_isRun net dt inj1 s0
  obtain ⟨st, h, o1⟩ := simulate_outcome H hord wf hdt hrest hr1 T₁
  obtain rfl : st₁ = st := Except.ok.inj (h1.symm.trans h)
  set S1 := denseS net dt inj1 s0
  set F1 := denseF net dt inj1 s0
  set N := numSteps T₁ dt with hN
  have hst' : st₁.nst = S1 N := funext o1.nst
  rw [hst'] at hst ⊢
  obtain ⟨a1, a2⟩ := o1.all_arrived hr1 hq
  obtain ⟨hset, -⟩ := hr1.settle a1 a2 hst
  have hr2 := dense_isRun net dt inj2 (S1 N)
  set S2 := denseS net dt inj2 (S1 N)
  set F2 := denseF net dt inj2 (S1 N)
  have hlater : Later net dt inj2 N := by
    intro q hq s hs hp
    have h2 := hl q hq s (by simp [Net.out, hs, hp])
    by_contra hle
    rw [not_lt, arrInj, firstStep_le hdt] at hle
    have h3 : (N : K) * dt ≤ T₁ ∨ N = 0 := by
      by_cases h0 : 0 ≤ T₁
      · left
        have : ((N : ℤ) : K) ≤ T₁ / dt := by
          rw [hN, numSteps, Int.toNat_of_nonneg (Int.floor_nonneg.mpr (div_nonneg h0 hdt.le))]
          exact Int.floor_le _
        rw [le_div_iff₀ hdt] at this
        exact_mod_cast this
      · right
        rw [hN, numSteps]
        have : ⌊T₁ / dt⌋ < 0 := Int.floor_lt.mpr (by push_cast; exact div_neg_of_neg_of_pos (not_le.mp h0) hdt)
        omega
    rcases h3 with h3 | h3
    · linarith [hle.2]
    · omega
  have hr := hr1.next hr2 hset hlater hst
  have he := hr2.early hlater hst
  obtain ⟨st₂, g2, o2⟩ := simulate_outcome H hord wf hdt hst hr2 T₂
  obtain ⟨st, g, o⟩ := simulate_outcome H hord wf hdt hrest hr T₂
  have hNM : N ≤ numSteps T₂ dt := numSteps_mono hdt hT
  refine ⟨st₂, st, g2, g, ?_, fun n hn => ⟨_, _, o1.log_mem hn, o2.log_mem hn, ?_⟩⟩
  · funext n
    rw [o.nst, o2.nst]
    rcases Nat.eq_or_lt_of_le hNM with e | e
    · rw [← e]; simp only [le_refl, if_true]; exact ((he N le_rfl).1 n).symm
    · rw [if_neg (by omega)]
  · rw [o.log_mem hn]
    congr 2
    obtain ⟨d, hd⟩ := Nat.exists_eq_add_of_le hNM
    rw [hd, emitted_add, emitted_add (F := F2)]
    have e1 : emitted dt (fun i n => F1 i n || F2 i n) N n = emitted dt F1 N n := by
      unfold emitted
      congr 1
      apply List.filter_congr
      intro i hi
      have := List.mem_range'_1.mp hi
      change (F1 i n || F2 i n) = F1 i n
      rw [(he i (by omega)).2, Bool.or_false]
    have e2 : emitted dt F2 N n = [] := by
      unfold emitted
      rw [List.filter_eq_nil_iff.mpr, List.map_nil]
      intro i hi
      have := List.mem_range'_1.mp hi
      rw [(he i (by omega)).2]
      simp
    rw [e1, e2, List.nil_append]
    congr 2
    apply List.filter_congr
    intro i hi
    have := List.mem_range'_1.mp hi
    have hf : F1 i n = false := by
      by_contra h
      have := (hset.2 i n (by simpa using h)).1
      omega
    change (F1 i n || F2 i n) = F2 i n
    rw [hf, Bool.false_or]

/-- A relay with a refractory inhibition. -/
def relayNet : Net ℚ where
  neurons := [0, 1]
  par := fun _ => ⟨10, 100, 20, 0⟩
  syns := [⟨0, 1, 10, 1, .V⟩, ⟨1, 1, -5, 1, .V⟩]

/-- The hypotheses are met: neuron 0 is hit at time 0, its target fires and comes to rest, at another voltage than at the start. -/
example : ∃ st₁ : Sim ℚ, ((Sim.init relayNet exS0).injectAll (sortedHeap _) relayNet [(0, 0)]).simulate (sortedHeap _) (fun _ l => l) relayNet 1 5 = .ok st₁ ∧
    st₁.queue = [] ∧ Resting relayNet st₁.nst ∧ (st₁.nst 1).V = -5 ∧ st₁.spikeLog 1 = some [1] := by
  have wf : WellFormed relayNet := by refine ⟨?_, ?_, ?_, ?_, ?_⟩ <;> simp [relayNet]
  have hrest : Resting relayNet exS0 := by intro n _; simp [relayNet, exS0]
  obtain ⟨st, h, o⟩ := simulate_outcome (sortedHeap _) id_setOrder wf (by norm_num : (0:ℚ) < 1) hrest (dense_isRun relayNet 1 [(0, 0)] exS0) 5
  refine ⟨st, h, ?_, ?_, ?_, ?_⟩
  · have h1 := o.queue
    have h2 : (List.filter (fun x : ℕ × Event ℚ => decide (numSteps (5 : ℚ) 1 < x.1))
      (tagged relayNet 1 [(0, 0)] (denseF relayNet 1 [(0, 0)] exS0) (numSteps (5 : ℚ) 1))).length = 0 := by decide +kernel
    rw [List.length_eq_zero_iff] at h2
    rw [h2] at h1
    exact h1.eq_nil
  · intro n hn
    rw [o.nst]
    have hn : n = 0 ∨ n = 1 := by simpa [relayNet] using hn
    rcases hn with rfl | rfl <;> decide +kernel
  · rw [o.nst]; decide +kernel
  · rw [o.log]; decide +kernel

end Axon
