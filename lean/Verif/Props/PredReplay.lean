import Verif.Proofs.Behaviour
import Verif.Props.Predictive

/-!
# C77, C78: the predictive simulator lets every neuron live exactly on the spikes it receives
-/
set_option linter.unusedSectionVars false
namespace Axon
open Spec
variable {K : Type*} [Field K] [LinearOrder K] [IsStrictOrderedRing K] [FloorRing K]

theorem hitsE_nil_of_pred {n : ℕ} {p : List (UEvent K)} (h : p = []) : hitsE n p = [] := by subst h; rfl

/-- What is pending after the injection calls. -/
theorem calls_pending {E : PEnv K} : ∀ (cs : List (Call K)) (st0 st : PSim K) p, CRep E.H st0.queue p →
    st0.calls E cs = .ok st → ∃ new, CRep E.H st.queue (p ++ new) ∧
      (∀ n, hitsE n new = ((cs.flatMap (predSpikes E.enc)).filter (fun q => q.1 = n)).map (fun q => Item.hit q.2 .V (E.net.par n).Vt)) ∧
      (∀ e ∈ new, e.isPred = false) ∧ st = { st0 with queue := st.queue, nextId := st.nextId } := by
  intro cs
  induction cs with
  | nil =>
    intro st0 st p hp h
    simp only [PSim.calls, List.foldlM_nil, pure, Except.pure, Except.ok.injEq] at h
    subst h
    exact ⟨[], by simpa using hp, fun _ => rfl, by simp, rfl⟩
  | cons c cs ih =>
    intro st0 st p hp h
    simp only [PSim.calls, List.foldlM_cons, bind, Except.bind] at h
    cases hcall : st0.call E c with
    | error e => rw [hcall] at h; cases h
    | ok st1 =>
      rw [hcall] at h
      have h1 : ∃ new, CRep E.H st1.queue (p ++ new) ∧
          (∀ n, hitsE n new = ((predSpikes E.enc c).filter (fun q => q.1 = n)).map (fun q => Item.hit q.2 .V (E.net.par n).Vt)) ∧
          (∀ e ∈ new, e.isPred = false) ∧ st1 = { st0 with queue := st1.queue, nextId := st1.nextId } := by
        cases c with
        | spike m t =>
          simp only [PSim.call, Except.ok.injEq] at hcall
          subst hcall
          refine ⟨[⟨st0.nextId, t, .hit m .V (E.net.par m).Vt⟩], hp.add _, ?_, by simp [UEvent.isPred], rfl⟩
          intro n
          by_cases hm : m = n
          · subst hm; simp [hitsE, predSpikes]
          · simp [hitsE, predSpikes, hm]
        | value v m t0 =>
          simp only [PSim.call, PSim.applyInputValue] at hcall
          split at hcall
          · cases hcall
          next hv =>
            have hv' : 0 ≤ v ∧ v ≤ 1 := by simpa using hv
            simp only [Encoder.encodeValue, if_pos hv', Except.ok.injEq] at hcall
            subst hcall
            have h2 := (hp.add ⟨st0.nextId, 0, .hit m .V (E.net.par m).Vt⟩).add
              ⟨st0.nextId + 1, E.enc.Tmin + v * E.enc.Tcod, .hit m .V (E.net.par m).Vt⟩
            rw [List.append_assoc] at h2
            refine ⟨_, h2, ?_, by simp [UEvent.isPred], rfl⟩
            intro n
            by_cases hm : m = n
            · subst hm; simp [hitsE, predSpikes]
            · simp [hitsE, predSpikes, hm]
      obtain ⟨new1, a1, a2, a3, a4⟩ := h1
      obtain ⟨new2, b1, b2, b3, b4⟩ := ih st1 st (p ++ new1) a1 h
      refine ⟨new1 ++ new2, by rwa [← List.append_assoc], ?_, ?_, ?_⟩
      · intro n
        rw [hitsE_append, a2, b2]; simp
      · intro e he
        rcases List.mem_append.mp he with he | he
        · exact a3 e he
        · exact b3 e he
      · rw [b4, a4]

/-- The invariant along a run. -/
theorem replay_steps (E : PEnv K) (hdt : 0 < E.dt) (hdel : ∀ s ∈ E.net.syns, 0 ≤ s.delay) {nst last i st0 cs st1}
    (hi : PSim.init E nst last i = .ok st0) (hc : st0.calls E cs = .ok st1) {bs st} (h : Steps E st1 bs st) :
    ∃ p D, CRep E.H st.queue p ∧ D.Perm bs.flatten ∧
      ∃ T, RepInv E nst last (cs.flatMap (predSpikes E.enc)) T st D p ∧ (∀ T', (∀ e ∈ p, T' ≤ e.time) → p ≠ [] →
        (∃ e ∈ p, e.time = T') → RepInv E nst last (cs.flatMap (predSpikes E.enc)) T' st D p) := by
  have hst : Started E st1 := ⟨nst, last, i, st0, cs, hi, hc⟩
  obtain ⟨p0, hp0, hpred, hids, hnd, hposs, hlog, -, -⟩ := hst.spec
  have h00 : CRep E.H st0.queue [] ∧ st0.nst = nst ∧ st0.last = last := by
    unfold PSim.init at hi
    split at hi
    · cases hi
    · simp only [Except.ok.injEq] at hi; subst hi; exact ⟨CRep.empty _, rfl, rfl⟩
  obtain ⟨new, a1, a2, a3, a4⟩ := calls_pending cs st0 st1 [] h00.1 hc
  rw [List.nil_append] at a1
  have hperm : p0.Perm new := hp0.events_perm.symm.trans a1.events_perm
  induction h with
  | start =>
    have base : ∀ T, (∀ e ∈ p0, T ≤ e.time) → RepInv E nst last (cs.flatMap (predSpikes E.enc)) T st1 [] p0 := by
      intro T hT
      refine ⟨⟨hids, hnd, fun e he n hn => by have := hpred e he; simp [UEvent.isPred, hn] at this⟩, hT, ?_, ?_, ?_⟩
      · intro n e he; rw [hposs] at he; split at he <;> simp at he
      · intro n
        refine (hperm.filterMap _).trans (List.Perm.of_eq ?_)
        have : arriving E.net (cs.flatMap (predSpikes E.enc)) (logOf st1) n = hitsE n new := by
          rw [a2]
          unfold arriving
          have : ∀ s : Synapse K, logOf st1 s.pre = [] := by
            intro s; unfold logOf; rw [hlog]; split <;> rfl
          simp [this]
        rw [this]; rfl
      · intro n
        refine ⟨[], ?_, ?_, ?_, by simp, by simp⟩
        · have e1 : announced (st1.poss n) = none := by rw [hposs]; split <;> rfl
          have e2 : st1.nst = nst ∧ st1.last = last := by rw [a4]; exact h00.2
          rw [e1, e2.1, e2.2]; exact Life.start
        · unfold logOf; rw [hlog]; split <;> rfl
        · exact List.Perm.refl _
    by_cases hp : p0 = []
    · exact ⟨p0, [], hp0, by simp, 0, base 0 (by simp [hp]), fun T' h _ _ => base T' h⟩
    · obtain ⟨T, -, hmin, -⟩ := batch_time hp
      exact ⟨p0, [], hp0, by simp, T, base T hmin, fun T' h _ _ => base T' h⟩
  | @step bs st1' m b st2 _ hlen hit ih =>
    obtain ⟨p, D, hp, hD, T0, hI0, hI1⟩ := ih
    have hne := hp.ne_nil_of_len hlen
    obtain ⟨T, hT, hmin, hbne⟩ := batch_time hne
    have hb := iter_batch hp hit
    obtain ⟨x0, hx0⟩ := List.exists_mem_of_ne_nil _ hbne
    have hI := hI1 T hmin hne ⟨x0, List.mem_of_mem_filter hx0, hT x0 hx0⟩
    obtain ⟨p', hp', hI'⟩ := (rep_induct E hdt hdel nst last (cs.flatMap (predSpikes E.enc)) T).iter hp hT hI hit
    refine ⟨p', b ++ D, hp', ?_, T, hI', ?_⟩
    · rw [List.flatten_append]
      refine (List.Perm.append_left b hD).trans ?_
      simpa using List.perm_append_comm
    · intro T' h1 _ h3
      obtain ⟨e, he, rfl⟩ := h3
      have hTe := hI'.late e he
      refine ⟨hI'.inv, h1, hI'.poss, hI'.hits, fun n => ?_⟩
      obtain ⟨h, c1, c2, c3, c4, c5⟩ := hI'.life n
      exact ⟨h, c1, c2, c3, c4, fun i hi => (c5 i hi).trans hTe⟩

/-- A finished simulation has gone through batches until nothing was pending. -/
theorem simulate_steps {E : PEnv K} {st0 st : PSim K} {fuel} (h : st0.simulate E fuel = some (.ok st)) :
    ∃ bs st', Steps E st0 bs st' ∧ st'.queue.len = .ok 0 ∧ st = { st' with finished := true } := by
  unfold PSim.simulate at h
  split at h
  · cases h
  · split at h
    · cases h
    · cases h
    next st' hloop =>
      simp only [Option.some.injEq, Except.ok.injEq] at h
      obtain ⟨bs, hs, hl⟩ := loop_steps fuel Steps.start hloop
      exact ⟨bs, st', hs, hl, h.symm⟩

/-- **C77.** When `simulate` of the predictive simulator has finished (time step positive, delays not
negative), every neuron has lived exactly on the spikes it should have received: there is a course of
its life, in order of time, in which it received one hit per injected spike and one hit per synapse onto it and spike
of the presynaptic neuron, delayed by the synapse's delay and with the synapse's type and weight -
nothing lost, nothing invented, nothing delivered twice - in which its state followed the exact
solution of its equations and it spiked whenever an announced spike was not superseded by a further hit; its
spikes are exactly its spike log; and no announced spike is left over. -/
theorem C77_lives_on_its_input (E : PEnv K) (hdt : 0 < E.dt) (hdel : ∀ s ∈ E.net.syns, 0 ≤ s.delay)
    {nst : ℕ → NState K} {last : ℕ → K} {i : ℕ} {st0 st1 st : PSim K} {cs : List (Call K)} {fuel : ℕ}
    (hi : PSim.init E nst last i = .ok st0) (hc : st0.calls E cs = .ok st1) (h : st1.simulate E fuel = some (.ok st)) (n : ℕ) :
    ∃ l s t, Life E n (nst n) (last n) l s t none ∧
      l.Pairwise (fun a b => a.time ≤ b.time) ∧
      (Item.hits l).Perm (arriving E.net (cs.flatMap (predSpikes E.enc)) (fun m => (st.spikeLog m).getD []) n) ∧
      Item.spikes l = (st.spikeLog n).getD [] ∧ s = st.nst n ∧ t = st.last n := by
  obtain ⟨bs, st', hs, hl, rfl⟩ := simulate_steps h
  obtain ⟨p, D, hp, hD, T, hI, -⟩ := replay_steps E hdt hdel hi hc hs
  have hp0 : p = [] := hp.len_zero.mp hl
  subst hp0
  obtain ⟨l, c1, c2, c3, c4, c5⟩ := hI.life n
  have hz : announced (st'.poss n) = none := by
    match ha : st'.poss n with
    | none => rfl
    | some none => rfl
    | some (some e) => exact absurd (hI.poss n e ha).1 (by simp)
  rw [hz] at c1
  have h1 := hI.hits n
  rw [List.append_nil] at h1
  exact ⟨l, _, _, c1, c4, c3.trans h1, c2, rfl, rfl⟩

/-- The chain of `chainNet`: the second neuron's life is one hit of weight 20 at 3 + 2 = 5, and one spike. -/
example : Life chainEnv 1 ⟨0, 0, 0, 0⟩ 0 [.hit 5 .V 20, .spike 5] ⟨0, 0, 0, 0⟩ 5 none ∧
    arriving chainNet [(0, 3)] (fun m => if m = 0 then [3] else [5]) 1 = [.hit 5 .V 20] := by
  refine ⟨?_, by decide +kernel⟩
  have h1 : Life chainEnv 1 ⟨0, 0, 0, 0⟩ 0 [] ⟨0, 0, 0, 0⟩ 0 none := Life.start
  have h2 := h1.hit (t := 5) (k := .V) (w := 20) (s' := ⟨20, 0, 0, 0⟩) (r := some 0) (by simp) (by decide +kernel) (by decide +kernel)
  have h3 : Life chainEnv 1 ⟨0, 0, 0, 0⟩ 0 [.hit 5 .V 20] ⟨20, 0, 0, 0⟩ 5 (some 5) := by
    simpa using h2
  exact h3.spike

/-! ## C78 -/

theorem arrivals_split (net : Net K) (inj : List (ℕ × K)) (L : ℕ → List K) (n : ℕ) :
    arriving net inj L n = (inj.filter (fun q => q.1 = n)).map (fun q => Item.hit q.2 .V (net.par n).Vt) ++ arriving net [] L n := by
  unfold arriving; simp

/-- The invariant along a run, relative to a self-consistent behaviour. -/
theorem consistent_steps (E : PEnv K) (hdt : 0 < E.dt) (hdel : ∀ s ∈ E.net.syns, 0 < s.delay) {nst last i st0 cs st1}
    (hi : PSim.init E nst last i = .ok st0) (hc : st0.calls E cs = .ok st1) {LS : ℕ → List K} (hLS : ∀ n ∉ E.net.neurons, LS n = [])
    (hcon : Consistent E nst last (cs.flatMap (predSpikes E.enc)) LS) {bs st} (h : Steps E st1 bs st) :
    ∃ p, CRep E.H st.queue p ∧ Bdry E LS st p := by
  have hst : Started E st1 := ⟨nst, last, i, st0, cs, hi, hc⟩
  obtain ⟨p0, hp0, hpred, hids, hnd, hposs, hlog, -, -⟩ := hst.spec
  have h00 : CRep E.H st0.queue [] ∧ st0.nst = nst ∧ st0.last = last := by
    unfold PSim.init at hi
    split at hi
    · cases hi
    · simp only [Except.ok.injEq] at hi; subst hi; exact ⟨CRep.empty _, rfl, rfl⟩
  obtain ⟨new, a1, a2, a3, a4⟩ := calls_pending cs st0 st1 [] h00.1 hc
  rw [List.nil_append] at a1
  have hperm : p0.Perm new := hp0.events_perm.symm.trans a1.events_perm
  induction h with
  | start =>
    have hl0 : ∀ n, logOf st1 n = [] := by intro n; unfold logOf; rw [hlog]; split <;> rfl
    have htd : todo LS st1 = LS := by funext n; unfold todo; rw [hl0]; rfl
    refine ⟨p0, hp0, ⟨hids, hnd, fun e he n hn => by have := hpred e he; simp [UEvent.isPred, hn] at this⟩, ?_, ?_, ?_⟩
    · intro n e he; rw [hposs] at he; split at he <;> simp at he
    · intro n; rw [hl0, htd]; rfl
    · intro n
      obtain ⟨vs, h1, h2, h3, h4⟩ := hcon n
      refine ⟨vs, h1, h2, ?_, ?_⟩
      · rw [arrivals_split, ← a2] at h3
        rw [htd]
        exact h3.trans (((hperm.filterMap _).symm).append_right _)
      · have e1 : announced (st1.poss n) = none := by rw [hposs]; split <;> rfl
        have e2 : st1.nst = nst ∧ st1.last = last := by rw [a4]; exact h00.2
        rw [e1, e2.1, e2.2, htd]; exact h4
  | @step bs st1' m b st2 _ hlen hit ih =>
    obtain ⟨p, hp, hB⟩ := ih
    exact hB.iter hdt hdel hLS hp (hp.ne_nil_of_len hlen) hit

/-- **C78.** If the spike trains `LS` are a self-consistent behaviour of the network on the injected spikes -
every neuron, hit by exactly the injected spikes and the delayed spikes of the others, spikes exactly as `LS`
says - then the predictive simulator ends, without an exception, and its spike logs are `LS`.
(Time step and delays positive; known synapse types, time constants not zero, and
spikes injected into neurons of the network.) -/
theorem C78_computes_the_behaviour (E : PEnv K) (hdt : 0 < E.dt) (hdel : ∀ s ∈ E.net.syns, 0 < s.delay) (hE : Runnable E.net)
    {nst : ℕ → NState K} {last : ℕ → K} {i : ℕ} {st0 st1 : PSim K} {cs : List (Call K)}
    (hi : PSim.init E nst last i = .ok st0) (hc : st0.calls E cs = .ok st1)
    (hin : ∀ q ∈ cs.flatMap (predSpikes E.enc), q.1 ∈ E.net.neurons)
    {LS : ℕ → List K} (hcon : Consistent E nst last (cs.flatMap (predSpikes E.enc)) LS) :
    ∃ N st, (∀ fuel ≥ N, st1.simulate E fuel = some (.ok st)) ∧ ∀ n ∈ E.net.neurons, st.spikeLog n = some (LS n) := by
  have hst : Started E st1 := ⟨nst, last, i, st0, cs, hi, hc⟩
  obtain ⟨p0, hp0, hpred, -, -, hposs, hlog, hcnt, hfin, -⟩ := hst.spec
  have hLS : ∀ n ∉ E.net.neurons, LS n = [] := by
    intro n hn
    obtain ⟨vs, h1, h2, h3, h4⟩ := hcon n
    have harr : arriving E.net (cs.flatMap (predSpikes E.enc)) LS n = [] := by
      unfold arriving
      rw [List.filter_eq_nil_iff.mpr, List.filter_eq_nil_iff.mpr]
      · rfl
      · intro s hs hh; exact hn (by simp at hh; rw [← hh]; exact hE.post s hs)
      · intro q hq hh; exact hn (by simp at hh; rw [← hh]; exact hin q hq)
    rw [harr] at h3
    have : vs = [] := by
      cases vs with
      | nil => rfl
      | cons v vs =>
        have h5 := h3.eq_nil
        rw [List.flatMap_cons, List.append_eq_nil_iff] at h5
        have := h2 v (by simp)
        simp [Volley.items] at h5
        exact absurd h5.1 this
    subst this
    revert h4
    generalize LS n = L
    intro h4; cases h4; rfl
  -- the number of batches is bounded
  have hB : ∀ bs st, Steps E st1 bs st → bs.length ≤ hitCount p0 + ∑ n ∈ E.net.neurons.toFinset, (LS n).length * (1 + (E.net.out n).length) := by
    intro bs st h
    obtain ⟨p, hp, hBd⟩ := consistent_steps E hdt hdel hi hc hLS hcon h
    obtain ⟨p', hp', D, hD, -, h2⟩ := Steps.induct' (fun T => budget_induct E T (hitCount p0)) h hp0
      ⟨fun n hn => by rw [hlog] at hn; by_contra hh; rw [if_neg hh] at hn; simp at hn, by simp⟩
    have hpd : paid E st ≤ ∑ n ∈ E.net.neurons.toFinset, (LS n).length * (1 + (E.net.out n).length) := by
      unfold paid
      refine Finset.sum_le_sum fun n _ => Nat.mul_le_mul_right _ ?_
      rw [hBd.pre n, List.length_append]; omega
    have hlen : bs.length ≤ D.length := by
      rw [hD.length_eq]
      clear h2 hpd hD hp' hp hBd
      induction h with
      | start => simp
      | @step bs st1' m b st2 hs hlen hit ih =>
        obtain ⟨p2, hp2, -⟩ := consistent_steps E hdt hdel hi hc hLS hcon hs
        obtain ⟨T, -, -, hbne⟩ := batch_time (hp2.ne_nil_of_len hlen)
        have : b ≠ [] := by rw [iter_batch hp2 hit]; exact hbne
        have := List.length_pos_iff.mpr this
        simp at ih ⊢; omega
    omega
  have hkeys : Keys E st1 := by
    refine ⟨fun n hn => ?_, fun n hn => ?_, fun k hk => ?_⟩
    · rw [hposs, if_pos hn]; rfl
    · rw [hlog, if_pos hn]; rfl
    · rw [hcnt]; rcases hk with rfl | rfl | rfl | rfl <;> rfl
  have hgood : ∀ e ∈ p0, GoodEv E.net e := by
    have h00 : CRep E.H st0.queue [] := by
      unfold PSim.init at hi
      split at hi
      · cases hi
      · simp only [Except.ok.injEq] at hi; subst hi; exact CRep.empty _
    obtain ⟨new, a1, a2, a3, -⟩ := calls_pending cs st0 st1 [] h00 hc
    rw [List.nil_append] at a1
    intro e he
    have he' : e ∈ new := (hp0.events_perm.symm.trans a1.events_perm).mem_iff.mp he
    have h1 := a3 e he'
    obtain ⟨j, t, pl⟩ := e
    cases pl with
    | predicted n => simp [UEvent.isPred] at h1
    | hit n k w =>
      have hm : Item.hit t k w ∈ hitsE n new := by
        unfold hitsE; rw [List.mem_filterMap]; exact ⟨_, he', by simp⟩
      rw [a2] at hm
      obtain ⟨q, hq, hqe⟩ := List.mem_map.mp hm
      simp only [Item.hit.injEq] at hqe
      have hq2 := List.mem_filter.mp hq
      simp at hq2
      have := hin q (List.mem_flatMap.mpr hq2.1)
      refine ⟨by rw [← hq2.2]; exact this, Or.inl hqe.2.1.symm⟩
  obtain ⟨st', hr⟩ := loop_ends hE hB (hitCount p0 + (∑ n ∈ E.net.neurons.toFinset, (LS n).length * (1 + (E.net.out n).length)) + 1) [] st1 p0
    Steps.start (by simp) hkeys hp0 hgood
  obtain ⟨bs, hs, hl⟩ := loop_steps _ Steps.start hr
  refine ⟨hitCount p0 + (∑ n ∈ E.net.neurons.toFinset, (LS n).length * (1 + (E.net.out n).length)) + 1,
    { st' with finished := true }, fun fuel hf => ?_, fun n hn => ?_⟩
  · unfold PSim.simulate
    rw [hfin, PSim.loop_mono E _ fuel st1 _ hf hr]
    rfl
  · obtain ⟨p, hp, hBd⟩ := consistent_steps E hdt hdel hi hc hLS hcon hs
    have hp00 : p = [] := hp.len_zero.mp hl
    subst hp00
    have htd : todo LS st' n = [] := by
      by_contra hne
      obtain ⟨x, hx⟩ := List.exists_mem_of_ne_nil _ hne
      have := hBd.ahead hdt hdel hLS (T := x + 1) (by simp) n x hx
      linarith
    have hpre := hBd.pre n
    rw [htd, List.append_nil] at hpre
    have hsome : (st'.spikeLog n).isSome := by
      obtain ⟨q, hq, D, -, hk⟩ := Steps.induct' (I := fun st _ _ => (st.spikeLog n).isSome) (fun T =>
        { perm := fun _ _ _ _ _ _ _ h => h, queue := fun _ _ _ _ h => h,
          spike := fun st st' i m p D R l _ h _ e => by rw [e]; exact isSome_update _ _ _ _ h,
          hit := fun st st' i m k w p D R o s l r c _ _ h _ _ _ _ e => by rw [e]; exact h }) hs hp0 (hkeys.log n hn)
      exact hk
    obtain ⟨l, hlg⟩ := Option.isSome_iff_exists.mp hsome
    show st'.spikeLog n = some (LS n)
    rw [hpre, logOf, hlg]; rfl

/-- **C78 (uniqueness).** A network has at most one self-consistent behaviour. -/
theorem C78_unique (E : PEnv K) (hdt : 0 < E.dt) (hdel : ∀ s ∈ E.net.syns, 0 < s.delay) (hE : Runnable E.net)
    {nst : ℕ → NState K} {last : ℕ → K} {inj : List (ℕ × K)} (hin : ∀ q ∈ inj, q.1 ∈ E.net.neurons)
    {L L' : ℕ → List K} (h : Consistent E nst last inj L) (h' : Consistent E nst last inj L') (n : ℕ) (hn : n ∈ E.net.neurons) : L n = L' n := by
  have hinj : (inj.map (fun q : ℕ × K => Call.spike q.1 q.2)).flatMap (predSpikes E.enc) = inj := by
    rw [List.flatMap_map]; simp [predSpikes]
  obtain ⟨st0, hi⟩ : ∃ st0, PSim.init E nst last 0 = .ok st0 := by
    unfold PSim.init; rw [if_neg hdt.ne']; exact ⟨_, rfl⟩
  obtain ⟨st1, hc⟩ : ∃ st1, st0.calls E (inj.map (fun q : ℕ × K => Call.spike q.1 q.2)) = .ok st1 := by
    generalize st0 = st
    clear hi h h' hinj hin
    induction inj generalizing st with
    | nil => exact ⟨st, rfl⟩
    | cons q inj ih => exact ih _
  obtain ⟨N, st, h1, h2⟩ := C78_computes_the_behaviour E hdt hdel hE hi hc (by rwa [hinj]) (LS := L) (by rwa [hinj])
  obtain ⟨N', st', h1', h2'⟩ := C78_computes_the_behaviour E hdt hdel hE hi hc (by rwa [hinj]) (LS := L') (by rwa [hinj])
  have e1 := h1 (max N N') (le_max_left _ _)
  have e2 := h1' (max N N') (le_max_right _ _)
  rw [e1] at e2
  simp only [Option.some.injEq, Except.ok.injEq] at e2
  subst e2
  have := (h2 n hn).symm.trans (h2' n hn)
  simpa using this

/-- The invariant along a run, without reference to a known behaviour. -/
theorem past_steps (E : PEnv K) (hdt : 0 < E.dt) (hdel : ∀ s ∈ E.net.syns, 0 < s.delay) {nst last i st0 cs st1}
    (hi : PSim.init E nst last i = .ok st0) (hc : st0.calls E cs = .ok st1) {bs st} (h : Steps E st1 bs st) :
    ∃ p, CRep E.H st.queue p ∧ Past E nst last (cs.flatMap (predSpikes E.enc)) st p := by
  have hst : Started E st1 := ⟨nst, last, i, st0, cs, hi, hc⟩
  obtain ⟨p0, hp0, hpred, hids, hnd, hposs, hlog, -, -⟩ := hst.spec
  have h00 : CRep E.H st0.queue [] ∧ st0.nst = nst ∧ st0.last = last := by
    unfold PSim.init at hi
    split at hi
    · cases hi
    · simp only [Except.ok.injEq] at hi; subst hi; exact ⟨CRep.empty _, rfl, rfl⟩
  obtain ⟨new, a1, a2, a3, a4⟩ := calls_pending cs st0 st1 [] h00.1 hc
  rw [List.nil_append] at a1
  have hperm : p0.Perm new := hp0.events_perm.symm.trans a1.events_perm
  induction h with
  | start =>
    refine ⟨p0, hp0, ⟨hids, hnd, fun e he n hn => by have := hpred e he; simp [UEvent.isPred, hn] at this⟩, ?_, ?_, ?_⟩
    · intro n e he; rw [hposs] at he; split at he <;> simp at he
    · intro n y hy; unfold logOf at hy; rw [hlog] at hy; split at hy <;> simp at hy
    · intro n
      have hl : ∀ n, logOf st1 n = [] := by intro n; unfold logOf; rw [hlog]; split <;> rfl
      refine ⟨[], ?_, by simp, ?_⟩
      · have e1 : announced (st1.poss n) = none := by rw [hposs]; split <;> rfl
        have e2 : st1.nst = nst ∧ st1.last = last := by rw [a4]; exact h00.2
        rw [e1, e2.1, e2.2, hl]; exact Done.start
      · refine (hperm.filterMap _).trans (List.Perm.of_eq ?_)
        have : arriving E.net (cs.flatMap (predSpikes E.enc)) (logOf st1) n = hitsE n new := by
          rw [a2]
          unfold arriving
          simp [hl]
        rw [this]; rfl
  | @step bs st1' m b st2 _ hlen hit ih =>
    obtain ⟨p, hp, hB⟩ := ih
    exact hB.iter hdt hdel hp (hp.ne_nil_of_len hlen) hit

/-- **C78 (converse).** When `simulate` has finished (time step and delays positive), the spike logs are a
self-consistent behaviour of the network on the injected spikes. -/
theorem C78_logs_are_consistent (E : PEnv K) (hdt : 0 < E.dt) (hdel : ∀ s ∈ E.net.syns, 0 < s.delay)
    {nst : ℕ → NState K} {last : ℕ → K} {i fuel : ℕ} {st0 st1 st : PSim K} {cs : List (Call K)}
    (hi : PSim.init E nst last i = .ok st0) (hc : st0.calls E cs = .ok st1) (hs : st1.simulate E fuel = some (.ok st)) :
    Consistent E nst last (cs.flatMap (predSpikes E.enc)) (fun n => (st.spikeLog n).getD []) := by
  obtain ⟨bs, st', hs', hl, rfl⟩ := simulate_steps hs
  obtain ⟨p, hp, hP⟩ := past_steps E hdt hdel hi hc hs'
  have hp0 : p = [] := hp.len_zero.mp hl
  subst hp0
  intro n
  obtain ⟨vs, h1, -, h3⟩ := hP.link n
  have hann : announced (st'.poss n) = none := by
    match ha : st'.poss n with
    | none => rfl
    | some none => rfl
    | some (some e) => exact absurd (hP.poss n e ha).1 (by simp)
  rw [hann] at h1
  refine ⟨vs, h1.sorted.1, h1.sorted.2, ?_, ?_⟩
  · have e : hitsE n ([] : List (UEvent K)) = [] := rfl
    rw [e, List.append_nil] at h3
    exact h3
  · have := h1.reacts (ws := []) (L' := []) Reacts.done (by simp)
    rw [List.append_nil, List.append_nil] at this
    exact this

/-- What a behaviour is does not depend on the order of the injected spikes, the encoder or the heap. -/
theorem Spec.Consistent.congr {E E' : PEnv K} (h1 : E'.exp = E.exp) (h2 : E'.net = E.net) (h3 : E'.dt = E.dt) {s0 l0} {inj inj' : List (ℕ × K)}
    (hp : inj.Perm inj') {L} (h : Consistent E s0 l0 inj L) : Consistent E' s0 l0 inj' L := by
  have hR : ∀ n s l vs L, Reacts E n s l vs L → Reacts E' n s l vs L := by
    intro n s l vs L h
    induction h with
    | done => exact .done
    | quiet a b c _ ih => exact .quiet (by rw [h1, h2]; exact a) (by rw [h1, h2, h3]; exact b) (by rw [h3]; exact c) ih
    | fires a b c _ ih =>
      rw [← h3]
      exact .fires (by rw [h1, h2]; exact a) (by rw [h1, h2, h3]; exact b) (by rw [h3]; exact c) (by rw [h2]; exact ih)
  intro n
  obtain ⟨vs, a, b, c, d⟩ := h n
  refine ⟨vs, a, b, c.trans ?_, hR n _ _ _ _ d⟩
  rw [h2]
  unfold arriving
  exact (((hp.filter _).map _).append_right _)

/-- **C79.** The outcome of a predictive simulation depends on nothing but the network, its initial state, the time step and the set
of injected spikes: if one simulation finishes, then so does any other of the same network in which the same spikes were injected -
in any order, by any mixture of the two injection methods, with any encoder and any heap - and all spike logs are the same. -/
theorem C79_only_the_spikes_matter (E E' : PEnv K) (hdt : 0 < E.dt) (hdel : ∀ s ∈ E.net.syns, 0 < s.delay) (hE : Runnable E.net)
    (h1 : E'.exp = E.exp) (h2 : E'.net = E.net) (h3 : E'.dt = E.dt)
    {nst : ℕ → NState K} {last : ℕ → K} {i i' fuel : ℕ} {st0 st1 st st0' st1' : PSim K} {cs cs' : List (Call K)}
    (hi : PSim.init E nst last i = .ok st0) (hc : st0.calls E cs = .ok st1) (hs : st1.simulate E fuel = some (.ok st))
    (hi' : PSim.init E' nst last i' = .ok st0') (hc' : st0'.calls E' cs' = .ok st1')
    (hcs : (cs.flatMap (predSpikes E.enc)).Perm (cs'.flatMap (predSpikes E'.enc)))
    (hin : ∀ q ∈ cs.flatMap (predSpikes E.enc), q.1 ∈ E.net.neurons) :
    ∃ N st', (∀ fuel' ≥ N, st1'.simulate E' fuel' = some (.ok st')) ∧ ∀ n ∈ E.net.neurons, st'.spikeLog n = st.spikeLog n := by
  have hcon := C78_logs_are_consistent E hdt hdel hi hc hs
  obtain ⟨N, st', g1, g2⟩ := C78_computes_the_behaviour E' (by rw [h3]; exact hdt) (by rw [h2]; exact hdel) (by rw [h2]; exact hE) hi' hc'
    (by rw [h2]; intro q hq; exact hin q (hcs.mem_iff.mpr hq)) (hcon.congr h1 h2 h3 hcs)
  refine ⟨N, st', g1, fun n hn => ?_⟩
  rw [g2 n (by rw [h2]; exact hn)]
  obtain ⟨N0, st2, k1, k2⟩ := C78_computes_the_behaviour E hdt hdel hE hi hc hin hcon
  have e1 := k1 (max N0 fuel) (le_max_left _ _)
  have hsame : st2 = st := by
    unfold PSim.simulate at e1 hs
    split at hs
    · cases hs
    next hf =>
      rw [if_neg hf] at e1
      split at hs
      · cases hs
      · cases hs
      next a ha =>
        rw [PSim.loop_mono E _ (max N0 fuel) st1 _ (le_max_right _ _) ha] at e1
        simp only [Option.some.injEq, Except.ok.injEq] at e1 hs
        rw [← e1, ← hs]
  have := k2 n hn
  rw [hsame] at this
  exact this.symm

/-- `chainNet` with a spike injected into its first neuron at time 3: the self-consistent behaviour is that the
first neuron spikes at 3 and the second at 5. -/
example : Consistent chainEnv (fun _ => ⟨0, 0, 0, 0⟩) (fun _ => 0) [(0, 3)] (fun n => if n = 0 then [3] else if n = 1 then [5] else []) ∧
    Runnable chainNet ∧ (∀ s ∈ chainNet.syns, 0 < s.delay) := by
  refine ⟨fun n => ?_, ⟨?_, ?_, ?_⟩, ?_⟩
  · have fire : ∀ t : ℚ, 0 < t → ∀ n, Reacts chainEnv n ⟨0, 0, 0, 0⟩ 0 [⟨t, [(.V, 10)]⟩] [t] := by
      intro t ht n
      have h2 : Reacts chainEnv n ⟨0, 0, 0, 0⟩ 0 [⟨t, [(.V, 10)]⟩] [t + ((0 : ℤ) : ℚ) * chainEnv.dt] := by
        refine Reacts.fires (s' := ⟨10, 0, 0, 0⟩) ?_ ?_ (by simp) Reacts.done
        · rw [if_neg ht.ne']
          simp [bumps, bump, pass]
        · show predictSteps chainEnv.exp ⟨10, 100, 20, 0⟩ ⟨10, 0, 0, 0⟩ chainEnv.dt = .ok (some 0)
          decide +kernel
      simpa using h2
    have fire' : Reacts chainEnv n ⟨0, 0, 0, 0⟩ 0 [⟨5, [(.V, 20)]⟩] [5] := by
      have h2 : Reacts chainEnv n ⟨0, 0, 0, 0⟩ 0 [⟨5, [(.V, 20)]⟩] [5 + ((0 : ℤ) : ℚ) * chainEnv.dt] := by
        refine Reacts.fires (s' := ⟨20, 0, 0, 0⟩) ?_ ?_ (by simp) Reacts.done
        · rw [if_neg (by norm_num)]
          simp [bumps, bump, pass]
        · show predictSteps chainEnv.exp ⟨10, 100, 20, 0⟩ ⟨20, 0, 0, 0⟩ chainEnv.dt = .ok (some 0)
          decide +kernel
      simpa using h2
    match n with
    | 0 => exact ⟨[⟨3, [(.V, 10)]⟩], by simp, by simp, by decide +kernel, fire 3 (by norm_num) 0⟩
    | 1 => exact ⟨[⟨5, [(.V, 20)]⟩], by simp, by simp, by decide +kernel, fire'⟩
    | n + 2 =>
      refine ⟨[], by simp, by simp, ?_, ?_⟩
      · simp [arriving, chainEnv, chainNet]
      · simpa using Reacts.done
  all_goals simp [chainNet, Known]

/-- Two ways of injecting the same spikes into `chainNet` (encoder with `Tmin = 10`, `Tcod = 100`), as C79 requires; the first
simulation finishes. -/
example : (([.spike 0 60, .spike 1 3, .spike 0 0] : List (Call ℚ)).flatMap (predSpikes chainEnv.enc)).Perm
      (([.value (1 / 2) 0 0, .spike 1 3] : List (Call ℚ)).flatMap (predSpikes chainEnv.enc)) ∧
    ∃ st0 st1, PSim.init chainEnv (fun _ => ⟨0, 0, 0, 0⟩) (fun _ => 0) 0 = .ok st0 ∧
      st0.calls chainEnv [.spike 0 60, .spike 1 3, .spike 0 0] = .ok st1 ∧
      (match st1.simulate chainEnv 12 with
        | some (.ok st) => (st.spikeLog 0, st.spikeLog 1)
        | _ => (none, none)) = (some [0, 60], some [2, 3, 62]) :=
  ⟨by decide +kernel, _, _, rfl, rfl, by decide +kernel⟩

end Axon
