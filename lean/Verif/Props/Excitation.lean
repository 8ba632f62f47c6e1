import Verif.Proofs.Excitation
import Verif.Props.PredMul
import Verif.Props.PredSigned
import Verif.Props.PredNets2
import Verif.Props.PredSMem
import Verif.Props.PredLog
import Verif.Props.PredSync
import Verif.Props.PredReplay
import Verif.Props.PredSub
import Verif.Proofs.PredNorm
import Mathlib.Tactic.FinCases

/-! # C105: when the predictive simulator is certain to stop -/
set_option linter.unusedSectionVars false
namespace Axon
open Spec
variable {K : Type*} [Field K] [LinearOrder K] [IsStrictOrderedRing K] [FloorRing K]

theorem ready_good {E : PEnv K} {nst : ℕ → NState K} {last : ℕ → K} {i : ℕ} {st0 st1 : PSim K} {cs : List (Call K)}
    (hi : PSim.init E nst last i = .ok st0) (hc : st0.calls E cs = .ok st1)
    (hin : ∀ q ∈ cs.flatMap (predSpikes E.enc), q.1 ∈ E.net.neurons) {p0} (hp0 : CRep E.H st1.queue p0) : ∀ e ∈ p0, GoodEv E.net e := by
  have h00 : CRep E.H st0.queue [] := by
    unfold PSim.init at hi
    split at hi
    · cases hi
    · simp only [Except.ok.injEq] at hi; subst hi; exact CRep.empty _
  obtain ⟨new, a1, a2, a3, -⟩ := calls_pending cs st0 st1 [] h00 hc
  rw [List.nil_append] at a1
  intro e he
  have he' : e ∈ new := (hp0.events_perm.symm.trans a1.events_perm).mem_iff.mp he
  have h1 := a3 e he'
  obtain ⟨j, t, pl⟩ := e
  cases pl with
  | predicted n => simp [UEvent.isPred] at h1
  | hit n k w =>
    have hm : Item.hit t k w ∈ hitsE n new := by
      unfold hitsE; rw [List.mem_filterMap]; exact ⟨_, he', by simp⟩
    rw [a2] at hm
    obtain ⟨q, hq, hqe⟩ := List.mem_map.mp hm
    simp only [Item.hit.injEq] at hqe
    have hq2 := List.mem_filter.mp hq
    simp at hq2
    have := hin q (List.mem_flatMap.mpr hq2.1)
    refine ⟨by rw [← hq2.2]; exact this, Or.inl hqe.2.1.symm⟩

/-- **C105.** If excitation does not go round in circles - every directed cycle of synapses contains one that can only hold its target
back - then `simulate` ends, without an exception, whatever spikes and values have been injected into the neurons of the network and in whatever
state the neurons were.  (Time step positive, delays not negative, thresholds above the reset potential, known synapse types.) -/
theorem C105_terminates (E : PEnv K) (hdt : 0 < E.dt) (hM : maxSteps E.dt < 2 ^ 64) (hdel : ∀ s ∈ E.net.syns, 0 ≤ s.delay) (hE : Runnable E.net)
    (hpar : ∀ n ∈ E.net.neurons, 0 < (E.net.par n).tm ∧ (E.net.par n).Vreset < (E.net.par n).Vt) (hex : ExcitesAcyclic E.net)
    {nst : ℕ → NState K} {last : ℕ → K} {i : ℕ} {st0 st1 : PSim K} {cs : List (Call K)}
    (hi : PSim.init E nst last i = .ok st0) (hc : st0.calls E cs = .ok st1)
    (hin : ∀ q ∈ cs.flatMap (predSpikes E.enc), q.1 ∈ E.net.neurons) :
    ∃ N st, (∀ fuel ≥ N, st1.simulate E fuel = some (.ok st)) ∧ st.finished = true ∧ st.queue.len = .ok 0 := by
  have hst : Started E st1 := ⟨nst, last, i, st0, cs, hi, hc⟩
  obtain ⟨p0, hp0, hpred, hids, hnd, hposs, hlog, hcnt, hfin, -⟩ := hst.spec
  have hgood := ready_good hi hc hin hp0
  obtain ⟨W, hW⟩ := excites_pays hex
  have hkeys : Keys E st1 := by
    refine ⟨fun n hn => ?_, fun n hn => ?_, fun k hk => ?_⟩
    · rw [hposs, if_pos hn]; rfl
    · rw [hlog, if_pos hn]; rfl
    · rw [hcnt]; rcases hk with rfl | rfl | rfl | rfl <;> rfl
  have hnp : ∀ e ∈ p0, ∀ n, e.payload ≠ .predicted n := by
    intro e he n hpl
    have := hpred e he
    simp [UEvent.isPred, hpl] at this
  have hpay : Paying E W ((∑ n ∈ E.net.neurons.toFinset, W n) + hitsWeight W p0) st1 [] p0 :=
    ⟨⟨hids, hnd, fun e he n hpl => absurd hpl (hnp e he n)⟩, hgood, E.net.neurons.toFinset,
      fun n hn hA => absurd (List.mem_toFinset.mpr hn) hA, fun e he n hpl => absurd hpl (hnp e he n), by simp⟩
  have hB : ∀ bs st, Steps E st1 bs st → bs.length ≤ (∑ n ∈ E.net.neurons.toFinset, W n) + hitsWeight W p0 := by
    intro bs st h
    obtain ⟨p, hp, D, hD, hI⟩ := h.induct (I := fun T st D U => (∀ x ∈ U, T ≤ x.time) ∧ Paying E W _ st D U) (J := Paying E W _)
      (fun T st D p hJ hT => ⟨hT, hJ⟩) (paying_induct E hE hdt hM hdel hpar W hW _) (fun T st D p _ hI => hI.2) hp0 hpay
    obtain ⟨-, -, A, -, -, h5⟩ := hI
    have hlen : bs.length ≤ D.length := by
      rw [hD.length_eq]
      clear h5 hD hp
      induction h with
      | start => simp
      | @step bs st1' m b st2 hs hlen hit ih =>
        obtain ⟨p2, hp2, -⟩ := hs.induct' (I := fun _ _ _ => True)
          (fun T => ⟨fun _ _ _ _ _ _ _ _ => trivial, fun _ _ _ _ _ => trivial, fun _ _ _ _ _ _ _ _ _ _ _ _ => trivial,
            fun _ _ _ _ _ _ _ _ _ _ _ _ _ _ _ _ _ _ _ _ _ _ => trivial⟩) hp0 trivial
        obtain ⟨T, -, -, hbne⟩ := batch_time (hp2.ne_nil_of_len hlen)
        have : b ≠ [] := by rw [iter_batch hp2 hit]; exact hbne
        have := List.length_pos_iff.mpr this
        simp at ih ⊢; omega
    omega
  obtain ⟨st', hr⟩ := loop_ends hE hB ((∑ n ∈ E.net.neurons.toFinset, W n) + hitsWeight W p0 + 1) [] st1 p0 Steps.start (by simp) hkeys hp0 hgood
  obtain ⟨bs, hs, hl⟩ := loop_steps _ Steps.start hr
  refine ⟨(∑ n ∈ E.net.neurons.toFinset, W n) + hitsWeight W p0 + 1, { st' with finished := true }, fun fuel hf => ?_, rfl, hl⟩
  unfold PSim.simulate
  rw [hfin, PSim.loop_mono E _ fuel st1 _ hf hr]
  rfl

/-- **C105 (consequence).** In such a network (with positive delays) every injection has exactly one self-consistent behaviour, and it is what the
simulator logs. -/
theorem C105_one_behaviour (E : PEnv K) (hdt : 0 < E.dt) (hM : maxSteps E.dt < 2 ^ 64) (hdel : ∀ s ∈ E.net.syns, 0 < s.delay) (hE : Runnable E.net)
    (hpar : ∀ n ∈ E.net.neurons, 0 < (E.net.par n).tm ∧ (E.net.par n).Vreset < (E.net.par n).Vt) (hex : ExcitesAcyclic E.net)
    (nst : ℕ → NState K) (last : ℕ → K) (inj : List (ℕ × K)) (hin : ∀ q ∈ inj, q.1 ∈ E.net.neurons) :
    ∃ L, Consistent E nst last inj L ∧ ∀ L', Consistent E nst last inj L' → ∀ n ∈ E.net.neurons, L' n = L n := by
  have hinj : (inj.map (fun q : ℕ × K => Call.spike q.1 q.2)).flatMap (predSpikes E.enc) = inj := by
    rw [List.flatMap_map]; simp [predSpikes]
  obtain ⟨st0, hi⟩ : ∃ st0, PSim.init E nst last 0 = .ok st0 := by
    unfold PSim.init; rw [if_neg hdt.ne']; exact ⟨_, rfl⟩
  obtain ⟨st1, hc⟩ := pred_calls_ok E (cs := inj.map (fun q : ℕ × K => Call.spike q.1 q.2)) (fun c hc => by
    obtain ⟨q, -, rfl⟩ := List.mem_map.mp hc; trivial) st0
  obtain ⟨N, st, h, -⟩ := C105_terminates E hdt hM (fun s hs => (hdel s hs).le) hE hpar hex hi hc (by rwa [hinj])
  have := C78_logs_are_consistent E hdt hdel hi hc (h N le_rfl)
  rw [hinj] at this
  exact ⟨_, this, fun L' h' n hn => C78_unique E hdt hdel hE hin h' this n hn⟩

theorem excites_of_rank {net : Net K} (rank : ℕ → ℕ) (h : ∀ s ∈ net.syns, rank s.pre < rank s.post ∨ Inhibits s) : ExcitesAcyclic net := by
  intro n hn
  have key : ∀ a b, Relation.TransGen (fun a b => ∃ s ∈ net.syns, s.pre = a ∧ s.post = b ∧ ¬ Inhibits s) a b → rank a < rank b := by
    intro a b hab
    induction hab with
    | single h1 =>
      obtain ⟨s, hs, rfl, rfl, h2⟩ := h1
      exact (h s hs).resolve_right h2
    | tail _ h1 ih =>
      obtain ⟨s, hs, rfl, rfl, h2⟩ := h1
      exact ih.trans ((h s hs).resolve_right h2)
  exact absurd (key n n hn) (lt_irrefl _)

theorem LibOK.alwaysEnds {w : World K} {n : ℕ} (h : LibOK w n) (H : TimeHeap K) (exp : K → K) (enc : Encoder K) {dt : K} (hdt : 0 < dt)
    (hM : maxSteps dt < 2 ^ 64) (rank : ℕ → ℕ) (hr : ∀ s ∈ w.syns.reverse, 0 ≤ s.delay ∧ (rank s.pre < rank s.post ∨ Inhibits s)) :
    AlwaysEnds H exp enc dt w := by
  obtain ⟨ns, hns, hmem⟩ := h.block.neurons
  rw [h.len] at hmem
  refine ⟨ns, hns, fun cs hcs => ?_⟩
  have hpar : ∀ x < n, w.par x = stdPar := fun x hx => h.wpar (by rw [h.len]; exact hx)
  have hbd : ∀ s ∈ w.syns, s.pre < n ∧ s.post < n := by
    intro s hs; have := h.block.syn_bd s hs; rwa [h.len] at this
  set E : PEnv K := ⟨H, exp, w.net ns, enc, dt⟩ with hEdef
  have hrun : Runnable E.net := by
    refine ⟨?_, ?_, ?_⟩
    · intro s hs
      exact h.block.kinds s (by simpa [hEdef, World.net] using hs)
    · intro s hs
      exact (hmem _).mpr (hbd s (by simpa [hEdef, World.net] using hs)).2
    · intro x hx
      have : E.net.par x = stdPar := hpar x ((hmem x).mp hx)
      rw [this]; norm_num [stdPar]
  obtain ⟨st0, hi⟩ : ∃ st0, PSim.init E fresh (fun _ => (0 : K)) 0 = .ok st0 := by
    unfold PSim.init; rw [if_neg hdt.ne']; exact ⟨_, rfl⟩
  obtain ⟨st1, hc⟩ := pred_calls_ok E (fun c hc => (hcs c hc).1) st0
  obtain ⟨N, st, h1, -⟩ := C105_terminates E hdt hM (fun s hs => (hr s hs).1) hrun
    (by
      intro x hx
      have : E.net.par x = stdPar := hpar x ((hmem x).mp hx)
      rw [this]; norm_num [stdPar])
    (excites_of_rank rank fun s hs => (hr s hs).2) hi hc
    (by
      intro q hq
      obtain ⟨c, hc, hq⟩ := List.mem_flatMap.mp hq
      have := (hcs c hc).2
      cases c with
      | spike m t => simp only [predSpikes, List.mem_singleton] at hq; subst hq; exact this
      | value v m t =>
        simp only [predSpikes, List.mem_cons, List.not_mem_nil, or_false] at hq
        rcases hq with rfl | rfl <;> exact this)
  refine ⟨N, st, fun fuel hf => ?_, trivial⟩
  unfold predSession
  rw [hns]
  simp only
  rw [hi]
  simp only
  rw [hc]
  exact h1 fuel hf

/-- The hypotheses of `C105_terminates` are met by a network with cycles: two neurons that excite, respectively inhibit, each other, and an
inhibitory self-loop. -/
example : ExcitesAcyclic (⟨[0, 1], fun _ => stdPar, [⟨0, 1, 10, 1, .V⟩, ⟨1, 0, -10, 1, .V⟩, ⟨1, 1, -5, 1, .ge⟩]⟩ : Net ℚ) ∧
    ¬ Acyclic (⟨[0, 1], fun _ => stdPar, [⟨0, 1, 10, 1, .V⟩, ⟨1, 0, -10, 1, .V⟩, ⟨1, 1, -5, 1, .ge⟩]⟩ : Net ℚ) := by
  refine ⟨excites_of_rank id ?_, fun h => h 1 (Relation.TransGen.single ⟨⟨1, 1, -5, 1, .ge⟩, by simp, rfl, rfl⟩)⟩
  intro s hs
  fin_cases hs
  · exact Or.inl (by decide)
  · exact Or.inr ⟨Or.inl rfl, by norm_num⟩
  · exact Or.inr ⟨Or.inr rfl, by norm_num⟩

/-- Decides the conditions of `LibOK.alwaysEnds` for one concrete synapse. -/
macro "rank_tac" : tactic => `(tactic|
  (constructor
   · first | (norm_num; done) | (simp only; linarith)
   · first
     | (left; simp; done)
     | (right; constructor
        · first | exact Or.inl rfl | exact Or.inr rfl
        · norm_num; done)))

theorem mem_rank (enc : Encoder K) : ∀ s ∈ memSyns enc, 0 ≤ s.delay ∧
    (([0, 1, 1, 2, 4, 3, 3, 5] : List ℕ).getD s.pre 0 < ([0, 1, 1, 2, 4, 3, 3, 5] : List ℕ).getD s.post 0 ∨ Inhibits s) := by
  intro s hs
  have : (memSyns enc).reverse = [⟨0, 1, 10, 1, .V⟩, ⟨0, 2, 1 / 2 * 10, 1, .V⟩, ⟨1, 1, -10, 1, .V⟩, ⟨1, 3, enc.wacc, 1, .ge⟩,
    ⟨2, 4, enc.wacc, 2 * 1, .ge⟩, ⟨3, 4, -enc.wacc, 1, .ge⟩, ⟨5, 4, enc.wacc, 1, .ge⟩, ⟨5, 7, 10, 2 * 1, .V⟩, ⟨4, 7, 10, 1, .V⟩,
    ⟨3, 6, 10, 1, .V⟩] := rfl
  rw [← List.mem_reverse, this] at hs
  fin_cases hs <;> rank_tac

/-- **C105**, `MemoryNetwork` and `InvertingMemoryNetwork`. -/
theorem C105_memories (H : TimeHeap K) (exp : K → K) (enc : Encoder K) (h1 : 0 ≤ enc.Tmin) (sim : Encoder K) {dt : K} (hdt : 0 < dt)
    (hM : maxSteps dt < 2 ^ 64) (name : Option String) :
    AlwaysEnds H exp sim dt (memoryNetwork enc name World.empty).2 ∧ AlwaysEnds H exp sim dt (invertingMemoryNetwork enc name World.empty).2 ∧
      AlwaysEnds H exp sim dt (signedMemoryNetwork enc name World.empty).2 := by
  refine ⟨?_, ?_, ?_⟩
  · exact LibOK.alwaysEnds (memory_lib enc name) H exp sim hdt hM (fun x => ([0, 1, 1, 2, 4, 3, 3, 5] : List ℕ).getD x 0)
      (fun s hs => mem_rank enc s (List.mem_reverse.mp hs))
  · refine LibOK.alwaysEnds (invMemory_lib enc name) H exp sim hdt hM (fun x => ([0, 1, 1, 2, 0, 3] : List ℕ).getD x 0) ?_
    intro s hs
    have : (invertingMemoryNetwork enc name World.empty).2.syns.reverse = [⟨0, 1, 10, 1, .V⟩, ⟨0, 2, 1 / 2 * 10, 1, .V⟩, ⟨1, 1, -10, 1, .V⟩,
      ⟨1, 3, enc.wacc, 1 + enc.Tmin, .ge⟩, ⟨2, 3, -enc.wacc, 1, .ge⟩, ⟨4, 3, enc.wacc, 1, .ge⟩, ⟨3, 5, 10, 1, .V⟩, ⟨4, 5, 10, 2 * 1 + 1 / 100, .V⟩] := rfl
    rw [this] at hs
    fin_cases hs <;> rank_tac
  · refine LibOK.alwaysEnds (signedMemory_lib enc name) H exp sim hdt hM
      (fun x => ([0, 0, 1, 1, 0, 6, 6, 6, 1, 2, 2, 3, 4, 1, 4, 5] : List ℕ).getD x 0) ?_
    intro s hs
    rw [smem_syns, psmemSyns] at hs
    fin_cases hs <;> rank_tac

/-- **C105**, `ScalarMultiplierNetwork` (whatever the factor). -/
theorem C105_scalar_multiplier (H : TimeHeap K) (exp : K → K) (f : K) (enc : Encoder K) (h1 : 0 ≤ enc.Tmin) (sim : Encoder K) {dt : K} (hdt : 0 < dt)
    (hM : maxSteps dt < 2 ^ 64) (name : Option String) : AlwaysEnds H exp sim dt (scalarMultiplierNetwork f enc name World.empty).2 := by
  refine LibOK.alwaysEnds (scalarMultiplier_lib f enc name) H exp sim hdt hM (fun x => ([0, 1, 1, 2, 3, 4] : List ℕ).getD x 0) ?_
  intro s hs
  rw [smul_syns] at hs
  fin_cases hs <;> rank_tac

/-- **C105**, logarithms, exponentials and products. -/
theorem C105_products (H : TimeHeap ℝ) (exp : ℝ → ℝ) (enc : Encoder ℝ) (h1 : 0 ≤ enc.Tmin) (sim : Encoder ℝ) {dt : ℝ} (hdt : 0 < dt)
    (hM : maxSteps dt < 2 ^ 64) (name : Option String) (f : ℝ) :
    AlwaysEnds H exp sim dt (logNetwork enc name World.empty).2 ∧ AlwaysEnds H exp sim dt (exponentialNetwork enc name World.empty).2 ∧
    AlwaysEnds H exp sim dt (multiplierNetwork enc name World.empty).2 ∧ AlwaysEnds H exp sim dt (signedMultiplierNetwork enc name World.empty).2 ∧
    AlwaysEnds H exp sim dt (signedMultiplierNormNetwork enc f name World.empty).2 := by
  refine ⟨?_, ?_, ?_, ?_, ?_⟩
  · refine LibOK.alwaysEnds (log_lib enc name) H exp sim hdt hM (fun x => ([0, 1, 1, 2, 3] : List ℕ).getD x 0) ?_
    intro s hs
    rw [log_syns] at hs
    fin_cases hs <;> rank_tac
  · refine LibOK.alwaysEnds (exponential_lib enc name) H exp sim hdt hM (fun x => ([0, 1, 1, 2, 3] : List ℕ).getD x 0) ?_
    intro s hs
    rw [exp_syns] at hs
    fin_cases hs <;> rank_tac
  · refine LibOK.alwaysEnds (multiplier_lib enc name) H exp sim hdt hM (fun x => ([0, 0, 1, 1, 3, 1, 1, 1, 4, 2, 5, 6] : List ℕ).getD x 0) ?_
    intro s hs
    rw [mul_syns] at hs
    fin_cases hs <;> rank_tac
  · refine LibOK.alwaysEnds (signedMultiplier_lib enc name) H exp sim hdt hM
      (fun x => ([1, 1, 2, 2, 4, 2, 2, 2, 5, 3, 6, 7, 0, 0, 0, 0, 8, 8, 1, 1, 1, 1, 1] : List ℕ).getD x 0) ?_
    intro s hs
    rw [psmul_syns, pmulSyns, smulOuter] at hs
    simp only [List.cons_append, List.nil_append] at hs
    fin_cases hs <;> rank_tac
  · refine LibOK.alwaysEnds (n := 28) (LibOK.of (mulNorm_ok enc f name) rfl) H exp sim hdt hM
      (fun x => ([1, 1, 2, 2, 4, 2, 2, 2, 5, 3, 6, 7, 8, 9, 9, 10, 11, 12, 0, 0, 0, 0, 13, 13, 1, 1, 1, 1] : List ℕ).getD x 0) ?_
    intro s hs
    rw [norm_syns, pmulSyns, scalSyns12, normOuter] at hs
    simp only [List.cons_append, List.nil_append] at hs
    fin_cases hs <;> rank_tac

/-- An order of the neurons of a synchronizer along which excitation goes up. -/
def syncRank (n : ℕ) : ℕ := if n = 0 then 5 else ([0, 9, 1, 2, 2, 3, 7, 6, 4, 8] : List ℕ).getD ((n - 1) % 10) 0

theorem syncRank_at (j o : ℕ) (ho : o < 10) : syncRank (1 + 10 * j + o) = ([0, 9, 1, 2, 2, 3, 7, 6, 4, 8] : List ℕ).getD o 0 := by
  unfold syncRank
  rw [if_neg (by omega), show (1 + 10 * j + o - 1) % 10 = o by omega]

/-- **C105**, `SynchronizerNetwork`, with any number of channels. -/
theorem C105_synchronizer (H : TimeHeap K) (exp : K → K) (enc : Encoder K) (sim : Encoder K) {dt : K} (hdt : 0 < dt)
    (hM : maxSteps dt < 2 ^ 64) (N : ℕ) (name : Option String) : AlwaysEnds H exp sim dt (synchronizerNetwork enc N name World.empty).2 := by
  obtain ⟨hlib, hsyn, -⟩ := sync_spec enc N name
  refine LibOK.alwaysEnds hlib H exp sim hdt hM syncRank ?_
  intro s hs
  rw [List.mem_reverse, hsyn] at hs
  have key : ∀ k, s ∈ chanSyns enc N 0 1 k → ∃ j, s ∈ roundSyns enc N 0 (1 + 10 * j) := by
    intro k
    induction k with
    | zero => intro h; cases h
    | succ k ih =>
      intro h
      rcases List.mem_append.mp h with h | h
      · exact ⟨k, h⟩
      · exact ih h
  obtain ⟨j, hs⟩ := key N hs
  rcases List.mem_append.mp hs with hs | hs
  · have m0 := syncRank_at j 0 (by norm_num)
    have m1 := syncRank_at j 1 (by norm_num)
    have m2 := syncRank_at j 2 (by norm_num)
    have m7 := syncRank_at j 7 (by norm_num)
    have m8 := syncRank_at j 8 (by norm_num)
    have m9 := syncRank_at j 9 (by norm_num)
    have hz : syncRank 0 = 5 := rfl
    rw [Nat.add_zero] at m0
    fin_cases hs <;> refine ⟨by norm_num, Or.inl ?_⟩ <;> simp only [m0, m1, m2, m7, m8, m9, hz] <;> simp
  · obtain ⟨x, hx, rfl⟩ := List.mem_map.mp hs
    obtain ⟨⟨b1, -, -, b2⟩, -⟩ := memSyns_bd enc x hx
    obtain ⟨g1, g2⟩ := mem_rank enc x hx
    refine ⟨g1, g2.imp ?_ id⟩
    intro h
    have e1 := syncRank_at j (x.pre + 2) (by omega)
    have e2 := syncRank_at j (x.post + 2) (by omega)
    show syncRank (1 + 10 * j + 2 + x.pre) < syncRank (1 + 10 * j + 2 + x.post)
    rw [show 1 + 10 * j + 2 + x.pre = 1 + 10 * j + (x.pre + 2) by ring, show 1 + 10 * j + 2 + x.post = 1 + 10 * j + (x.post + 2) by ring, e1, e2]
    have key : ∀ a < 8, ∀ b < 8, ([0, 1, 1, 2, 4, 3, 3, 5] : List ℕ).getD a 0 < ([0, 1, 1, 2, 4, 3, 3, 5] : List ℕ).getD b 0 →
      ([0, 9, 1, 2, 2, 3, 7, 6, 4, 8] : List ℕ).getD (a + 2) 0 < ([0, 9, 1, 2, 2, 3, 7, 6, 4, 8] : List ℕ).getD (b + 2) 0 := by decide
    exact key _ b1 _ b2 h

theorem reacts_unique {E : PEnv K} {n : ℕ} {s l vs L} (h : Reacts E n s l vs L) : ∀ {L'}, Reacts E n s l vs L' → L = L' := by
  induction h with
  | done => intro L' h'; cases h'; rfl
  | @quiet s l v vs L s' r h1 h2 h3 _ ih =>
    intro L' h'
    cases h' with
    | quiet g1 g2 g3 g4 =>
      rw [h1] at g1; cases g1; exact ih g4
    | @fires _ _ _ _ _ _ m g1 g2 g3 g4 =>
      rw [h1] at g1; cases g1
      rw [h2] at g2; cases g2
      obtain ⟨v', hv, hlt⟩ := h3 m rfl
      exact absurd (g3 v' hv) (not_le.mpr hlt)
  | @fires s l v vs L s' m h1 h2 h3 _ ih =>
    intro L' h'
    cases h' with
    | quiet g1 g2 g3 g4 =>
      rw [h1] at g1; cases g1
      rw [h2] at g2; cases g2
      obtain ⟨v', hv, hlt⟩ := g3 m rfl
      exact absurd (h3 v' hv) (not_le.mpr hlt)
    | fires g1 g2 g3 g4 =>
      rw [h1] at g1; cases g1
      rw [h2] at g2; cases g2
      rw [ih g4]

theorem reacts_relay {E : PEnv K} {n : ℕ} (hpar : E.net.par n = stdPar) (hs : Sane E.exp E.dt) {vs : List (Volley K)} {l : K} {L : List K}
    (h1 : (vs.map Volley.time).Pairwise (· < ·)) (h2 : ∀ v ∈ vs, v.hits ≠ []) (h3 : ∀ x ∈ vs.flatMap Volley.items, ∃ t, x = .hit t .V 10)
    (h : Reacts E n (lin 0 0) l vs L) : L = vs.map Volley.time := by
  have hv : ∀ v ∈ vs, ∀ q ∈ v.hits, q = (SynKind.V, (10 : K)) := by
    intro v hv q hq
    obtain ⟨t, ht⟩ := h3 (.hit v.time q.1 q.2) (List.mem_flatMap.mpr ⟨v, hv, List.mem_map.mpr ⟨q, hq, rfl⟩⟩)
    cases q; simp at ht; simp [ht]
  have e : vs = (vs.map (fun v => (v.time, v.hits.map Prod.snd))).map (fun v => ⟨v.1, v.2.map (fun w => (.V, w))⟩) := by
    rw [List.map_map]
    conv_lhs => rw [← List.map_id vs]
    refine List.map_congr_left fun v hvv => ?_
    obtain ⟨t, hs⟩ := v
    simp only [id, Function.comp, List.map_map, Volley.mk.injEq, true_and]
    conv_lhs => rw [← List.map_id hs]
    refine List.map_congr_left fun q hq => ?_
    rw [hv _ hvv q hq]; rfl
  have h4 := reacts_V (E := E) hpar hs (vs.map (fun v => (v.time, v.hits.map Prod.snd))) 0 l (by rw [List.map_map]; exact h1)
  rw [← e] at h4
  rw [reacts_unique h h4]
  have key : ∀ us : List (Volley K), (∀ v ∈ us, v.hits ≠ []) → (∀ v ∈ us, ∀ q ∈ v.hits, q = (SynKind.V, (10 : K))) →
      vrun 0 ((us.map (fun v => (v.time, v.hits.map Prod.snd))).map (fun v => (v.1, v.2.sum))) = us.map Volley.time := by
    intro us
    induction us with
    | nil => intro _ _; rfl
    | cons v us ih =>
      intro g1 g2
      simp only [List.map_cons, vrun]
      have : (10 : K) ≤ (v.hits.map Prod.snd).sum := by
        have hn := g1 v (by simp)
        have hq := g2 v (by simp)
        generalize v.hits = hs at hn hq
        cases hs with
        | nil => exact absurd rfl hn
        | cons q hs =>
          have e1 : q.2 = 10 := by rw [hq q (by simp)]
          have : 0 ≤ (hs.map Prod.snd).sum := List.sum_nonneg (by
            intro x hx
            obtain ⟨y, hy, rfl⟩ := List.mem_map.mp hx
            rw [hq y (by simp [hy])]; norm_num)
          simp only [List.map_cons, List.sum_cons, e1]; linarith
      rw [if_pos (by linarith), ih (fun v hv => g1 v (by simp [hv])) (fun v hv => g2 v (by simp [hv]))]
  exact key vs h2 hv

/-- **C105 (the condition matters).** The subtractor contains a neuron, `zero`, that excites itself (a synapse from `zero` to `zero` of weight `we` and delay `Tneu`).
A single spike injected into it keeps `simulate` running for ever. -/
theorem C105_subtractor_zero_never_ends (H : TimeHeap K) {exp : K → K} {enc : Encoder K} (h1 : 0 ≤ enc.Tmin) (sim : Encoder K) {dt : K} (hs : Sane exp dt)
    (name : Option String) (t : K) (fuel : ℕ) :
    predSession H exp sim dt (subtractorNetwork enc name World.empty).2 0 [.spike 8 t] fuel = none := by
  have h := subtractor_lib enc name
  obtain ⟨ns, hns, hmem⟩ := h.block.neurons
  rw [h.len] at hmem
  set w := (subtractorNetwork enc name World.empty).2 with hw
  have hsyn : w.syns.reverse = _ := sub_syns enc name
  have hpar : ∀ x < 9, w.par x = stdPar := fun x hx => h.wpar (by rw [h.len]; exact hx)
  have hbd : ∀ s ∈ w.syns, s.pre < 9 ∧ s.post < 9 := by
    intro s hs; have := h.block.syn_bd s hs; rwa [h.len] at this
  set E : PEnv K := ⟨H, exp, w.net ns, sim, dt⟩ with hEdef
  have hrun : Runnable E.net := by
    refine ⟨?_, ?_, ?_⟩
    · intro s hs
      exact h.block.kinds s (by simpa [hEdef, World.net] using hs)
    · intro s hs
      exact (hmem _).mpr (hbd s (by simpa [hEdef, World.net] using hs)).2
    · intro x hx
      have : E.net.par x = stdPar := hpar x ((hmem x).mp hx)
      rw [this]; norm_num [stdPar]
  have hdel : ∀ s ∈ E.net.syns, 0 < s.delay := by
    intro s hs
    have hs' : s ∈ w.syns.reverse := hs
    rw [hsyn] at hs'
    fin_cases hs' <;> simp only <;> first | linarith | norm_num
  obtain ⟨st0, hi⟩ : ∃ st0, PSim.init E fresh (fun _ => (0 : K)) 0 = .ok st0 := by
    unfold PSim.init; rw [if_neg hs.pos.ne']; exact ⟨_, rfl⟩
  obtain ⟨st1, hc⟩ := pred_calls_ok E (cs := [.spike 8 t]) (by simp [CallOK]) st0
  unfold predSession
  rw [hns]
  simp only
  rw [hi]
  simp only
  rw [hc]
  simp only
  by_contra hne
  obtain ⟨r, hr⟩ := Option.ne_none_iff_exists'.mp hne
  have hst : Started E st1 := ⟨_, _, _, st0, _, hi, hc⟩
  obtain ⟨p0, hp0, hpred, hids, hnd, hposs, hlog, hcnt, hfin, -⟩ := hst.spec
  have hgood := ready_good hi hc (by
    intro q hq
    have e : q = (8, t) := by simpa [predSpikes] using hq
    rw [e]; exact (hmem 8).mpr (by norm_num)) hp0
  have hkeys : Keys E st1 := by
    refine ⟨fun n hn => ?_, fun n hn => ?_, fun k hk => ?_⟩
    · rw [hposs, if_pos hn]; rfl
    · rw [hlog, if_pos hn]; rfl
    · rw [hcnt]; rcases hk with rfl | rfl | rfl | rfl <;> rfl
  obtain ⟨st, rfl⟩ : ∃ st, r = .ok st := by
    unfold PSim.simulate at hr
    rw [hfin] at hr
    simp only [Bool.false_eq_true, if_false] at hr
    cases hl : st1.loop E fuel with
    | none => rw [hl] at hr; cases hr
    | some r' =>
      obtain ⟨st', rfl⟩ := loop_no_error hrun fuel st1 p0 r' hkeys hp0 hgood hl
      rw [hl] at hr
      simp only [Option.some.injEq] at hr
      exact ⟨_, hr.symm⟩
  have hcon := C78_logs_are_consistent E hs.pos hdel hi hc hr
  generalize hL : (fun n => (st.spikeLog n).getD []) = L at hcon
  have e3 : E.net.syns = _ := hsyn
  have nil : ∀ n, arriving E.net ([Call.spike 8 t].flatMap (predSpikes E.enc)) L n = [] → L n = [] := by
    intro n hn
    obtain ⟨vs, -, g2, g3, g4⟩ := hcon n
    rw [hn] at g3
    cases vs with
    | nil => generalize L n = x at g4; cases g4; rfl
    | cons v vs =>
      have := g3.eq_nil
      simp only [List.flatMap_cons, List.append_eq_nil_iff] at this
      exact absurd (List.map_eq_nil_iff.mp this.1) (g2 v (by simp))
  have l0 : L 0 = [] := nil 0 (by simp [arriving, e3, predSpikes])
  have l1 : L 1 = [] := nil 1 (by simp [arriving, e3, predSpikes])
  have l2 : L 2 = [] := nil 2 (by simp [arriving, e3, predSpikes, l0])
  have l3 : L 3 = [] := nil 3 (by simp [arriving, e3, predSpikes, l1])
  have p8 : E.net.par 8 = stdPar := hpar 8 (by norm_num)
  have harr : arriving E.net ([Call.spike 8 t].flatMap (predSpikes E.enc)) L 8 = .hit t .V 10 :: (L 8).map (fun u => .hit (u + 1 / 100) .V 10) := by
    simp [arriving, e3, predSpikes, l2, l3, p8, stdPar]
  obtain ⟨vs, g1, g2, g3, g4⟩ := hcon 8
  rw [harr] at g3
  have g5 := reacts_relay p8 (show Sane E.exp E.dt from hs) g1 g2 (by
    intro x hx
    have := g3.mem_iff.mp hx
    rcases List.mem_cons.mp this with rfl | hx
    · exact ⟨t, rfl⟩
    · obtain ⟨u, -, rfl⟩ := List.mem_map.mp hx
      exact ⟨_, rfl⟩) g4
  have hmem8 : ∀ u, Item.hit u .V 10 ∈ vs.flatMap Volley.items → u ∈ L 8 := by
    intro u hu
    obtain ⟨v, hv, hu⟩ := List.mem_flatMap.mp hu
    obtain ⟨q, -, hq⟩ := List.mem_map.mp hu
    rw [g5]
    simp only [Item.hit.injEq] at hq
    exact List.mem_map.mpr ⟨v, hv, hq.1⟩
  have ht : t ∈ L 8 := hmem8 t (g3.mem_iff.mpr (by simp))
  have hstep : ∀ u ∈ L 8, u + 1 / 100 ∈ L 8 := fun u hu =>
    hmem8 _ (g3.mem_iff.mpr (List.mem_cons_of_mem _ (List.mem_map.mpr ⟨u, hu, rfl⟩)))
  obtain ⟨m, hm, hmax⟩ := (L 8).toFinset.exists_max_image id ⟨t, List.mem_toFinset.mpr ht⟩
  have := hmax (m + 1 / 100) (List.mem_toFinset.mpr (hstep m (List.mem_toFinset.mp hm)))
  simp only [id] at this
  norm_num at this

/-! ## The theorems of this file on concrete cases -/

/-- `C105_one_behaviour` on the network above, whose two neurons inhibit each other and themselves: it
has exactly one behaviour for three injected spikes. -/
example : ∃ L, Consistent (⟨sortedHeap _, fun _ => 0, ⟨[0, 1], fun _ => stdPar, [⟨0, 1, 10, 1, .V⟩, ⟨1, 0, -10, 1, .V⟩, ⟨1, 1, -5, 1, .ge⟩]⟩, ⟨10, 100⟩, 1 / 100⟩ : PEnv ℚ)
      (fun _ => ⟨0, 0, 0, 0⟩) (fun _ => 0) [(0, 0), (0, 3), (1, 5)] L ∧
    ∀ L', Consistent (⟨sortedHeap _, fun _ => 0, ⟨[0, 1], fun _ => stdPar, [⟨0, 1, 10, 1, .V⟩, ⟨1, 0, -10, 1, .V⟩, ⟨1, 1, -5, 1, .ge⟩]⟩, ⟨10, 100⟩, 1 / 100⟩ : PEnv ℚ)
      (fun _ => ⟨0, 0, 0, 0⟩) (fun _ => 0) [(0, 0), (0, 3), (1, 5)] L' → ∀ n ∈ [0, 1], L' n = L n := by
  refine C105_one_behaviour _ (by norm_num) (by decide +kernel) (by simp) ⟨by simp [Known], by simp, by simp [stdPar]⟩ (by simp [stdPar]) (excites_of_rank id ?_) _ _ _ (by simp)
  intro s hs
  fin_cases hs
  · exact Or.inl (by decide)
  · exact Or.inr ⟨Or.inl rfl, by norm_num⟩
  · exact Or.inr ⟨Or.inr rfl, by norm_num⟩

/-- `C105_memories`, `C105_scalar_multiplier`, `C105_synchronizer` with the default encoder and `dt = 0.01`. -/
example : AlwaysEnds (sortedHeap _) (fun _ => 0) ⟨10, 100⟩ (1 / 100) (memoryNetwork (⟨10, 100⟩ : Encoder ℚ) none World.empty).2 ∧
    AlwaysEnds (sortedHeap _) (fun _ => 0) ⟨10, 100⟩ (1 / 100) (scalarMultiplierNetwork (3 / 4) (⟨10, 100⟩ : Encoder ℚ) none World.empty).2 ∧
    AlwaysEnds (sortedHeap _) (fun _ => 0) ⟨10, 100⟩ (1 / 100) (synchronizerNetwork (⟨10, 100⟩ : Encoder ℚ) 5 none World.empty).2 :=
  ⟨(C105_memories _ _ _ (by norm_num) _ (by norm_num) (by decide +kernel) none).1,
    C105_scalar_multiplier _ _ _ _ (by norm_num) _ (by norm_num) (by decide +kernel) none,
    C105_synchronizer _ _ _ _ (by norm_num) (by decide +kernel) 5 none⟩

/-- `C105_subtractor_zero_never_ends` with the default encoder and `dt = 0.01`. -/
example (fuel : ℕ) : predSession (sortedHeap _) (fun _ => 0) ⟨10, 100⟩ (1 / 100) (subtractorNetwork (⟨10, 100⟩ : Encoder ℚ) none World.empty).2 0 [.spike 8 5] fuel = none :=
  C105_subtractor_zero_never_ends _ (by norm_num) _ sane0 none 5 fuel

end Axon
