import Verif.Proofs.Drive

set_option linter.unusedSectionVars false
namespace Axon
open Spec
variable {K : Type*} [Field K] [LinearOrder K] [IsStrictOrderedRing K] [FloorRing K]

theorem nstep_eq_post (p : Params K) (dt : K) (s : NState K) (a : SynKind → K) :
    nstep p dt s a = (post p dt (s.addSums a), (updateAndSpike p dt (s.addSums a)).2) := by
  unfold nstep post updateAndSpike NState.addSums NState.reset
  by_cases h : p.Vt ≤ s.V + a .V + dt * (s.ge + a .ge + (s.gate + a .gate) * (s.gf + a .gf)) / p.tm
  · simp [h]
  · simp [h]

theorem nstep_V_lt (p : Params K) (dt : K) (s : NState K) (a : SynKind → K) (hr : p.Vreset < p.Vt) :
    (nstep p dt s a).1.V < p.Vt := by
  unfold nstep
  by_cases h : p.Vt ≤ s.V + a .V + dt * (s.ge + a .ge + (s.gate + a .gate) * (s.gf + a .gf)) / p.tm
  · simp [h, hr]
  · simp only [h, if_false]; exact not_le.mp h

/-- A quiet neuron below threshold without input stays as it is and does not fire. -/
theorem nstep_quiet (p : Params K) (dt : K) (s : NState K) (a : SynKind → K)
    (ha : s.active = false) (hV : s.V < p.Vt) (h0 : ∀ k : SynKind, k.Known → a k = 0) :
    nstep p dt s a = (s, false) := by
  simp only [NState.active, decide_eq_false_iff_not, not_or, not_not] at ha
  have hk : a .V = 0 ∧ a .ge = 0 ∧ a .gf = 0 ∧ a .gate = 0 :=
    ⟨h0 _ (Or.inl rfl), h0 _ (Or.inr (Or.inl rfl)), h0 _ (Or.inr (Or.inr (Or.inl rfl))),
      h0 _ (Or.inr (Or.inr (Or.inr rfl)))⟩
  unfold nstep
  simp only [hk, ha, add_zero, mul_zero, zero_div, not_le.mpr hV, if_false]
  simp only [ne_eq, not_true_eq_false, if_false, Prod.mk.injEq, and_true]
  ext <;> simp [ha]

/-- Neuron `n` is updated in step `i+1` (events.py: it is hit or was active). -/
def touched (net : Net K) (dt : K) (inj : List (ℕ × K)) (S : ℕ → ℕ → NState K) (F : ℕ → ℕ → Bool)
    (i n : ℕ) : Bool :=
  decide (n ∈ (due net dt inj F (i + 1)).map (fun e => e.neuron)) || (decide (n ∈ net.neurons) && (S i n).active)

/-- The entries `simulate` adds to the voltage log of `n` in the first `N` steps. -/
def voltEntries (net : Net K) (dt : K) (inj : List (ℕ × K)) (S : ℕ → ℕ → NState K)
    (F : ℕ → ℕ → Bool) (N n : ℕ) : List (K × ℕ) :=
  ((List.range N).filter (fun i => touched net dt inj S F i n)).map (fun i => ((S (i + 1) n).V, i))

/-- The simulator's state after `N` steps, related to the naive run. -/
structure RInv (H : EventHeap K) (net : Net K) (dt : K) (inj : List (ℕ × K)) (st0 : Sim K)
    (S : ℕ → ℕ → NState K) (F : ℕ → ℕ → Bool) (N : ℕ) (st : Sim K) (act : List ℕ) : Prop where
  inv : H.Inv st.queue
  queue : st.queue.Perm (((tagged net dt inj F N).filter (fun x => N < x.1)).map (·.2))
  nst : ∀ n, st.nst n = S N n
  log : ∀ n, st.spikeLog n = (st0.spikeLog n).map (· ++ emitted dt F N n)
  volt : ∀ n, st.voltLog n = (st0.voltLog n).map (· ++ voltEntries net dt inj S F N n)
  cnt : ∀ k, st.cnt k = st0.cnt k +
    (((tagged net dt inj F N).filter (fun x => x.1 ≤ N)).filter (fun x => x.2.kind = k)).length
  act : ∀ n, n ∈ act ↔ n ∈ net.neurons ∧ (S N n).active = true
  below : ∀ n ∈ net.neurons, (S N n).V < (net.par n).Vt

/-- What the simulator needs to have been set up correctly before step 1. -/
structure StartOK (H : EventHeap K) (net : Net K) (dt : K) (inj : List (ℕ × K)) (s0 : ℕ → NState K)
    (st0 : Sim K) : Prop where
  inv : H.Inv st0.queue
  queue : st0.queue.Perm ((tagInj net dt inj).map (·.2))
  nst : ∀ n, st0.nst n = s0 n
  log : ∀ n ∈ net.neurons, (st0.spikeLog n).isSome
  volt : ∀ n, (st0.voltLog n).isSome ↔ n ∈ net.neurons

theorem emitted_succ (dt : K) (F : ℕ → ℕ → Bool) (N n : ℕ) :
    emitted dt F (N + 1) n = emitted dt F N n ++ (if F (N + 1) n then [((N + 1 : ℕ) : K) * dt] else []) := by
  unfold emitted
  rw [List.range'_concat, List.filter_append, List.map_append]
  by_cases h : F (N + 1) n <;> simp [h, add_comm 1 N]

theorem voltEntries_succ (net : Net K) (dt : K) (inj : List (ℕ × K)) (S : ℕ → ℕ → NState K)
    (F : ℕ → ℕ → Bool) (N n : ℕ) :
    voltEntries net dt inj S F (N + 1) n = voltEntries net dt inj S F N n ++
      (if touched net dt inj S F N n then [((S (N + 1) n).V, N)] else []) := by
  unfold voltEntries
  rw [List.range_succ, List.filter_append, List.map_append]
  by_cases h : touched net dt inj S F N n <;> simp [h]

theorem Spec.IsRun.F_mem {net : Net K} {dt : K} {inj} {s0} {S} {F} (hr : IsRun net dt inj s0 S F) {j m}
    (h : F j m = true) : m ∈ net.neurons := by
  by_contra hm
  have := (hr.outside j m hm).2
  simp [this] at h

theorem input_zero {net : Net K} {dt : K} {inj} {F : ℕ → ℕ → Bool} {i n : ℕ} (k : SynKind)
    (hF : ∀ j m, F j m → m ∈ net.neurons)
    (h : n ∉ (due net dt inj F i).map (fun e => e.neuron)) : input net dt inj F k n i = 0 := by
  rw [← evSum_due net dt inj F i n k hF]
  unfold evSum
  have : (due net dt inj F i).filter (fun e => decide (e.neuron = n ∧ e.kind = k)) = [] := by
    rw [List.filter_eq_nil_iff]
    intro e he hh
    simp only [decide_eq_true_eq] at hh
    exact h (List.mem_map.mpr ⟨e, he, hh.1⟩)
  rw [this]; rfl

theorem RInv.zero {H : EventHeap K} {net : Net K} {dt : K} {inj} {s0} {S} {F} {st0 : Sim K}
    (hs : StartOK H net dt inj s0 st0) (hrest : Resting net s0) (hr : IsRun net dt inj s0 S F) :
    RInv H net dt inj st0 S F 0 st0 [] := by
  have htag : tagged net dt inj F 0 = tagInj net dt inj := by
    have : (net.neurons.dedup.filter (fun n => F 0 n)) = [] := by
      rw [List.filter_eq_nil_iff]; intro n _; simp [(hr.start n).2]
    simp [tagged, tagFired, this]
  have hfil : (tagInj net dt inj).filter (fun x => 0 < x.1) = tagInj net dt inj := by
    rw [List.filter_eq_self]
    intro x hx
    have := (tagged_arr (F := F) (N := 0) (htag ▸ hx)).1
    simp only [decide_eq_true_eq]; omega
  refine ⟨hs.inv, ?_, ?_, ?_, ?_, ?_, ?_, ?_⟩
  · rw [htag, hfil]; exact hs.queue
  · intro n; rw [hs.nst, (hr.start n).1]
  · intro n; simp [emitted]
  · intro n; simp [voltEntries]
  · intro k
    rw [htag]
    have : (tagInj net dt inj).filter (fun x => x.1 ≤ 0) = [] := by
      rw [List.filter_eq_nil_iff]
      intro x hx
      have := (tagged_arr (F := F) (N := 0) (htag ▸ hx)).1
      simp; omega
    rw [this]; simp
  · intro n
    constructor
    · intro h; simp at h
    · rintro ⟨hn, ha⟩
      have := hrest n hn
      rw [(hr.start n).1] at ha
      simp [NState.active, this] at ha
  · intro n hn; rw [(hr.start n).1]; exact (hrest n hn).1

/-- The batch popped in step `N+1` is what the specification says is due. -/
theorem RInv.popped {H : EventHeap K} {net : Net K} {dt : K} (hdt : 0 < dt) {inj} {S} {F}
    {st0 : Sim K} {N st act} (h : RInv H net dt inj st0 S F N st act) :
    (popEvents H (((N + 1 : ℕ) : K) * dt) st.queue).1.Perm (due net dt inj F (N + 1)) ∧
    (popEvents H (((N + 1 : ℕ) : K) * dt) st.queue).2.Perm
      (((tagged net dt inj F N).filter (fun x => N + 1 < x.1)).map (·.2)) := by
  constructor
  · refine (popEvents_fst H _ _ h.inv).trans ((h.queue.filter _).trans (List.Perm.of_eq ?_))
    rw [due_eq, List.filter_map, List.filter_filter]
    congr 1
    apply List.filter_congr
    intro x hx
    by_cases hN : N < x.1
    · have := tagged_time hdt hx hN
      simp only [Function.comp, this, hN, decide_true, Bool.and_true]
    · simp [hN]; omega
  · refine (popEvents_snd H _ _ h.inv).trans ((h.queue.filter _).trans (List.Perm.of_eq ?_))
    rw [List.filter_map, List.filter_filter]
    congr 1
    apply List.filter_congr
    intro x hx
    by_cases hN : N < x.1
    · have := tagged_time hdt hx hN
      simp only [Function.comp, this, hN, decide_true, Bool.and_true]
      congr 1
      simp only [eq_iff_iff]; omega
    · simp [hN]; omega

theorem due_known {net : Net K} (wf : WellFormed net) {dt : K} {inj} {F : ℕ → ℕ → Bool} {N : ℕ}
    {e : Event K} (he : e ∈ due net dt inj F (N + 1)) : e.kind.Known ∧ e.neuron ∈ net.neurons := by
  rw [due_eq] at he
  obtain ⟨x, hx, rfl⟩ := List.mem_map.mp he
  exact tagged_wf wf (List.mem_of_mem_filter hx)

theorem count_split (l : List (ℕ × Event K)) (N : ℕ) (k : SynKind) :
    ((l.filter (fun x => x.1 ≤ N)).filter (fun x => x.2.kind = k)).length +
    ((l.filter (fun x => x.1 = N + 1)).filter ((fun e : Event K => decide (e.kind = k)) ∘ (·.2))).length
    = ((l.filter (fun x => x.1 ≤ N + 1)).filter (fun x => x.2.kind = k)).length := by
  simp only [← List.countP_eq_length_filter, List.countP_filter]
  induction l with
  | nil => rfl
  | cons x l ih =>
    simp only [List.countP_cons, ← ih]
    by_cases hk : x.2.kind = k
    · rcases lt_trichotomy x.1 (N + 1) with h | h | h
      · have h1 : x.1 ≤ N := by omega
        have h2 : ¬ x.1 = N + 1 := by omega
        have h3 : x.1 ≤ N + 1 := by omega
        simp [hk, h1, h2, h3]; omega
      · have h1 : ¬ x.1 ≤ N := by omega
        simp [hk, h]; omega
      · have h1 : ¬ x.1 ≤ N := by omega
        have h2 : ¬ x.1 = N + 1 := by omega
        have h3 : ¬ x.1 ≤ N + 1 := by omega
        simp [h1, h2, h3]
    · simp [hk]

theorem RInv.succ {H : EventHeap K} {ord : ℕ → List ℕ → List ℕ} (hord : SetOrder ord)
    {net : Net K} (wf : WellFormed net) {dt : K} (hdt : 0 < dt) {inj} {s0} {S} {F}
    {st0 : Sim K} (hs : StartOK H net dt inj s0 st0) (hr : IsRun net dt inj s0 S F)
    {N st act} (h : RInv H net dt inj st0 S F N st act) :
    ∃ st' act', simStep H ord net dt N (st, act) = .ok (st', act') ∧
      RInv H net dt inj st0 S F (N + 1) st' act' := by
  obtain ⟨hp1, hp2⟩ := h.popped hdt
  have hFm : ∀ j m, F j m → m ∈ net.neurons := fun j m hh => hr.F_mem hh
  set t := ((N + 1 : ℕ) : K) * dt with ht
  set evs := (popEvents H t st.queue).1 with hevs
  set q2 := (popEvents H t st.queue).2 with hq2
  have hknown : ∀ e ∈ evs, e.kind.Known := fun e he => (due_known wf (hp1.subset he)).1
  have hdel := deliver_fold evs { st with queue := q2 } [] hknown
  set st1 : Sim K := { st with
    queue := q2
    nst := fun n => (st.nst n).addSums (evSum evs n)
    cnt := fun k => st.cnt k + (evs.filter (fun e => e.kind = k)).length } with hst1
  set L := ord N (([] ++ evs.map (fun e : Event K => e.neuron)) ++ act).dedup with hL
  have hLp : L.Perm (([] ++ evs.map (fun e : Event K => e.neuron)) ++ act).dedup := hord _ _
  have hLmem : ∀ n, n ∈ L ↔ n ∈ (due net dt inj F (N + 1)).map (fun e => e.neuron) ∨
      (n ∈ net.neurons ∧ (S N n).active = true) := by
    intro n
    rw [hLp.mem_iff, List.mem_dedup, List.nil_append, List.mem_append, h.act,
      (hp1.map (fun e => e.neuron)).mem_iff]
  have hLnet : ∀ n ∈ L, n ∈ net.neurons := by
    intro n hn
    rcases (hLmem n).mp hn with hh | hh
    · obtain ⟨e, he, rfl⟩ := List.mem_map.mp hh
      exact (due_known wf he).2
    · exact hh.1
  have hLtouched : ∀ n, n ∈ L ↔ touched net dt inj S F N n = true := by
    intro n
    rw [hLmem]; simp [touched]
  have hvolt1 : ∀ n ∈ L, (st1.voltLog n).isSome := by
    intro n hn
    show (st.voltLog n).isSome
    rw [h.volt, Option.isSome_map]
    exact (hs.volt n).mpr (hLnet n hn)
  obtain ⟨st', act', hfold, nf⟩ := neuronFold H net dt t N L st1 [] (hLp.nodup_iff.mpr (List.nodup_dedup _))
    (fun n hn => wf.tm n (hLnet n hn)) (fun n hn => wf.tf n (hLnet n hn)) hvolt1
    (popEvents_spec H t st.queue h.inv).1
  have hstep : simStep H ord net dt N (st, act) = .ok (st', act') := by
    unfold simStep
    simp only [← ht, ← hevs, ← hq2, hdel]
    exact hfold
  -- the state each neuron has before its update
  have hpre : ∀ n, st1.nst n = (S N n).addSums (fun k => input net dt inj F k n (N + 1)) := by
    intro n
    show (st.nst n).addSums (evSum evs n) = _
    rw [h.nst]
    congr 1
    funext k
    rw [evSum_perm hp1, evSum_due net dt inj F (N + 1) n k hFm]
  have hrun : ∀ n ∈ net.neurons, S (N + 1) n = post (net.par n) dt (st1.nst n) ∧
      F (N + 1) n = (updateAndSpike (net.par n) dt (st1.nst n)).2 := by
    intro n hn
    have := hr.step N n hn
    rw [nstep_eq_post, ← hpre, Prod.mk.injEq] at this
    exact this
  -- untouched neurons
  have hun : ∀ n ∈ net.neurons, n ∉ L → st1.nst n = S N n ∧ S (N + 1) n = S N n ∧ F (N + 1) n = false := by
    intro n hn hnL
    have hnd : n ∉ (due net dt inj F (N + 1)).map (fun e => e.neuron) :=
      fun hh => hnL ((hLmem n).mpr (Or.inl hh))
    have hna : (S N n).active = false := by
      by_contra hh
      exact hnL ((hLmem n).mpr (Or.inr ⟨hn, by simpa using hh⟩))
    have hz : ∀ k, input net dt inj F k n (N + 1) = 0 := fun k => input_zero k hFm hnd
    have hq := nstep_quiet (net.par n) dt (S N n) (fun k => input net dt inj F k n (N + 1)) hna
      (h.below n hn) (fun k _ => hz k)
    have h1 := hr.step N n hn
    rw [hq, Prod.mk.injEq] at h1
    refine ⟨?_, h1⟩
    rw [hpre]
    ext <;> simp [NState.addSums, hz]
  have hout : ∀ n, n ∉ net.neurons → st1.nst n = S N n ∧ S (N + 1) n = S N n ∧ F (N + 1) n = false := by
    intro n hn
    refine ⟨?_, ?_, (hr.outside (N + 1) n hn).2⟩
    · rw [hpre]
      have hz : ∀ k, input net dt inj F k n (N + 1) = 0 := fun k => by
        apply input_zero k hFm
        intro hh
        obtain ⟨e, he, rfl⟩ := List.mem_map.mp hh
        exact hn (due_known wf he).2
      ext <;> simp [NState.addSums, hz]
    · rw [(hr.outside (N + 1) n hn).1, (hr.outside N n hn).1]
  have hunL : ∀ n, n ∉ L → st1.nst n = S N n ∧ S (N + 1) n = S N n ∧ F (N + 1) n = false := by
    intro n hn
    by_cases hm : n ∈ net.neurons
    · exact hun n hm hn
    · exact hout n hm
  have hfired : ∀ n, (n ∈ L ∧ (updateAndSpike (net.par n) dt (st1.nst n)).2 = true) ↔ F (N + 1) n = true := by
    intro n
    constructor
    · rintro ⟨hn, hh⟩; rw [(hrun n (hLnet n hn)).2]; exact hh
    · intro hh
      have hn : n ∈ L := by
        by_contra hn
        rw [(hunL n hn).2.2] at hh; cases hh
      exact ⟨hn, by rw [← (hrun n (hLnet n hn)).2]; exact hh⟩
  refine ⟨st', act', hstep, ⟨nf.inv, ?_, ?_, ?_, ?_, ?_, ?_, ?_⟩⟩
  · -- queue
    refine nf.queue.trans ?_
    rw [tagged_succ, List.filter_append, List.map_append]
    apply List.Perm.append
    · exact hp2
    · have hall : (tagFired net dt F (N + 1)).filter (fun x => decide (N + 1 < x.1))
          = tagFired net dt F (N + 1) := by
        rw [List.filter_eq_self]
        intro x hx
        unfold tagFired at hx
        simp only [List.mem_flatMap, List.mem_map] at hx
        obtain ⟨n, _, s, _, rfl⟩ := hx
        have : N + 1 + 1 ≤ arrInt dt (N + 1) s.delay := le_firstStep dt (N + 1 + 1) _
        simp only [decide_eq_true_eq]; omega
      rw [hall]
      unfold tagFired
      rw [List.map_flatMap]
      simp only [List.map_map]
      have hfp : (L.filter (fun n => (updateAndSpike (net.par n) dt (st1.nst n)).2)).Perm
          (net.neurons.dedup.filter (fun n => F (N + 1) n)) := by
        apply (List.perm_ext_iff_of_nodup ((hLp.nodup_iff.mpr (List.nodup_dedup _)).filter _)
          ((List.nodup_dedup _).filter _)).mpr
        intro n
        rw [List.mem_filter, List.mem_filter, List.mem_dedup, hfired]
        constructor
        · intro hh; exact ⟨hFm _ _ hh, hh⟩
        · exact fun hh => hh.2
      refine (hfp.flatMap_right _).trans (List.Perm.of_eq ?_)
      rfl
  · intro n
    rw [nf.nst]
    by_cases hn : n ∈ L
    · simp [hn, (hrun n (hLnet n hn)).1]
    · simp [hn, hunL n hn]
  · intro n
    rw [nf.log]
    show _ = (st0.spikeLog n).map (· ++ emitted dt F (N + 1) n)
    have hst : st1.spikeLog n = (st0.spikeLog n).map (· ++ emitted dt F N n) := h.log n
    rw [emitted_succ, hst]
    by_cases hf : F (N + 1) n = true
    · rw [if_pos ((hfired n).mpr hf)]
      have hsome := hs.log n (hFm _ _ hf)
      obtain ⟨l, hl⟩ := Option.isSome_iff_exists.mp hsome
      simp [hl, appendLog, hf, ht]
    · rw [if_neg (fun hh => hf ((hfired n).mp hh))]
      simp [hf]
  · intro n
    rw [nf.volt, voltEntries_succ]
    have hst : st1.voltLog n = (st0.voltLog n).map (· ++ voltEntries net dt inj S F N n) := h.volt n
    rw [hst]
    by_cases hn : n ∈ L
    · rw [if_pos hn]
      simp only [(hLtouched n).mp hn, if_true, (hrun n (hLnet n hn)).1]
      cases st0.voltLog n <;> simp
    · rw [if_neg hn]
      have : touched net dt inj S F N n = false := by
        by_contra hh; exact hn ((hLtouched n).mpr (by simpa using hh))
      simp [this]
  · intro k
    rw [nf.cnt]
    show st.cnt k + (evs.filter (fun e => e.kind = k)).length = _
    rw [h.cnt, tagged_succ, (hp1.filter _).length_eq, due_eq, List.filter_map, List.length_map, add_assoc]
    congr 1
    rw [List.filter_append]
    have hnone : (tagFired net dt F (N + 1)).filter (fun x => decide (x.1 ≤ N + 1)) = [] := by
      rw [List.filter_eq_nil_iff]
      intro x hx
      unfold tagFired at hx
      simp only [List.mem_flatMap, List.mem_map] at hx
      obtain ⟨n, _, s, _, rfl⟩ := hx
      have : N + 1 + 1 ≤ arrInt dt (N + 1) s.delay := le_firstStep dt (N + 1 + 1) _
      simp only [decide_eq_true_eq]; omega
    rw [hnone, List.append_nil]
    exact count_split _ N k
  · intro n
    rw [nf.act, List.nil_append, List.mem_filter]
    constructor
    · rintro ⟨hn, ha⟩
      exact ⟨hLnet n hn, by rw [(hrun n (hLnet n hn)).1]; exact ha⟩
    · rintro ⟨hn, ha⟩
      have hnL : n ∈ L := by
        by_contra hnL
        rw [(hunL n hnL).2.1] at ha
        exact hnL ((hLmem n).mpr (Or.inr ⟨hn, ha⟩))
      exact ⟨hnL, by rw [← (hrun n hn).1]; exact ha⟩
  · intro n hn
    have := nstep_V_lt (net.par n) dt (S N n) (fun k => input net dt inj F k n (N + 1)) (wf.reset n hn)
    rw [← hr.step N n hn] at this
    exact this

/-- Main refinement: `N` steps of the simulator's loop produce the naive run. -/
theorem simLoop_refines {H : EventHeap K} {ord : ℕ → List ℕ → List ℕ} (hord : SetOrder ord)
    {net : Net K} (wf : WellFormed net) {dt : K} (hdt : 0 < dt) {inj} {s0} {S} {F}
    {st0 : Sim K} (hs : StartOK H net dt inj s0 st0) (hrest : Resting net s0)
    (hr : IsRun net dt inj s0 S F) (N : ℕ) :
    ∃ st act, simLoop H ord net dt N (st0, []) = .ok (st, act) ∧
      RInv H net dt inj st0 S F N st act := by
  induction N with
  | zero => exact ⟨st0, [], rfl, RInv.zero hs hrest hr⟩
  | succ N ih =>
    obtain ⟨st, act, h1, h2⟩ := ih
    obtain ⟨st', act', h3, h4⟩ := h2.succ hord wf hdt hs hr
    exact ⟨st', act', by rw [simLoop, h1]; exact h3, h4⟩

end Axon
