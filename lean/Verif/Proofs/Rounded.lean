import Verif.Spec.Rounded
import Verif.Proofs.Refine

set_option linter.unusedSectionVars false
namespace Axon
open Spec

section Deliver
variable {K : Type*} [LinearOrder K] [Add K]

theorem deliver_foldR (evs : List (Event K)) : ∀ (st : Sim K) (a : List ℕ),
    (∀ e ∈ evs, e.kind.Known) →
    evs.foldlM deliver (st, a) = .ok
      ({ st with nst := fun n => (evs.filter (fun e => e.neuron = n)).foldl addEv (st.nst n),
                 cnt := fun k => st.cnt k + (evs.filter (fun e => e.kind = k)).length },
        a ++ evs.map (fun e => e.neuron)) := by
  induction evs with
  | nil => intro st a _; simp [pure, Except.pure]
  | cons e evs ih =>
    intro st a hk
    rw [List.foldlM_cons]
    have hrec : receive (st.nst e.neuron) e.kind e.weight = .ok (addEv (st.nst e.neuron) e) := by
      rcases hk e (by simp) with h | h | h | h <;> simp [receive, h, addEv]
    have hd : deliver (st, a) e = .ok
        ({ st with nst := Function.update st.nst e.neuron (addEv (st.nst e.neuron) e)
                   cnt := Function.update st.cnt e.kind (st.cnt e.kind + 1) }, a ++ [e.neuron]) := by
      simp only [deliver, hrec]
    rw [hd]
    show List.foldlM deliver _ evs = _
    rw [ih _ _ (fun e' he' => hk e' (by simp [he']))]
    congr 2
    · congr 1
      · funext n
        by_cases hn : n = e.neuron
        · subst hn; simp
        · simp [hn, Ne.symm hn]
      · funext k
        by_cases hk' : k = e.kind
        · subst hk'; simp; omega
        · simp [hk', Ne.symm hk']
    · simp

end Deliver

variable {K : Type*} [LinearOrder K] [Add K] [Sub K] [Mul K] [Div K] [Zero K] [NatCast K]

theorem euler_eq_post (p : Params K) (dt : K) (s : NState K) :
    euler p dt s = (post p dt s, (updateAndSpike p dt s).2) := by
  unfold euler post updateAndSpike NState.reset
  by_cases h : p.Vt ≤ s.V + dt * (s.ge + s.gate * s.gf) / p.tm <;> simp [h]

theorem euler_V_lt (p : Params K) (dt : K) (s : NState K) (hr : p.Vreset < p.Vt) : (euler p dt s).1.V < p.Vt := by
  unfold euler
  by_cases h : p.Vt ≤ s.V + dt * (s.ge + s.gate * s.gf) / p.tm
  · simp [h, hr]
  · simp only [h, if_false]; exact not_le.mp h

theorem euler_quiet [RoundedArith K] (p : Params K) (dt : K) (s : NState K) (ha : s.active = false) (hV : s.V < p.Vt) :
    euler p dt s = (s, false) := by
  simp only [NState.active, decide_eq_false_iff_not, not_or, not_not] at ha
  obtain ⟨h1, h2, h3⟩ := ha
  have e : s.V + dt * (s.ge + s.gate * s.gf) / p.tm = s.V := by
    rw [h1, h2, h3, RoundedArith.mul_zero, RoundedArith.add_zero, RoundedArith.mul_zero, RoundedArith.zero_div, RoundedArith.add_zero]
  unfold euler
  simp only [e, not_le.mpr hV, if_false]
  simp only [h3, ne_eq, not_true_eq_false, if_false]
  refine Prod.ext ?_ rfl
  ext <;> simp [h1, h2, h3]

/-- Events with the first step in which they may arrive. -/
def tagsInj (net : Net K) (inj : List (ℕ × K)) : List (ℕ × Event K) :=
  inj.flatMap fun q => (net.out q.1).map fun s => (1, synEvent q.2 s)

def tagsFired (net : Net K) (dt : K) (F : ℕ → ℕ → Bool) (j : ℕ) : List (ℕ × Event K) :=
  (net.neurons.dedup.filter (fun n => F j n)).flatMap fun n => (net.out n).map fun s => (j + 1, synEvent ((j : K) * dt) s)

def tags (net : Net K) (dt : K) (inj : List (ℕ × K)) (F : ℕ → ℕ → Bool) (N : ℕ) : List (ℕ × Event K) :=
  tagsInj net inj ++ (List.range (N + 1)).flatMap (tagsFired net dt F)

theorem tags_succ (net : Net K) (dt : K) (inj) (F : ℕ → ℕ → Bool) (N : ℕ) :
    tags net dt inj F (N + 1) = tags net dt inj F N ++ tagsFired net dt F (N + 1) := by
  unfold tags
  rw [List.range_succ (n := N + 1), List.flatMap_append, ← List.append_assoc]; simp

theorem dueR_eq (net : Net K) (dt : K) (inj) (F : ℕ → ℕ → Bool) (N : ℕ) :
    dueR net dt inj F (N + 1) = ((tags net dt inj F N).filter (fun x => FirstAt dt x.1 x.2.time (N + 1))).map (·.2) := by
  unfold dueR tags tagsInj tagsFired
  rw [List.filter_append, List.map_append]
  congr 1
  · rw [List.filter_flatMap, List.map_flatMap]
    congr 1; funext q
    rw [List.filter_map, List.map_map]; rfl
  · rw [List.filter_flatMap, List.map_flatMap]
    congr 1; funext j
    rw [List.filter_flatMap, List.map_flatMap]
    congr 1; funext n
    rw [List.filter_map, List.map_map]; rfl

/-- Still waiting after step `N`. -/
def waiting (dt : K) (N : ℕ) (x : ℕ × Event K) : Bool := decide (N < x.1 ∨ (N : K) * dt < x.2.time)

theorem tags_lo {net : Net K} {dt : K} {inj} {F : ℕ → ℕ → Bool} {N : ℕ} {x : ℕ × Event K}
    (hx : x ∈ tags net dt inj F N) : 1 ≤ x.1 ∧ x.1 ≤ N + 1 := by
  unfold tags tagsInj tagsFired at hx
  rw [List.mem_append] at hx
  rcases hx with hx | hx
  · simp only [List.mem_flatMap, List.mem_map] at hx
    obtain ⟨q, _, s, _, rfl⟩ := hx
    exact ⟨le_rfl, by simp⟩
  · simp only [List.mem_flatMap, List.mem_map, List.mem_range] at hx
    obtain ⟨j, hj, n, _, s, _, rfl⟩ := hx
    exact ⟨by simp, by simp; omega⟩

theorem tags_wf {net : Net K} (wf : WellFormed net) {dt : K} {inj} {F : ℕ → ℕ → Bool} {N : ℕ}
    {x : ℕ × Event K} (hx : x ∈ tags net dt inj F N) :
    x.2.kind.Known ∧ x.2.neuron ∈ net.neurons := by
  have ho : ∀ n, ∀ s ∈ net.out n, s ∈ net.syns := fun n s hs => List.mem_of_mem_filter hs
  unfold tags tagsInj tagsFired at hx
  rw [List.mem_append] at hx
  rcases hx with hx | hx
  · simp only [List.mem_flatMap, List.mem_map] at hx
    obtain ⟨q, _, s, hs, rfl⟩ := hx
    exact ⟨wf.kind s (ho _ s hs), wf.target s (ho _ s hs)⟩
  · simp only [List.mem_flatMap, List.mem_map, List.mem_range] at hx
    obtain ⟨j, hj, n, _, s, hs, rfl⟩ := hx
    exact ⟨wf.kind s (ho _ s hs), wf.target s (ho _ s hs)⟩

theorem dueR_known {net : Net K} (wf : WellFormed net) {dt : K} {inj} {F : ℕ → ℕ → Bool} {N : ℕ}
    {e : Event K} (he : e ∈ dueR net dt inj F (N + 1)) : e.kind.Known ∧ e.neuron ∈ net.neurons := by
  rw [dueR_eq] at he
  obtain ⟨x, hx, rfl⟩ := List.mem_map.mp he
  exact tags_wf wf (List.mem_of_mem_filter hx)

section Ticks
variable [RoundedArith K]

/-- Of the events waiting after step `N`, those whose time has come in step `N + 1` are those that arrive first in that step. -/
theorem waiting_first {dt : K} (hdt : 0 < dt) {N : ℕ} {x : ℕ × Event K} (hlo : x.1 ≤ N + 1) :
    (waiting dt N x = true ∧ x.2.time ≤ ((N + 1 : ℕ) : K) * dt) ↔ FirstAt dt x.1 x.2.time (N + 1) := by
  unfold waiting FirstAt
  rw [decide_eq_true_eq]
  constructor
  · rintro ⟨h1, h2⟩
    refine ⟨hlo, h2, ?_⟩
    intro k hk hlk hx
    rcases h1 with h1 | h1
    · omega
    · have := RoundedArith.ticks dt hdt k N (by omega)
      exact absurd (lt_of_lt_of_le h1 (hx.trans this)) (lt_irrefl _)
  · rintro ⟨-, h2, h3⟩
    refine ⟨?_, h2⟩
    by_cases h : N < x.1
    · exact Or.inl h
    · exact Or.inr (not_le.mp (h3 N (by omega) (by omega)))

theorem waiting_next {dt : K} (hdt : 0 < dt) {N : ℕ} {x : ℕ × Event K} (hlo : x.1 ≤ N + 1) :
    (waiting dt N x = true ∧ ¬ x.2.time ≤ ((N + 1 : ℕ) : K) * dt) ↔ waiting dt (N + 1) x = true := by
  unfold waiting
  rw [decide_eq_true_eq, decide_eq_true_eq, not_le]
  constructor
  · rintro ⟨_, h⟩; exact Or.inr h
  · rintro (h | h)
    · omega
    · exact ⟨Or.inr (lt_of_le_of_lt (RoundedArith.ticks dt hdt N (N + 1) (by omega)) h), h⟩

/-! ## The run the simulator goes through -/

/-- The loop's state after `N` steps. -/
def sigma (H : EventHeap K) (ord : ℕ → List ℕ → List ℕ) (net : Net K) (dt : K) (st0 : Sim K) (N : ℕ) : Sim K × List ℕ :=
  match simLoop H ord net dt N (st0, []) with
  | .ok r => r
  | .error _ => (st0, [])

/-- The events taken from the queue in step `i`. -/
def batchOf (H : EventHeap K) (ord : ℕ → List ℕ → List ℕ) (net : Net K) (dt : K) (st0 : Sim K) : ℕ → List (Event K)
  | 0 => []
  | i + 1 => (popEvents H (((i + 1 : ℕ) : K) * dt) (sigma H ord net dt st0 i).1.queue).1

def stateOf (H : EventHeap K) (ord : ℕ → List ℕ → List ℕ) (net : Net K) (dt : K) (st0 : Sim K) (i n : ℕ) : NState K :=
  (sigma H ord net dt st0 i).1.nst n

def firedOf (H : EventHeap K) (ord : ℕ → List ℕ → List ℕ) (net : Net K) (dt : K) (st0 : Sim K) : ℕ → ℕ → Bool
  | 0, _ => false
  | i + 1, n => decide (n ∈ net.neurons) && (euler (net.par n) dt
      (((batchOf H ord net dt st0 (i + 1)).filter (fun e => e.neuron = n)).foldl addEv (stateOf H ord net dt st0 i n))).2

/-- The entries `simulate` adds to the voltage log of `n` in the first `N` steps. -/
def voltR (S : ℕ → ℕ → NState K) (B : ℕ → List (Event K)) (N n : ℕ) : List (K × ℕ) :=
  ((List.range N).filter (fun i => busy S B i n)).map (fun i => ((S (i + 1) n).V, i))

theorem emittedR_succ (dt : K) (F : ℕ → ℕ → Bool) (N n : ℕ) :
    emitted dt F (N + 1) n = emitted dt F N n ++ (if F (N + 1) n then [((N + 1 : ℕ) : K) * dt] else []) := by
  unfold emitted
  rw [List.range'_concat, List.filter_append, List.map_append]
  by_cases h : F (N + 1) n <;> simp [h, add_comm 1 N]

theorem voltR_succ (S : ℕ → ℕ → NState K) (B : ℕ → List (Event K)) (N n : ℕ) :
    voltR S B (N + 1) n = voltR S B N n ++ (if busy S B N n then [((S (N + 1) n).V, N)] else []) := by
  unfold voltR
  rw [List.range_succ, List.filter_append, List.map_append]
  by_cases h : busy S B N n <;> simp [h]

/-- What holds of the loop's state after `N` steps, and of the steps so far. -/
structure RI (H : EventHeap K) (net : Net K) (dt : K) (inj : List (ℕ × K)) (s0 : ℕ → NState K) (st0 : Sim K)
    (S : ℕ → ℕ → NState K) (F : ℕ → ℕ → Bool) (B : ℕ → List (Event K)) (N : ℕ) (st : Sim K) (act : List ℕ) : Prop where
  inv : H.Inv st.queue
  queue : st.queue.Perm (((tags net dt inj F N).filter (waiting dt N)).map (·.2))
  nst : ∀ n, st.nst n = S N n
  log : ∀ n, st.spikeLog n = (st0.spikeLog n).map (· ++ emitted dt F N n)
  volt : ∀ n ∈ net.neurons, st.voltLog n = (st0.voltLog n).map (· ++ voltR S B N n)
  volt' : ∀ n, n ∉ net.neurons → st.voltLog n = st0.voltLog n
  cnt : ∀ k, st.cnt k = st0.cnt k + (((List.range' 1 N).flatMap B).filter (fun e => e.kind = k)).length
  act : ∀ n, n ∈ act ↔ n ∈ net.neurons ∧ (S N n).active = true
  below : ∀ n ∈ net.neurons, (S N n).V < (net.par n).Vt
  outside : ∀ n, n ∉ net.neurons → S N n = s0 n

theorem RI.popped {H : EventHeap K} {net : Net K} {dt : K} (hdt : 0 < dt) {inj s0} {S F B} {st0 : Sim K} {N st act}
    (h : RI H net dt inj s0 st0 S F B N st act) :
    (popEvents H (((N + 1 : ℕ) : K) * dt) st.queue).1.Perm (dueR net dt inj F (N + 1)) ∧
    (popEvents H (((N + 1 : ℕ) : K) * dt) st.queue).2.Perm
      (((tags net dt inj F N).filter (waiting dt (N + 1))).map (·.2)) := by
  constructor
  · refine (popEvents_fst H _ _ h.inv).trans ((h.queue.filter _).trans (List.Perm.of_eq ?_))
    rw [dueR_eq, List.filter_map, List.filter_filter]
    congr 1
    apply List.filter_congr
    intro x hx
    rw [Bool.eq_iff_iff]
    simp only [Function.comp, Bool.and_eq_true, decide_eq_true_eq]
    rw [← waiting_first hdt (tags_lo hx).2]; tauto
  · refine (popEvents_snd H _ _ h.inv).trans ((h.queue.filter _).trans (List.Perm.of_eq ?_))
    rw [List.filter_map, List.filter_filter]
    congr 1
    apply List.filter_congr
    intro x hx
    rw [Bool.eq_iff_iff]
    simp only [Function.comp, Bool.and_eq_true, decide_eq_true_eq]
    rw [← waiting_next hdt (tags_lo hx).2]
    tauto

theorem RI.succ {H : EventHeap K} {ord : ℕ → List ℕ → List ℕ} (hord : SetOrder ord)
    {net : Net K} (wf : WellFormed net) {dt : K} (hdt : 0 < dt) {inj s0} {S F B} {st0 : Sim K}
    (hlog : ∀ n ∈ net.neurons, (st0.spikeLog n).isSome) (hvolt : ∀ n ∈ net.neurons, (st0.voltLog n).isSome)
    {N st act} (h : RI H net dt inj s0 st0 S F B N st act)
    (hB : B (N + 1) = (popEvents H (((N + 1 : ℕ) : K) * dt) st.queue).1)
    (hF : ∀ n, F (N + 1) n = (decide (n ∈ net.neurons) && (euler (net.par n) dt
      (((B (N + 1)).filter (fun e => e.neuron = n)).foldl addEv (S N n))).2)) :
    ∃ st' act', simStep H ord net dt N (st, act) = .ok (st', act') ∧
      ((∀ n, st'.nst n = S (N + 1) n) → RI H net dt inj s0 st0 S F B (N + 1) st' act') ∧
      (∀ n ∈ net.neurons, st'.nst n = (euler (net.par n) dt (((B (N + 1)).filter (fun e => e.neuron = n)).foldl addEv (S N n))).1) := by
  obtain ⟨hp1, hp2⟩ := h.popped hdt
  have hFm : ∀ m, F (N + 1) m → m ∈ net.neurons := fun m hh => by
    rw [hF m, Bool.and_eq_true, decide_eq_true_eq] at hh; exact hh.1
  set t := ((N + 1 : ℕ) : K) * dt with ht
  set q2 := (popEvents H t st.queue).2 with hq2
  rw [← hB] at hp1
  have hknown : ∀ e ∈ B (N + 1), e.kind.Known := fun e he => (dueR_known wf (hp1.subset he)).1
  have hdel := deliver_foldR (B (N + 1)) { st with queue := q2 } [] hknown
  set st1 : Sim K := { st with
    queue := q2
    nst := fun n => ((B (N + 1)).filter (fun e => e.neuron = n)).foldl addEv (st.nst n)
    cnt := fun k => st.cnt k + ((B (N + 1)).filter (fun e => e.kind = k)).length } with hst1
  set L := ord N (([] ++ (B (N + 1)).map (fun e : Event K => e.neuron)) ++ act).dedup with hL
  have hLp : L.Perm (([] ++ (B (N + 1)).map (fun e : Event K => e.neuron)) ++ act).dedup := hord _ _
  have hLmem : ∀ n, n ∈ L ↔ (∃ e ∈ B (N + 1), e.neuron = n) ∨ (n ∈ net.neurons ∧ (S N n).active = true) := by
    intro n
    rw [hLp.mem_iff, List.mem_dedup, List.nil_append, List.mem_append, h.act, List.mem_map]
  have hLnet : ∀ n ∈ L, n ∈ net.neurons := by
    intro n hn
    rcases (hLmem n).mp hn with hh | hh
    · obtain ⟨e, he, rfl⟩ := hh
      exact (dueR_known wf (hp1.subset he)).2
    · exact hh.1
  have hLbusy : ∀ n ∈ net.neurons, (n ∈ L ↔ busy S B N n) := by
    intro n hn
    rw [hLmem]; simp [busy, NState.active, hn]
  obtain ⟨st', act', hfold, nf⟩ := neuronFold H net dt t N L st1 [] (hLp.nodup_iff.mpr (List.nodup_dedup _))
    (fun n hn => wf.tm n (hLnet n hn)) (fun n hn => wf.tf n (hLnet n hn)) (by
      intro n hn
      show (st.voltLog n).isSome
      rw [h.volt n (hLnet n hn), Option.isSome_map]
      exact hvolt n (hLnet n hn))
    (popEvents_spec H t st.queue h.inv).1
  have hstep : simStep H ord net dt N (st, act) = .ok (st', act') := by
    unfold simStep
    dsimp only
    rw [← hB, ← hq2, hdel]
    exact hfold
  have hpre : ∀ n, st1.nst n = ((B (N + 1)).filter (fun e => e.neuron = n)).foldl addEv (S N n) := by
    intro n
    show ((B (N + 1)).filter (fun e => e.neuron = n)).foldl addEv (st.nst n) = _
    rw [h.nst]
  have hnoev : ∀ n, n ∉ L → (B (N + 1)).filter (fun e => e.neuron = n) = [] := by
    intro n hn
    rw [List.filter_eq_nil_iff]
    intro e he hh
    exact hn ((hLmem n).mpr (Or.inl ⟨e, he, by simpa using hh⟩))
  have hun : ∀ n ∈ net.neurons, n ∉ L →
      euler (net.par n) dt (((B (N + 1)).filter (fun e => e.neuron = n)).foldl addEv (S N n)) = (S N n, false) := by
    intro n hn hnL
    rw [hnoev n hnL]
    apply euler_quiet
    · by_contra hh
      exact hnL ((hLmem n).mpr (Or.inr ⟨hn, by simpa using hh⟩))
    · exact h.below n hn
  have hnew : ∀ n ∈ net.neurons, st'.nst n =
      (euler (net.par n) dt (((B (N + 1)).filter (fun e => e.neuron = n)).foldl addEv (S N n))).1 := by
    intro n hn
    rw [nf.nst]
    by_cases hnL : n ∈ L
    · simp only [hnL, if_true, hpre]
      rw [euler_eq_post]
    · simp only [hnL, if_false, hpre]
      rw [hun n hn hnL, hnoev n hnL]; rfl
  have hfired : ∀ n, (n ∈ L ∧ (updateAndSpike (net.par n) dt (st1.nst n)).2 = true) ↔ F (N + 1) n = true := by
    intro n
    rw [hF, hpre, euler_eq_post, Bool.and_eq_true, decide_eq_true_eq]
    constructor
    · rintro ⟨hn, hh⟩; exact ⟨hLnet n hn, hh⟩
    · rintro ⟨hn, hh⟩
      refine ⟨?_, hh⟩
      by_contra hnL
      have := congrArg Prod.snd (hun n hn hnL)
      rw [euler_eq_post] at this
      simp only at this hh
      rw [this] at hh; cases hh
  refine ⟨st', act', hstep, fun hS => ⟨nf.inv, ?_, hS, ?_, ?_, ?_, ?_, ?_, ?_, ?_⟩, hnew⟩
  · refine nf.queue.trans ?_
    rw [tags_succ, List.filter_append, List.map_append]
    apply List.Perm.append
    · exact hp2
    · have hall : (tagsFired net dt F (N + 1)).filter (waiting dt (N + 1)) = tagsFired net dt F (N + 1) := by
        rw [List.filter_eq_self]
        intro x hx
        unfold tagsFired at hx
        simp only [List.mem_flatMap, List.mem_map] at hx
        obtain ⟨n, _, s, _, rfl⟩ := hx
        simp [waiting]
      rw [hall]
      unfold tagsFired
      rw [List.map_flatMap]
      simp only [List.map_map]
      have hfp : (L.filter (fun n => (updateAndSpike (net.par n) dt (st1.nst n)).2)).Perm
          (net.neurons.dedup.filter (fun n => F (N + 1) n)) := by
        apply (List.perm_ext_iff_of_nodup ((hLp.nodup_iff.mpr (List.nodup_dedup _)).filter _)
          ((List.nodup_dedup _).filter _)).mpr
        intro n
        rw [List.mem_filter, List.mem_filter, List.mem_dedup, hfired]
        constructor
        · intro hh; exact ⟨hFm _ hh, hh⟩
        · exact fun hh => hh.2
      exact (hfp.flatMap_right _).trans (List.Perm.of_eq rfl)
  · intro n
    rw [nf.log]
    have hst : st1.spikeLog n = (st0.spikeLog n).map (· ++ emitted dt F N n) := h.log n
    rw [emittedR_succ, hst]
    by_cases hf : F (N + 1) n = true
    · rw [if_pos ((hfired n).mpr hf)]
      obtain ⟨l, hl⟩ := Option.isSome_iff_exists.mp (hlog n (hFm _ hf))
      simp [hl, appendLog, hf, ht]
    · rw [if_neg (fun hh => hf ((hfired n).mp hh))]
      simp [hf]
  · intro n hn
    rw [nf.volt, voltR_succ]
    have hst : st1.voltLog n = (st0.voltLog n).map (· ++ voltR S B N n) := h.volt n hn
    rw [hst]
    by_cases hnL : n ∈ L
    · rw [if_pos hnL]
      have hp : post (net.par n) dt (st1.nst n) = S (N + 1) n := by
        rw [← hS, hnew n hn, hpre, euler_eq_post]
      simp only [(hLbusy n hn).mp hnL, if_true, hp]
      cases st0.voltLog n <;> simp
    · rw [if_neg hnL]
      have : ¬ busy S B N n := fun hh => hnL ((hLbusy n hn).mpr hh)
      simp [this]
  · intro n hn
    rw [nf.volt, if_neg (fun hh => hn (hLnet n hh))]
    exact h.volt' n hn
  · intro k
    rw [nf.cnt]
    show st.cnt k + ((B (N + 1)).filter (fun e => e.kind = k)).length = _
    rw [h.cnt, List.range'_concat, List.flatMap_append, List.filter_append, List.length_append, ← add_assoc]
    simp [add_comm 1 N]
  · intro n
    rw [nf.act, List.nil_append, List.mem_filter]
    constructor
    · rintro ⟨hn, ha⟩
      have hn' := hLnet n hn
      refine ⟨hn', ?_⟩
      rw [← hS, hnew n hn', ← hpre, euler_eq_post]; exact ha
    · rintro ⟨hn, ha⟩
      rw [← hS, hnew n hn] at ha
      have hnL : n ∈ L := by
        by_contra hnL
        rw [hun n hn hnL] at ha
        exact hnL ((hLmem n).mpr (Or.inr ⟨hn, ha⟩))
      rw [euler_eq_post, ← hpre] at ha
      exact ⟨hnL, ha⟩
  · intro n hn
    rw [← hS, hnew n hn]
    exact euler_V_lt _ _ _ (wf.reset n hn)
  · intro n hn
    have hnL : n ∉ L := fun hh => hn (hLnet n hh)
    rw [← hS, nf.nst, if_neg hnL, hpre, hnoev n hnL]
    exact h.outside n hn

/-- The simulator's loop, started on injected spikes, goes through a naive run. -/
theorem loop_run (H : EventHeap K) {ord : ℕ → List ℕ → List ℕ} (hord : SetOrder ord) {net : Net K} (wf : WellFormed net) {dt : K}
    (hdt : 0 < dt) (inj : List (ℕ × K)) {s0 : ℕ → NState K} (hrest : Resting net s0) :
    let st0 := (Sim.init net s0).injectAll H net inj
    let S := stateOf H ord net dt st0
    let F := firedOf H ord net dt st0
    let B := batchOf H ord net dt st0
    IsRunR net dt inj s0 S F B ∧
    ∀ N, ∃ st act, simLoop H ord net dt N (st0, []) = .ok (st, act) ∧ RI H net dt inj s0 st0 S F B N st act := by
  intro st0 S F B
  obtain ⟨i1, i2, i3, i4, i5, i6⟩ := injectAll_spec' H net inj (Sim.init net s0) H.inv_nil
  have hlog : ∀ n ∈ net.neurons, (st0.spikeLog n).isSome := by
    intro n hn; rw [i6]; simp [Sim.init, hn]
  have hvolt : ∀ n ∈ net.neurons, (st0.voltLog n).isSome := by
    intro n hn; rw [i4]; simp [Sim.init, hn]
  have hS0 : ∀ n, S 0 n = s0 n := by
    intro n
    show (sigma H ord net dt st0 0).1.nst n = s0 n
    show st0.nst n = s0 n
    rw [i3]; rfl
  have main : ∀ N, ∃ st act, simLoop H ord net dt N (st0, []) = .ok (st, act) ∧ RI H net dt inj s0 st0 S F B N st act ∧
      (∀ i < N, ∀ n ∈ net.neurons, S (i + 1) n =
        (euler (net.par n) dt (((B (i + 1)).filter (fun e => e.neuron = n)).foldl addEv (S i n))).1) := by
    intro N
    induction N with
    | zero =>
      refine ⟨st0, [], rfl, ⟨i1, ?_, ?_, ?_, ?_, ?_, ?_, ?_, ?_, ?_⟩, by omega⟩
      · have htag : tags net dt inj F 0 = tagsInj net inj := by
          have : (net.neurons.dedup.filter (fun n => F 0 n)) = [] := by
            rw [List.filter_eq_nil_iff]; intro n _; simp [F, firedOf]
          simp [tags, tagsFired, this]
        have hfil : (tagsInj net inj).filter (waiting dt 0) = tagsInj net inj := by
          rw [List.filter_eq_self]
          intro x hx
          have := (tags_lo (F := F) (dt := dt) (N := 0) (htag ▸ hx)).1
          simp only [waiting, decide_eq_true_eq]; left; omega
        rw [htag, hfil]
        refine i2.trans (List.Perm.of_eq ?_)
        simp [Sim.init, tagsInj, List.map_flatMap, Function.comp_def]
      · intro n; rw [hS0]; show st0.nst n = _; rw [i3]; rfl
      · intro n; simp [emitted]
      · intro n _; simp [voltR]
      · intro n _; rfl
      · intro k; simp
      · intro n
        constructor
        · intro h; simp at h
        · rintro ⟨hn, ha⟩
          have := hrest n hn
          rw [hS0] at ha
          simp [NState.active, this] at ha
      · intro n hn; rw [hS0]; exact (hrest n hn).1
      · intro n _; exact hS0 n
    | succ N ih =>
      obtain ⟨st, act, h1, h2, h3⟩ := ih
      have hsig : sigma H ord net dt st0 N = (st, act) := by unfold sigma; rw [h1]
      have hB : B (N + 1) = (popEvents H (((N + 1 : ℕ) : K) * dt) st.queue).1 := by
        show (popEvents H (((N + 1 : ℕ) : K) * dt) (sigma H ord net dt st0 N).1.queue).1 = _
        rw [hsig]
      obtain ⟨st', act', h4, h5, h6⟩ := h2.succ hord wf hdt hlog hvolt hB (fun n => rfl)
      have h7 : simLoop H ord net dt (N + 1) (st0, []) = .ok (st', act') := by rw [simLoop, h1]; exact h4
      have hsig' : sigma H ord net dt st0 (N + 1) = (st', act') := by unfold sigma; rw [h7]
      have hS : ∀ n, st'.nst n = S (N + 1) n := by
        intro n
        show _ = (sigma H ord net dt st0 (N + 1)).1.nst n
        rw [hsig']
      refine ⟨st', act', h7, h5 hS, ?_⟩
      intro i hi n hn
      by_cases hiN : i = N
      · subst hiN; rw [← hS, h6 n hn]
      · exact h3 i (by omega) n hn
  refine ⟨⟨fun n => ⟨hS0 n, rfl⟩, ?_, ?_, ?_, ?_⟩, fun N => ?_⟩
  · intro i
    obtain ⟨st, act, h1, h2, _⟩ := main i
    have hsig : sigma H ord net dt st0 i = (st, act) := by unfold sigma; rw [h1]
    show (popEvents H (((i + 1 : ℕ) : K) * dt) (sigma H ord net dt st0 i).1.queue).1.Perm _
    rw [hsig]
    exact (h2.popped hdt).1
  · intro i
    obtain ⟨st, act, h1, h2, _⟩ := main i
    have hsig : sigma H ord net dt st0 i = (st, act) := by unfold sigma; rw [h1]
    show (popEvents H (((i + 1 : ℕ) : K) * dt) (sigma H ord net dt st0 i).1.queue).1.Pairwise _
    rw [hsig]
    exact (popEvents_spec H _ _ h2.inv).2.2.1
  · intro i n hn
    obtain ⟨st, act, h1, h2, h3⟩ := main (i + 1)
    refine Prod.ext (h3 i (by omega) n hn) ?_
    show (decide (n ∈ net.neurons) && _) = _
    rw [decide_eq_true hn, Bool.true_and]
  · intro i n hn
    obtain ⟨st, act, h1, h2, h3⟩ := main i
    refine ⟨h2.outside n hn, ?_⟩
    match i with
    | 0 => rfl
    | i + 1 =>
      show (decide (n ∈ net.neurons) && _) = _
      rw [decide_eq_false hn, Bool.false_and]
  · obtain ⟨st, act, h1, h2, _⟩ := main N
    exact ⟨st, act, h1, h2⟩

end Ticks
end Axon
