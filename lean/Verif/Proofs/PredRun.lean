import Verif.Proofs.Predictive
import Verif.Spec.Predictive
import Mathlib.Order.WellFoundedSet
import Mathlib.Logic.Relation
import Mathlib.Algebra.Order.BigOperators.Group.List

set_option linter.unusedSectionVars false
set_option linter.unnecessarySimpa false
namespace Axon
open Spec
variable {K : Type*} [Field K] [LinearOrder K] [FloorRing K]

/-! ## Starting states -/

theorem PSim.call_rep {E : PEnv K} {st st' : PSim K} {p c} (hp : CRep E.H st.queue p)
    (h : st.call E c = .ok st') : ∃ new, CRep E.H st'.queue (p ++ new) ∧
      (∀ e ∈ new, st.nextId ≤ e.id ∧ e.id < st'.nextId ∧ (∃ n, e.payload = .hit n .V (E.net.par n).Vt)) ∧
      (new.map (·.id)).Nodup ∧ st.nextId ≤ st'.nextId ∧
      st' = { st with queue := st'.queue, nextId := st'.nextId } ∧
      (∀ e ∈ new, ∀ n w k, e.payload = .hit n k w → match c with
        | .spike m _ => n = m | .value _ m _ => n = m) := by
  cases c with
  | spike n t =>
    simp only [PSim.call, Except.ok.injEq] at h
    subst h
    refine ⟨_, hp.add _, ?_, ?_, ?_, ?_, ?_⟩ <;> simp [PSim.applyInputSpike, PSim.push]
  | value v n t0 =>
    simp only [PSim.call, PSim.applyInputValue] at h
    split at h
    · cases h
    · split at h
      · cases h
      next pr _ =>
        simp only [Except.ok.injEq] at h
        subst h
        have h2 := (hp.add ⟨st.nextId, pr.1, .hit n .V (E.net.par n).Vt⟩).add
          ⟨st.nextId + 1, pr.2, .hit n .V (E.net.par n).Vt⟩
        rw [List.append_assoc] at h2
        refine ⟨_, h2, ?_, ?_, ?_, ?_, ?_⟩ <;> simp [PSim.applyInputSpike, PSim.push]
        all_goals omega

theorem Spec.Started.spec {E : PEnv K} {st : PSim K} (h : Started E st) :
    ∃ p, CRep E.H st.queue p ∧ (∀ e ∈ p, e.isPred = false) ∧ (∀ e ∈ p, e.id < st.nextId) ∧
      p.Nodup ∧ (∀ n, st.poss n = if n ∈ E.net.neurons then some none else none) ∧
      (∀ n, st.spikeLog n = if n ∈ E.net.neurons then some [] else none) ∧
      (∀ k, st.cnt k = initCnt k) ∧ st.finished = false ∧ E.dt ≠ 0 := by
  obtain ⟨nst, last, i, st0, cs, h0, hc⟩ := h
  unfold PSim.init at h0
  split at h0
  · cases h0
  next hdt =>
    simp only [Except.ok.injEq] at h0
    unfold PSim.calls at hc
    have key : ∀ (cs : List (Call K)) (st0 : PSim K) p, CRep E.H st0.queue p →
        (∀ e ∈ p, e.isPred = false) → (∀ e ∈ p, e.id < st0.nextId) → p.Nodup →
        cs.foldlM (fun st c => st.call E c) st0 = .ok st →
        ∃ p, CRep E.H st.queue p ∧ (∀ e ∈ p, e.isPred = false) ∧ (∀ e ∈ p, e.id < st.nextId) ∧
          p.Nodup ∧ st = { st0 with queue := st.queue, nextId := st.nextId } := by
      intro cs
      induction cs with
      | nil =>
        intro st0 p h1 h2 h3 h4 h5
        simp only [List.foldlM_nil, pure, Except.pure, Except.ok.injEq] at h5
        subst h5; exact ⟨p, h1, h2, h3, h4, rfl⟩
      | cons c cs ih =>
        intro st0 p h1 h2 h3 h4 h5
        simp only [List.foldlM_cons, bind, Except.bind] at h5
        cases hcall : st0.call E c with
        | error e => rw [hcall] at h5; cases h5
        | ok st1 =>
          rw [hcall] at h5
          obtain ⟨new, g1, g2, g3, g4, g5, -⟩ := PSim.call_rep h1 hcall
          obtain ⟨p', r1, r2, r3, r4, r5⟩ := ih st1 (p ++ new) g1 (by
            intro e he
            rcases List.mem_append.mp he with he | he
            · exact h2 e he
            · obtain ⟨-, -, n, hn⟩ := g2 e he
              simp [UEvent.isPred, hn]) (by
            intro e he
            rcases List.mem_append.mp he with he | he
            · have := h3 e he; omega
            · exact (g2 e he).2.1) (by
            refine List.nodup_append.mpr ⟨h4, List.Nodup.of_map _ g3, ?_⟩
            intro a ha b hb hab
            subst hab
            have := h3 a ha; have := (g2 a hb).1; omega) h5
          exact ⟨p', r1, r2, r3, r4, by rw [r5, g5]⟩
    obtain ⟨p, r1, r2, r3, r4, r5⟩ := key cs st0 [] (by rw [← h0]; exact CRep.empty _) (by simp)
      (by simp) (by simp) hc
    refine ⟨p, r1, r2, r3, r4, ?_, ?_, ?_, ?_, hdt⟩ <;> rw [r5, ← h0] <;> intros <;> rfl

theorem CRep.ne_nil_of_len {H : TimeHeap K} {q : CQueue K} {p m} (h : CRep H q p)
    (hl : q.len = .ok (m + 1)) : p ≠ [] := by
  rintro rfl
  rw [h.len] at hl; simp at hl

theorem CRep.len_zero {H : TimeHeap K} {q : CQueue K} {p} (h : CRep H q p) :
    q.len = .ok 0 ↔ p = [] := by
  rw [h.len]
  constructor
  · intro hh
    simp only [Except.ok.injEq, List.length_eq_zero_iff] at hh
    by_contra hne
    obtain ⟨e, he⟩ := List.exists_mem_of_ne_nil _ hne
    have : e.time ∈ (p.map (fun e => e.time)).dedup := by
      rw [List.mem_dedup]; exact List.mem_map_of_mem he
    rw [hh] at this; simp at this
  · rintro rfl; simp

theorem batch_time {p : List (UEvent K)} (hne : p ≠ []) :
    ∃ T, (∀ e ∈ Spec.batch p, e.time = T) ∧ (∀ e ∈ p, T ≤ e.time) ∧ Spec.batch p ≠ [] := by
  obtain ⟨e, he, hmin⟩ : ∃ e ∈ p, ∀ x ∈ p, e.time ≤ x.time := by
    have hfin := p.toFinset.exists_min_image (fun e => e.time) (by simpa using hne)
    obtain ⟨e, he, hm⟩ := hfin
    exact ⟨e, by simpa using he, fun x hx => hm x (by simpa using hx)⟩
  have heb : e ∈ Spec.batch p := by simp [Spec.batch, he]; exact hmin
  refine ⟨e.time, ?_, hmin, List.ne_nil_of_mem heb⟩
  intro x hx
  simp only [Spec.batch, List.mem_filter, decide_eq_true_eq] at hx
  exact le_antisymm (hx.2 e he) (hmin x hx.1)

/-- Lift a handler-preserved property to all reachable states of the loop. -/
theorem Spec.Steps.induct {E : PEnv K} {I : K → PSim K → List (UEvent K) → List (UEvent K) → Prop}
    {J : PSim K → List (UEvent K) → List (UEvent K) → Prop}
    (hJI : ∀ T st D p, J st D p → (∀ e ∈ p, T ≤ e.time) → I T st D p)
    (hI : ∀ T, PInduct E T (I T))
    (hIJ : ∀ T st D p, (∃ st0 p0 D0 b, J st0 D0 p0 ∧ D = b ++ D0 ∧ b ≠ [] ∧ ∀ e ∈ b, e.time = T) →
      I T st D p → J st D p)
    {st0 st bs} (h : Steps E st0 bs st) {p0} (hp0 : CRep E.H st0.queue p0) (hJ0 : J st0 [] p0) :
    ∃ p, CRep E.H st.queue p ∧ ∃ D, D.Perm bs.flatten ∧ J st D p := by
  induction h with
  | start => exact ⟨p0, hp0, [], by simp, hJ0⟩
  | @step bs st1 m b st2 _ hlen hit ih =>
    obtain ⟨p, hp, D, hD, hJ⟩ := ih
    obtain ⟨T, hT, hmin, hbne⟩ := batch_time (hp.ne_nil_of_len hlen)
    obtain ⟨p', hp', hI'⟩ := (hI T).iter hp hT (hJI T _ _ _ hJ hmin) hit
    have hb := iter_batch hp hit
    refine ⟨p', hp', b ++ D, ?_, hIJ T _ _ _ ⟨st1, p, D, b, hJ, rfl, hb ▸ hbne, hb ▸ hT⟩ hI'⟩
    rw [List.flatten_append]
    refine (List.Perm.append_left b hD).trans ?_
    simpa using List.perm_append_comm

/-- A version for properties that do not mention time. -/
theorem Spec.Steps.induct' {E : PEnv K} {I : PSim K → List (UEvent K) → List (UEvent K) → Prop}
    (hI : ∀ T, PInduct E T I)
    {st0 st bs} (h : Steps E st0 bs st) {p0} (hp0 : CRep E.H st0.queue p0) (hJ0 : I st0 [] p0) :
    ∃ p, CRep E.H st.queue p ∧ ∃ D, D.Perm bs.flatten ∧ I st D p :=
  h.induct (I := fun _ => I) (J := I) (fun _ _ _ _ h _ => h) hI (fun _ _ _ _ _ h => h) hp0 hJ0

theorem hitsOf_mem {t : K} {ss : List (Synapse K)} : ∀ {i : ℕ} {e : UEvent K}, e ∈ hitsOf t i ss →
    ∃ s ∈ ss, e.time = t + s.delay ∧ e.payload = .hit s.post s.kind s.weight ∧ i ≤ e.id ∧
      e.id < i + ss.length := by
  induction ss with
  | nil => intro i e h; simp [hitsOf] at h
  | cons s ss ih =>
    intro i e h
    rcases List.mem_cons.mp h with h | h
    · subst h; exact ⟨s, by simp, rfl, rfl, le_rfl, by simp⟩
    · obtain ⟨s', h1, h2, h3, h4, h5⟩ := ih h
      exact ⟨s', by simp [h1], h2, h3, by omega, by simp; omega⟩

theorem hitsOf_nodup {t : K} (ss : List (Synapse K)) : ∀ (i : ℕ), (hitsOf t i ss).Nodup := by
  induction ss with
  | nil => intro i; simp [hitsOf]
  | cons s ss ih =>
    intro i
    refine List.nodup_cons.mpr ⟨?_, ih _⟩
    intro hm
    obtain ⟨_, _, _, _, h4, _⟩ := hitsOf_mem hm
    simp at h4

theorem predEv_mem {E : PEnv K} {i t n r} {e : UEvent K} (h : e ∈ (predEv E i t n r).toList) :
    ∃ m : ℤ, r = some m ∧ e = ⟨i, t + (m : K) * E.dt, .predicted n⟩ := by
  cases r with
  | none => simp [predEv] at h
  | some m => simp [predEv] at h; exact ⟨m, rfl, h⟩

/-! ## C33: outstanding predictions -/

/-- Every unprocessed prediction is the one recorded for its neuron. -/
structure PInv (st : PSim K) (U : List (UEvent K)) : Prop where
  ids : ∀ e ∈ U, e.id < st.nextId
  nodup : U.Nodup
  pred : ∀ e ∈ U, ∀ n, e.payload = .predicted n → st.poss n = some (some e)

theorem pinv_induct (E : PEnv K) (T : K) : PInduct E T (fun st _ U => PInv st U) where
  perm := fun st D D' U U' _ hU h =>
    ⟨fun e he => h.ids e (hU.mem_iff.mpr he), hU.nodup_iff.mp h.nodup,
     fun e he => h.pred e (hU.mem_iff.mpr he)⟩
  queue := fun st q D U h => ⟨h.ids, h.nodup, h.pred⟩
  spike := by
    intro st st' i n p D R l hp h hl hst
    generalize hq : st'.queue = q at hst
    subst hst
    have hnd := List.nodup_cons.mp h.nodup
    have hids := h.ids
    refine ⟨?_, ?_, ?_⟩
    · intro e he
      simp only [List.mem_append] at he
      rcases he with (he | he) | he
      · have := h.ids e (by simp [he]); simp; omega
      · obtain ⟨_, _, _, _, _, h5⟩ := hitsOf_mem he; simpa using h5
      · have := h.ids e (by simp [he]); simp; omega
    · have : (hitsOf T st.nextId (E.net.out n) ++ (p ++ R)).Nodup := by
        refine List.nodup_append.mpr ⟨hitsOf_nodup _ _, hnd.2, ?_⟩
        intro a ha b hb hab
        subst hab
        obtain ⟨_, _, _, _, h4, _⟩ := hitsOf_mem ha
        have := h.ids a (List.mem_cons_of_mem _ hb); omega
      refine (List.Perm.nodup_iff ?_).mp this
      rw [← List.append_assoc]
      exact List.Perm.append_right _ List.perm_append_comm
    · intro e he n' hn'
      have he' : e ∈ p ++ R := by
        simp only [List.mem_append] at he ⊢
        rcases he with (he | he) | he
        · exact Or.inl he
        · obtain ⟨_, _, _, h3, _⟩ := hitsOf_mem he; rw [h3] at hn'; cases hn'
        · exact Or.inr he
      have h1 := h.pred e (List.mem_cons_of_mem _ he') n' hn'
      have h2 := h.pred ⟨i, T, .predicted n⟩ (by simp) n rfl
      by_cases hnn : n' = n
      · subst hnn
        rw [h2] at h1
        simp only [Option.some.injEq] at h1
        exact absurd (h1 ▸ he') hnd.1
      · simp [hnn, h1]
  hit := by
    intro st st' i n k w p D R o s l r c hp hR h ho hr hpr hc hst
    generalize hq : st'.queue = q at hst
    subst hst
    have hnd := List.nodup_cons.mp h.nodup
    have hnd2 := List.nodup_append.mp hnd.2
    have hsub : ∀ e, e ∈ o.elim p p.erase → e ∈ p := by
      intro e he; cases o with
      | none => exact he
      | some x => exact List.mem_of_mem_erase he
    have hperm : ((o.elim p p.erase) ++ R).Nodup := by
      refine List.nodup_append.mpr ⟨?_, hnd2.2.1, fun a ha b hb => hnd2.2.2 a (hsub a ha) b hb⟩
      cases o with
      | none => exact hnd2.1
      | some x => exact hnd2.1.erase x
    refine ⟨?_, ?_, ?_⟩
    · intro e he
      simp only [List.mem_append] at he
      rcases he with (he | he) | he
      · have := h.ids e (by simp [hsub e he]); simp; omega
      · have hx := he
        obtain ⟨m, rfl, rfl⟩ := predEv_mem he; simp [predEv]
      · have := h.ids e (by simp [he]); simp; omega
    · have : ((predEv E st.nextId T n r).toList ++ ((o.elim p p.erase) ++ R)).Nodup := by
        refine List.nodup_append.mpr ⟨?_, hperm, ?_⟩
        · cases hh : predEv E st.nextId T n r <;> simp
        · intro a ha b hb hab
          subst hab
          obtain ⟨m, rfl, rfl⟩ := predEv_mem ha
          have h3 : (⟨st.nextId, T + (m : K) * E.dt, .predicted n⟩ : UEvent K) ∈ p ++ R := by
            simp only [List.mem_append] at hb ⊢
            rcases hb with hb | hb
            · exact Or.inl (hsub _ hb)
            · exact Or.inr hb
          have := h.ids _ (List.mem_cons_of_mem _ h3); simp at this
      refine (List.Perm.nodup_iff ?_).mp this
      rw [← List.append_assoc]
      exact List.Perm.append_right _ List.perm_append_comm
    · intro e he n' hn'
      simp only [List.mem_append] at he
      rcases he with (he | he) | he
      · have h1 := h.pred e (by simp [hsub e he]) n' hn'
        by_cases hnn : n' = n
        · subst hnn
          rw [ho] at h1
          simp only [Option.some.injEq] at h1
          subst h1
          simp only [Option.elim_some] at he
          have := List.Nodup.mem_erase_iff hnd2.1 |>.mp he
          exact absurd rfl this.1
        · simp [hnn, h1]
      · obtain ⟨m, rfl, rfl⟩ := predEv_mem he
        simp only [UPayload.predicted.injEq] at hn'
        subst hn'; simp [predEv]
      · have := hR e he
        simp [UEvent.isPred, hn'] at this

/-- Spike and hit counts. -/
theorem counts_induct (E : PEnv K) (T : K) (n0 : ℕ) : PInduct E T
    (fun st D U => (∀ l, st.spikeLog n0 = some l → l.length = spikesOf n0 D) ∧
      spikesOf n0 D + spikesOf n0 U ≤ hitsOn n0 D) where
  perm := by
    intro st D D' U U' hD hU h
    unfold spikesOf hitsOn at *
    rw [← hD.countP_eq, ← hU.countP_eq, ← hD.countP_eq]; exact h
  queue := fun st q D U h => h
  spike := by
    intro st st' i n p D R l hp h hl hst
    generalize hq : st'.queue = q at hst
    subst hst
    have hz : spikesOf n0 (hitsOf T st.nextId (E.net.out n)) = 0 := by
      unfold spikesOf
      rw [List.countP_eq_zero]
      intro e he
      obtain ⟨_, _, _, h3, _⟩ := hitsOf_mem he
      simp [h3]
    obtain ⟨h1, h2⟩ := h
    unfold spikesOf hitsOn at *
    simp only [List.countP_append, List.countP_cons, hz] at h2 ⊢
    constructor
    · intro l' hl'
      by_cases hn : n = n0
      · subst hn
        simp only [Function.update_self, Option.some.injEq] at hl'
        subst hl'
        rw [List.length_append, h1 l hl]; simp
      · rw [Function.update_of_ne (Ne.symm hn)] at hl'
        simp [h1 l' hl', hn]
    · simp only [Bool.false_eq_true, if_false]; omega
  hit := by
    intro st st' i n k w p D R o s l r c hp hR h ho hr hpr hc hst
    generalize hq : st'.queue = q at hst
    subst hst
    obtain ⟨h1, h2⟩ := h
    have he : spikesOf n0 (o.elim p p.erase) ≤ spikesOf n0 p := by
      cases o with
      | none => exact le_rfl
      | some x => exact (List.erase_sublist).countP_le
    have hpe : spikesOf n0 (predEv E st.nextId T n r).toList ≤ if n = n0 then 1 else 0 := by
      cases r with
      | none => simp [predEv, spikesOf]
      | some m => simp [predEv, spikesOf, List.countP_cons]
    unfold spikesOf hitsOn at *
    simp only [List.countP_append, List.countP_cons] at h2 ⊢
    refine ⟨by simpa using h1, ?_⟩
    simp only [Bool.false_eq_true, if_false, decide_eq_true_eq] at h2 ⊢
    omega

/-- Event counts per type. -/
theorem kinds_induct (E : PEnv K) (T : K) (k0 : SynKind) (c0 : ℕ) : PInduct E T
    (fun st D _ => st.cnt k0 = some (c0 + hitsOfKind k0 D) ∧
      ∀ e ∈ D, ∀ n k w, e.payload = .hit n k w → Known k) where
  perm := by
    intro st D D' U U' hD hU h
    unfold hitsOfKind at *
    rw [← hD.countP_eq]; exact ⟨h.1, fun e he => h.2 e (hD.mem_iff.mpr he)⟩
  queue := fun st q D U h => h
  spike := by
    intro st st' i n p D R l hp h hl hst
    generalize hq : st'.queue = q at hst
    subst hst
    obtain ⟨h, hk⟩ := h
    refine ⟨?_, ?_⟩
    · simpa [hitsOfKind, List.countP_cons] using h
    · intro e he; rcases List.mem_cons.mp he with rfl | he
      · intro _ _ _ hh; cases hh
      · exact hk e he
  hit := by
    intro st st' i n k w p D R o s l r c hp hR h ho hr hpr hc hst
    generalize hq : st'.queue = q at hst
    subst hst
    obtain ⟨h, hk⟩ := h
    refine ⟨?_, ?_⟩
    · by_cases hkk : k = k0
      · subst hkk
        rw [h] at hc
        simp only [Option.some.injEq] at hc
        simp [hitsOfKind, ← hc]; rfl
      · simp only [ne_eq, Ne.symm hkk, not_false_eq_true, Function.update_of_ne]
        simpa [hitsOfKind, List.countP_cons, hkk] using h
    · intro e he; rcases List.mem_cons.mp he with rfl | he
      · intro n' k' w' hh
        cases hh
        unfold receivePred at hr
        split at hr
        · cases hr
        · cases k <;> simp [receive, Known] at hr ⊢
      · exact hk e he


/-! ## C32: time order -/

/-- Spike logs are sorted and bounded by `T`. -/
def LogsBy (T : K) (st : PSim K) : Prop :=
  ∀ n l, st.spikeLog n = some l → l.Pairwise (· ≤ ·) ∧ ∀ y ∈ l, y ≤ T

theorem time_induct [IsStrictOrderedRing K] (E : PEnv K) (hdt : 0 < E.dt)
    (hdel : ∀ s ∈ E.net.syns, 0 ≤ s.delay) (T : K) : PInduct E T
    (fun st D U => (∀ x ∈ U, T ≤ x.time) ∧ (∀ x ∈ D, x.time ≤ T) ∧ LogsBy T st) where
  perm := fun st D D' U U' hD hU h =>
    ⟨fun e he => h.1 e (hU.mem_iff.mpr he), fun e he => h.2.1 e (hD.mem_iff.mpr he), h.2.2⟩
  queue := fun st q D U h => h
  spike := by
    intro st st' i n p D R l hp h hl hst
    generalize hq : st'.queue = q at hst
    subst hst
    obtain ⟨h1, h2, h3⟩ := h
    refine ⟨?_, ?_, ?_⟩
    · intro x hx
      simp only [List.mem_append] at hx
      rcases hx with (hx | hx) | hx
      · exact h1 x (by simp [hx])
      · obtain ⟨s, hs, ht, -⟩ := hitsOf_mem hx
        have := hdel s (List.mem_of_mem_filter hs)
        rw [ht]; linarith
      · exact h1 x (by simp [hx])
    · intro x hx
      rcases List.mem_cons.mp hx with rfl | hx
      · exact le_rfl
      · exact h2 x hx
    · intro n' l' hl'
      by_cases hn : n' = n
      · subst hn
        simp only [Function.update_self, Option.some.injEq] at hl'
        subst hl'
        obtain ⟨g1, g2⟩ := h3 _ _ hl
        refine ⟨List.pairwise_append.mpr ⟨g1, by simp, ?_⟩, ?_⟩
        · intro a ha b hb; simp at hb; subst hb; exact g2 a ha
        · intro y hy
          rcases List.mem_append.mp hy with hy | hy
          · exact g2 y hy
          · simp at hy; exact hy.le
      · simp only [ne_eq, hn, not_false_eq_true, Function.update_of_ne] at hl'; exact h3 _ _ hl'
  hit := by
    intro st st' i n k w p D R o s l r c hp hR h ho hr hpr hc hst
    generalize hq : st'.queue = q at hst
    subst hst
    obtain ⟨h1, h2, h3⟩ := h
    refine ⟨?_, ?_, h3⟩
    · intro x hx
      simp only [List.mem_append] at hx
      rcases hx with (hx | hx) | hx
      · refine h1 x ?_
        cases o with
        | none => simp at hx; simp [hx]
        | some e => simp at hx; simp [List.mem_of_mem_erase hx]
      · obtain ⟨m, rfl, rfl⟩ := predEv_mem hx
        have h0 := predictSteps_nonneg hdt hpr
        have : (0 : K) ≤ (m : K) * E.dt := mul_nonneg (by exact_mod_cast h0) hdt.le
        simp only; linarith
      · exact h1 x (by simp [hx])
    · intro x hx
      rcases List.mem_cons.mp hx with rfl | hx
      · exact le_rfl
      · exact h2 x hx

/-! ## C34: termination -/

/-- A weight of neurons that pays for everything a spike can cause. -/
def Pays (net : Net K) (W : ℕ → ℕ) : Prop :=
  ∀ n, W n = 1 + ((net.out n).map (fun s => 1 + W s.post)).sum

theorem acyclic_wf {net : Net K} (h : Acyclic net) :
    WellFounded (fun b a : ℕ => ∃ s ∈ net.syns, s.pre = a ∧ s.post = b) := by
  let r : ℕ → ℕ → Prop := Relation.TransGen (fun b a => ∃ s ∈ net.syns, s.pre = a ∧ s.post = b)
  have hswap : ∀ a b, r a b → Relation.TransGen (fun a b => ∃ s ∈ net.syns, s.pre = a ∧ s.post = b) b a := by
    intro a b hab
    exact Relation.transGen_swap.mpr hab
  have : IsStrictOrder ℕ r :=
    { irrefl := fun a ha => h a (hswap a a ha)
      trans := fun a b c hab hbc => hab.trans hbc }
  let S : Set ℕ := {n | ∃ s ∈ net.syns, s.pre = n ∨ s.post = n}
  have hfin : S.Finite := by
    refine (((net.syns.map (·.pre)) ++ (net.syns.map (·.post))).toFinset.finite_toSet).subset ?_
    rintro n ⟨s, hs, hn⟩
    simp only [List.coe_toFinset, Set.mem_ofPred_eq, List.mem_append, List.mem_map]
    rcases hn with hn | hn
    · exact Or.inl ⟨s, hs, hn⟩
    · exact Or.inr ⟨s, hs, hn⟩
  have hwf := Set.wellFoundedOn_iff.mp (hfin.wellFoundedOn (r := r))
  refine Subrelation.wf ?_ hwf
  rintro b a ⟨s, hs, h1, h2⟩
  exact ⟨Relation.TransGen.single ⟨s, hs, h1, h2⟩, ⟨s, hs, Or.inr h2⟩, ⟨s, hs, Or.inl h1⟩⟩

theorem acyclic_pays {net : Net K} (h : Acyclic net) : ∃ W, Pays net W := by
  have hwf := acyclic_wf h
  refine ⟨hwf.fix (fun n rec => 1 + ((net.out n).attach.map (fun s => 1 + rec s.1.post
    ⟨s.1, (List.mem_filter.mp s.2).1, by simpa using (List.mem_filter.mp s.2).2, rfl⟩)).sum), ?_⟩
  intro n
  rw [hwf.fix_eq]
  congr 2
  conv_rhs => rw [← List.attach_map_val]

/-- The weight of an unprocessed event. -/
def evWeight (W : ℕ → ℕ) (e : UEvent K) : ℕ :=
  match e.payload with | .predicted n => W n | .hit n _ _ => 1 + W n

def totalWeight (W : ℕ → ℕ) (U : List (UEvent K)) : ℕ := (U.map (evWeight W)).sum

theorem totalWeight_hits (W : ℕ → ℕ) (t : K) (ss : List (Synapse K)) : ∀ i,
    totalWeight W (hitsOf t i ss) = (ss.map (fun s => 1 + W s.post)).sum := by
  induction ss with
  | nil => intro i; rfl
  | cons s ss ih => intro i; simp only [totalWeight, hitsOf, List.map_cons, List.sum_cons] at ih ⊢
                    rw [ih]; rfl

theorem weight_induct (E : PEnv K) (T : K) (W : ℕ → ℕ) (hW : Pays E.net W) (C : ℕ) : PInduct E T
    (fun _ D U => totalWeight W U + D.length ≤ C) where
  perm := by
    intro st D D' U U' hD hU h
    unfold totalWeight at *
    rw [← (hU.map _).sum_eq, ← hD.length_eq]; exact h
  queue := fun st q D U h => h
  spike := by
    intro st st' i n p D R l hp h hl hst
    have hz := totalWeight_hits W T (E.net.out n) st.nextId
    have hn := hW n
    unfold totalWeight at *
    simp only [List.map_cons, List.map_append, List.sum_cons, List.sum_append, hz, evWeight,
      List.length_cons] at h ⊢
    omega
  hit := by
    intro st st' i n k w p D R o s l r c hp hR h ho hr hpr hc hst
    have he : totalWeight W (o.elim p p.erase) ≤ totalWeight W p := by
      cases o with
      | none => exact le_rfl
      | some x => exact (List.erase_sublist.map _).sum_le_sum (by simp)
    have hpe : totalWeight W (predEv E st.nextId T n r).toList ≤ W n := by
      cases r with
      | none => simp [predEv, totalWeight]
      | some m => simp [predEv, totalWeight, evWeight]
    unfold totalWeight at *
    simp only [List.map_cons, List.map_append, List.sum_cons, List.sum_append, evWeight,
      List.length_cons] at h ⊢
    omega

/-- The loop ends within as many iterations as the weight of what is pending. -/
theorem loop_terminates (E : PEnv K) (W : ℕ → ℕ) (hW : Pays E.net W) : ∀ (fuel : ℕ) (st : PSim K) p,
    CRep E.H st.queue p → totalWeight W p ≤ fuel → ∃ r, st.loop E fuel = some r := by
  intro fuel
  induction fuel with
  | zero =>
    intro st p hp hw
    have hp0 : p = [] := by
      by_contra hne
      obtain ⟨e, he⟩ := List.exists_mem_of_ne_nil _ hne
      have h1 : evWeight W e ≤ totalWeight W p := List.single_le_sum (by simp) _ (List.mem_map_of_mem he)
      have h2 : 1 ≤ evWeight W e := by
        unfold evWeight; split
        next n _ => have := hW n; omega
        next n _ _ _ => omega
      omega
    refine ⟨.ok st, ?_⟩
    unfold PSim.loop
    rw [hp.len_zero.mpr hp0]
  | succ fuel ih =>
    intro st p hp hw
    unfold PSim.loop
    cases hl : st.queue.len with
    | error e => exact ⟨_, rfl⟩
    | ok m =>
      cases m with
      | zero => exact ⟨_, rfl⟩
      | succ m =>
        simp only
        cases hit : st.iter E with
        | error e => exact ⟨_, rfl⟩
        | ok bs =>
          obtain ⟨b, st'⟩ := bs
          simp only
          obtain ⟨T, hT, -, hbne⟩ := batch_time (hp.ne_nil_of_len hl)
          obtain ⟨p', hp', hI⟩ := (weight_induct E T W hW (totalWeight W p)).iter (D := []) hp hT
            (by simp) hit
          refine ih st' p' hp' ?_
          have : b ≠ [] := by rw [iter_batch hp hit]; exact hbne
          have := List.length_pos_iff.mpr this
          simp at hI; omega

/-- More fuel does not change the outcome. -/
theorem PSim.loop_mono (E : PEnv K) : ∀ (f g : ℕ) (st : PSim K) r, f ≤ g → st.loop E f = some r →
    st.loop E g = some r := by
  intro f
  induction f with
  | zero =>
    intro g st r _ h
    unfold PSim.loop at h ⊢
    cases hl : st.queue.len with
    | error e => rw [hl] at h; exact h
    | ok m => cases m with
      | zero => rw [hl] at h; exact h
      | succ m => rw [hl] at h; simp at h
  | succ f ih =>
    intro g st r hfg h
    obtain ⟨g, rfl⟩ : ∃ g', g = g' + 1 := ⟨g - 1, by omega⟩
    unfold PSim.loop at h ⊢
    cases hl : st.queue.len with
    | error e => rw [hl] at h; exact h
    | ok m => cases m with
      | zero => rw [hl] at h; exact h
      | succ m =>
        rw [hl] at h
        simp only at h ⊢
        cases hit : st.iter E with
        | error e => rw [hit] at h; exact h
        | ok bs => rw [hit] at h; exact ih g _ r (by omega) h

/-! ## Progress: no exception on a runnable network -/

/-- The dictionaries have their keys. -/
structure Keys (E : PEnv K) (st : PSim K) : Prop where
  poss : ∀ n ∈ E.net.neurons, (st.poss n).isSome
  log : ∀ n ∈ E.net.neurons, (st.spikeLog n).isSome
  cnt : ∀ k, Known k → (st.cnt k).isSome

/-- An event that can be processed. -/
def GoodEv (net : Net K) (e : UEvent K) : Prop :=
  match e.payload with
  | .predicted n => n ∈ net.neurons
  | .hit n k _ => n ∈ net.neurons ∧ Known k

theorem isSome_update {β : Type*} (f : ℕ → Option β) (a n : ℕ) (b : β) (h : (f n).isSome) :
    (Function.update f a (some b) n).isSome := by
  by_cases hn : n = a
  · subst hn; simp
  · simpa [hn] using h

theorem handleSpike_ok {E : PEnv K} {st : PSim K} {t n p} (hk : Keys E st)
    (hp : CRep E.H st.queue p) (hn : n ∈ E.net.neurons) :
    ∃ st' p', st.handleSpike E t n = .ok st' ∧ Keys E st' ∧ CRep E.H st'.queue p' := by
  have hex : ∃ st', st.handleSpike E t n = .ok st' := by
    unfold PSim.handleSpike
    obtain ⟨q, h1, h2⟩ := PSim.propagate_spec E t n
      { st with nst := Function.update st.nst n (NState.reset (E.net.par n)) } p hp
    simp only [h2]
    obtain ⟨l, hl⟩ := Option.isSome_iff_exists.mp (hk.log n hn)
    simp only [hl]; exact ⟨_, rfl⟩
  obtain ⟨st', h⟩ := hex
  obtain ⟨l, hl, hrep, heq⟩ := PSim.handleSpike_spec E t n hp h
  refine ⟨st', _, h, ?_, hrep⟩
  rw [heq]
  exact ⟨fun m hm => isSome_update _ _ _ _ (hk.poss m hm), fun m hm => isSome_update _ _ _ _ (hk.log m hm),
    hk.cnt⟩

theorem handleHit_ok {E : PEnv K} (hE : Runnable E.net) {st : PSim K} {t n k w p} (hk : Keys E st)
    (hp : CRep E.H st.queue p) (hn : n ∈ E.net.neurons) (hkn : Known k) :
    ∃ st' p', st.handleHit E t n k w = .ok st' ∧ Keys E st' ∧ CRep E.H st'.queue p' := by
  obtain ⟨htm, htf⟩ := hE.consts n hn
  have hex : ∃ st', st.handleHit E t n k w = .ok st' := by
    unfold PSim.handleHit
    obtain ⟨o, ho⟩ := Option.isSome_iff_exists.mp (hk.poss n hn)
    obtain ⟨c, hc⟩ := Option.isSome_iff_exists.mp (hk.cnt k hkn)
    obtain ⟨st1, h1, h1c⟩ : ∃ st1, st.dequeue n = .ok st1 ∧ st1.cnt = st.cnt := by
      unfold PSim.dequeue; rw [ho]; cases o <;> exact ⟨_, rfl, rfl⟩
    rw [h1]
    obtain ⟨sl, h2⟩ : ∃ sl, receivePred E.exp (E.net.par n) (st1.nst n) (st1.last n) k w t = .ok sl := by
      unfold receivePred
      rw [if_neg (by simp [htm, htf])]
      rcases hkn with rfl | rfl | rfl | rfl <;> exact ⟨_, rfl⟩
    simp only [h2]
    obtain ⟨r, h3⟩ : ∃ r, predictSteps E.exp (E.net.par n) sl.1 E.dt = .ok r := by
      unfold predictSteps; rw [if_neg (by simp [htm, htf])]; exact ⟨_, rfl⟩
    simp only [h3, h1c, hc]
    cases r <;> exact ⟨_, rfl⟩
  obtain ⟨st', h⟩ := hex
  obtain ⟨o, s, l, r, c, ho, hr, hpr, hc, hrep, heq⟩ := PSim.handleHit_spec E t n k w hp h
  refine ⟨st', _, h, ?_, hrep⟩
  rw [heq]
  refine ⟨fun m hm => isSome_update _ _ _ _ (hk.poss m hm), hk.log, ?_⟩
  intro k' hk'
  by_cases hkk : k' = k
  · subst hkk; simp
  · simpa [hkk] using hk.cnt k' hk'

theorem spikeFold_ok {E : PEnv K} : ∀ (r : List (UEvent K)) (st : PSim K) p,
    Keys E st → CRep E.H st.queue p → (∀ e ∈ r, GoodEv E.net e) →
    ∃ st' p', r.foldlM (PSim.spikePhase E) st = .ok st' ∧ Keys E st' ∧ CRep E.H st'.queue p' := by
  intro r
  induction r with
  | nil => intro st p hk hp _; exact ⟨st, p, rfl, hk, hp⟩
  | cons e r ih =>
    intro st p hk hp hg
    have he := hg e (by simp)
    have hr : ∀ e ∈ r, GoodEv E.net e := fun e he => hg e (by simp [he])
    simp only [List.foldlM_cons, bind, Except.bind]
    obtain ⟨i, t, pl⟩ := e
    cases pl with
    | hit n k w => exact ih st p hk hp hr
    | predicted n =>
      obtain ⟨st1, p1, h1, hk1, hp1⟩ := handleSpike_ok (t := t) hk hp he
      simp only [PSim.spikePhase, h1]
      exact ih st1 p1 hk1 hp1 hr

theorem hitFold_ok {E : PEnv K} (hE : Runnable E.net) : ∀ (r : List (UEvent K)) (st : PSim K) p,
    Keys E st → CRep E.H st.queue p → (∀ e ∈ r, GoodEv E.net e) →
    ∃ st' p', r.foldlM (PSim.hitPhase E) st = .ok st' ∧ Keys E st' ∧ CRep E.H st'.queue p' := by
  intro r
  induction r with
  | nil => intro st p hk hp _; exact ⟨st, p, rfl, hk, hp⟩
  | cons e r ih =>
    intro st p hk hp hg
    have he := hg e (by simp)
    have hr : ∀ e ∈ r, GoodEv E.net e := fun e he => hg e (by simp [he])
    simp only [List.foldlM_cons, bind, Except.bind]
    obtain ⟨i, t, pl⟩ := e
    cases pl with
    | predicted n => exact ih st p hk hp hr
    | hit n k w =>
      obtain ⟨st1, p1, h1, hk1, hp1⟩ := handleHit_ok hE (t := t) (w := w) hk hp he.1 he.2
      simp only [PSim.hitPhase, h1]
      exact ih st1 p1 hk1 hp1 hr

theorem iter_ok {E : PEnv K} (hE : Runnable E.net) {st : PSim K} {p} (hk : Keys E st)
    (hp : CRep E.H st.queue p) (hne : p ≠ []) (hg : ∀ e ∈ p, GoodEv E.net e) :
    ∃ b st', st.iter E = .ok (b, st') ∧ Keys E st' := by
  have ht : st.queue.times ≠ [] := by
    obtain ⟨e, he⟩ := List.exists_mem_of_ne_nil _ hne
    exact List.ne_nil_of_mem (hp.time_mem he)
  obtain ⟨q', hq', hrep⟩ := hp.pop ht
  have hb : ∀ e ∈ Spec.batch p, GoodEv E.net e := fun e he => hg e (List.mem_of_mem_filter he)
  obtain ⟨st1, p1, h1, hk1, hp1⟩ := spikeFold_ok (Spec.batch p) { st with queue := q' } _
    ⟨hk.poss, hk.log, hk.cnt⟩ hrep hb
  obtain ⟨st2, p2, h2, hk2, hp2⟩ := hitFold_ok hE (Spec.batch p) st1 p1 hk1 hp1 hb
  refine ⟨Spec.batch p, st2, ?_, hk2⟩
  unfold PSim.iter
  simp only [hq', h1, h2]

theorem good_induct (E : PEnv K) (hE : Runnable E.net) (T : K) : PInduct E T
    (fun _ _ U => ∀ e ∈ U, GoodEv E.net e) where
  perm := fun st D D' U U' _ hU h e he => h e (hU.mem_iff.mpr he)
  queue := fun st q D U h => h
  spike := by
    intro st st' i n p D R l hp h hl hst e he
    simp only [List.mem_append] at he
    rcases he with (he | he) | he
    · exact h e (by simp [he])
    · obtain ⟨s, hs, _, h3, _⟩ := hitsOf_mem he
      have hs' := List.mem_of_mem_filter hs
      simp only [GoodEv, h3]; exact ⟨hE.post s hs', hE.kind s hs'⟩
    · exact h e (by simp [he])
  hit := by
    intro st st' i n k w p D R o s l r c hp hR h ho hr hpr hc hst e he
    simp only [List.mem_append] at he
    rcases he with (he | he) | he
    · refine h e ?_
      cases o with
      | none => simp at he; simp [he]
      | some e => simp at he; simp [List.mem_of_mem_erase he]
    · obtain ⟨m, rfl, rfl⟩ := predEv_mem he
      exact (h ⟨i, T, .hit n k w⟩ (by simp)).1
    · exact h e (by simp [he])

theorem loop_no_error {E : PEnv K} (hE : Runnable E.net) : ∀ (fuel : ℕ) (st : PSim K) p r,
    Keys E st → CRep E.H st.queue p → (∀ e ∈ p, GoodEv E.net e) → st.loop E fuel = some r →
    ∃ st', r = .ok st' := by
  intro fuel
  induction fuel with
  | zero =>
    intro st p r hk hp hg h
    unfold PSim.loop at h
    rw [hp.len] at h
    split at h
    · rename_i h1; cases h1
    · simp only [Option.some.injEq] at h; exact ⟨_, h.symm⟩
    · cases h
  | succ fuel ih =>
    intro st p r hk hp hg h
    unfold PSim.loop at h
    rw [hp.len] at h
    split at h
    next h1 => cases h1
    · simp only [Option.some.injEq] at h; exact ⟨_, h.symm⟩
    next m hm =>
      have hne : p ≠ [] := hp.ne_nil_of_len (m := m) (by rw [hp.len, hm])
      obtain ⟨b, st', hit, hk'⟩ := iter_ok hE hk hp hne hg
      obtain ⟨T, hT, -, -⟩ := batch_time hne
      obtain ⟨p', hp', hg'⟩ := (good_induct E hE T).iter (D := []) hp hT hg hit
      simp only [hit] at h
      exact ih st' p' r hk' hp' hg' h

/-- The link between `simulate` and the loop relation. -/
theorem loop_steps {E : PEnv K} {st0 : PSim K} : ∀ (fuel : ℕ) {bs} {st st' : PSim K},
    Steps E st0 bs st → st.loop E fuel = some (.ok st') →
    ∃ bs', Steps E st0 bs' st' ∧ st'.queue.len = .ok 0 := by
  intro fuel
  induction fuel with
  | zero =>
    intro bs st st' hs h
    unfold PSim.loop at h
    split at h
    · cases h
    next hl => simp only [Option.some.injEq, Except.ok.injEq] at h; subst h; exact ⟨bs, hs, hl⟩
    · cases h
  | succ fuel ih =>
    intro bs st st' hs h
    unfold PSim.loop at h
    split at h
    · cases h
    next hl => simp only [Option.some.injEq, Except.ok.injEq] at h; subst h; exact ⟨bs, hs, hl⟩
    next m hl =>
      simp only at h
      split at h
      · cases h
      next b st1 hit => exact ih (hs.step hl hit) h

end Axon
