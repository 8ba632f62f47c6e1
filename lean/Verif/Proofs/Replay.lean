import Verif.Proofs.PredRun
import Verif.Spec.Replay

set_option linter.unusedSectionVars false
namespace Axon
open Spec
variable {K : Type*} [Field K] [LinearOrder K] [FloorRing K]

theorem receivePred_bump {exp : K → K} {p : Params K} {s s' : NState K} {l l' k w t}
    (h : receivePred exp p s l k w t = .ok (s', l')) :
    bump (if t = l then s else pass exp p s (t - l)) k w = some s' ∧ l' = t := by
  unfold receivePred at h
  split at h
  · cases h
  · dsimp only at h
    split at h
    · cases h
    next s2 hr =>
      simp only [Except.ok.injEq, Prod.mk.injEq] at h
      obtain ⟨rfl, rfl⟩ := h
      refine ⟨?_, by by_cases h : t = l <;> simp [h]⟩
      have e : (if t ≠ l then { s with V := (fastForward exp p s (t - l)).1, gf := (fastForward exp p s (t - l)).2 } else s) =
          (if t = l then s else pass exp p s (t - l)) := by
        by_cases h : t = l
        · simp [h]
        · simp only [ne_eq, h, not_false_eq_true, if_true, if_false]
          by_cases hg : s.gate = 0 <;> simp [fastForward, pass, hg]
      rw [e] at hr
      revert hr
      generalize (if t = l then s else pass exp p s (t - l)) = x
      intro hr
      cases k <;> simp only [receive, Except.ok.injEq] at hr <;> first | (subst hr; rfl) | cases hr

/-- The hits on `n` among events. -/
def hitsE (n : ℕ) (es : List (UEvent K)) : List (Item K) :=
  es.filterMap (fun e => match e.payload with
    | .hit m k w => if m = n then some (.hit e.time k w) else none
    | _ => none)

theorem hitsE_append (n : ℕ) (a b : List (UEvent K)) : hitsE n (a ++ b) = hitsE n a ++ hitsE n b := by
  simp [hitsE, List.filterMap_append]

theorem hitsE_out (net : Net K) (T : K) (m n : ℕ) : ∀ i, hitsE n (hitsOf T i (net.out m)) =
    (net.syns.filter (fun s => s.post = n)).flatMap
      (fun s => if s.pre = m then [Item.hit (T + s.delay) s.kind s.weight] else []) := by
  unfold Net.out
  induction net.syns with
  | nil => intro i; rfl
  | cons s ss ih =>
    intro i
    by_cases hp : s.pre = m <;> by_cases hq : s.post = n
    · simp only [List.filter_cons, hp, hq, decide_true, if_true, hitsOf, List.flatMap_cons, ← ih (i + 1)]
      simp [hitsE, hq]
    · simp only [List.filter_cons, hp, hq, decide_true, if_true, hitsOf, decide_false, Bool.false_eq_true, if_false, ← ih (i + 1)]
      simp [hitsE, hq]
    · simp [List.filter_cons, hp, hq, ih i]
    · simp [List.filter_cons, hp, hq, ih i]

theorem arrivals_spike (net : Net K) (inj : List (ℕ × K)) (L L' : ℕ → List K) (T : K) (m n i : ℕ)
    (h : ∀ a, L' a = L a ++ if a = m then [T] else []) :
    (arriving net inj L' n).Perm (arriving net inj L n ++ hitsE n (hitsOf T i (net.out m))) := by
  rw [hitsE_out]
  unfold arriving
  rw [List.append_assoc]
  refine List.Perm.append_left _ ?_
  have : ∀ ss : List (Synapse K), (ss.flatMap (fun s => (L' s.pre).map (fun t => Item.hit (t + s.delay) s.kind s.weight))).Perm
      (ss.flatMap (fun s => (L s.pre).map (fun t => Item.hit (t + s.delay) s.kind s.weight)) ++
      ss.flatMap (fun s => if s.pre = m then [Item.hit (T + s.delay) s.kind s.weight] else [])) := by
    intro ss
    refine List.Perm.trans (List.Perm.of_eq ?_) (List.flatMap_append_perm _ _ _).symm
    refine List.flatMap_congr fun s _ => ?_
    rw [h]
    by_cases hs : s.pre = m <;> simp [hs]
  exact this _

/-- The announced spike as recorded by the engine. -/
def announced : Option (Option (UEvent K)) → Option K
  | some (some e) => some e.time
  | _ => none

def logOf (st : PSim K) (n : ℕ) : List K := (st.spikeLog n).getD []

structure RepInv (E : PEnv K) (s0 : ℕ → NState K) (l0 : ℕ → K) (inj : List (ℕ × K)) (T : K) (st : PSim K) (D U : List (UEvent K)) :
    Prop where
  inv : PInv st U
  late : ∀ e ∈ U, T ≤ e.time
  poss : ∀ n e, st.poss n = some (some e) → e ∈ U ∧ e.payload = .predicted n
  hits : ∀ n, (hitsE n (D ++ U)).Perm (arriving E.net inj (logOf st) n)
  life : ∀ n, ∃ h, Life E n (s0 n) (l0 n) h (st.nst n) (st.last n) (announced (st.poss n)) ∧ Item.spikes h = logOf st n ∧
    (Item.hits h).Perm (hitsE n D) ∧ h.Pairwise (fun a b => a.time ≤ b.time) ∧ ∀ i ∈ h, i.time ≤ T

theorem rep_induct [IsStrictOrderedRing K] (E : PEnv K) (hdt : 0 < E.dt) (hdel : ∀ s ∈ E.net.syns, 0 ≤ s.delay)
    (s0 : ℕ → NState K) (l0 : ℕ → K) (inj : List (ℕ × K)) (T : K) : PInduct E T (RepInv E s0 l0 inj T) where
  perm := fun st D D' U U' hD hU h =>
    ⟨(pinv_induct E T).perm st D D' U U' hD hU h.inv, fun e he => h.late e (hU.mem_iff.mpr he),
     fun n e he => ⟨hU.mem_iff.mp (h.poss n e he).1, (h.poss n e he).2⟩,
     fun n => ((hD.append hU).symm.filterMap _).trans (h.hits n),
     fun n => by
      obtain ⟨x, h1, h2, h3, h4⟩ := h.life n
      exact ⟨x, h1, h2, h3.trans (hD.filterMap _), h4⟩⟩
  queue := fun st q D U h => ⟨(pinv_induct E T).queue st q D U h.inv, h.late, h.poss, h.hits, h.life⟩
  spike := by
    intro st st' i n p D R l hp h hl hst
    have hinv := (pinv_induct E T).spike st st' i n p D R l hp h.inv hl hst
    have hpn := h.inv.pred ⟨i, T, .predicted n⟩ (by simp) n rfl
    have hlog : ∀ a, logOf st' a = logOf st a ++ if a = n then [T] else [] := by
      intro a
      rw [hst]
      by_cases ha : a = n
      · subst ha; simp [logOf, hl]
      · simp [logOf, ha]
    refine ⟨hinv, ?_, ?_, ?_, ?_⟩
    · intro e he
      simp only [List.mem_append] at he
      rcases he with (he | he) | he
      · exact h.late e (by simp [he])
      · obtain ⟨s, hs, ht, -⟩ := hitsOf_mem he
        have := hdel s (List.mem_of_mem_filter hs)
        rw [ht]; linarith
      · exact h.late e (by simp [he])
    · intro m e he
      rw [hst] at he
      by_cases hm : m = n
      · subst hm; simp at he
      · simp only [ne_eq, hm, not_false_eq_true, Function.update_of_ne] at he
        obtain ⟨h1, h2⟩ := h.poss m e he
        refine ⟨?_, h2⟩
        rcases List.mem_cons.mp h1 with h1 | h1
        · subst h1; simp at h2; exact absurd h2.symm hm
        · rcases List.mem_append.mp h1 with h1 | h1 <;> simp [h1]
    · intro m
      have h1 := h.hits m
      refine List.Perm.trans ?_ ((h1.append_right _).trans (arrivals_spike E.net inj (logOf st) (logOf st') T n m st.nextId hlog).symm)
      simp only [hitsE_append]
      have e1 : hitsE m (⟨i, T, .predicted n⟩ :: D) = hitsE m D := rfl
      have e2 : ∀ x, hitsE m (⟨i, T, .predicted n⟩ :: x) = hitsE m x := fun _ => rfl
      rw [e1, e2, hitsE_append, List.append_assoc, List.append_assoc, List.append_assoc]
      refine List.Perm.append_left _ (List.Perm.append_left _ ?_)
      exact List.perm_append_comm
    · intro m
      obtain ⟨x, h1, h2, h3, h4, h5⟩ := h.life m
      by_cases hm : m = n
      · subst hm
        rw [hpn] at h1
        refine ⟨x ++ [.spike T], ?_, ?_, ?_, ?_, ?_⟩
        · have := h1.spike
          rw [hst]
          simpa [announced, NState.reset] using this
        · rw [hlog, ← h2]; simp [Item.spikes]
        · refine List.Perm.trans (List.Perm.of_eq ?_) (h3.trans (List.Perm.of_eq rfl))
          simp [Item.hits]
        · refine List.pairwise_append.mpr ⟨h4, by simp, ?_⟩
          intro a ha b hb
          simp at hb; subst hb; exact h5 a ha
        · intro a ha
          rcases List.mem_append.mp ha with ha | ha
          · exact h5 a ha
          · simp at ha; subst ha; exact le_rfl
      · refine ⟨x, ?_, ?_, h3, h4, h5⟩
        · rw [hst]; simpa [hm] using h1
        · rw [hlog, h2]; simp [hm]
  hit := by
    intro st st' i n k w p D R o s l r c hp hR h ho hr hpr hc hst
    have hinv := (pinv_induct E T).hit st st' i n k w p D R o s l r c hp hR h.inv ho hr hpr hc hst
    have hsub : ∀ e, e ∈ o.elim p p.erase → e ∈ p := by
      intro e he; cases o with
      | none => exact he
      | some x => exact List.mem_of_mem_erase he
    obtain ⟨hb, rfl⟩ := receivePred_bump hr
    have hlog : ∀ a, logOf st' a = logOf st a := by intro a; rw [hst]; rfl
    have hfn : logOf st' = logOf st := funext hlog
    have hpe : ∀ m, hitsE m (predEv E st.nextId l n r).toList = [] := by
      intro m; cases r <;> rfl
    have hpl : ∀ x, o = some x → x.payload = .predicted n := fun x hx => (h.poss n x (by rw [ho, hx])).2
    have hel : ∀ m, (hitsE m (o.elim p p.erase)).Perm (hitsE m p) := by
      intro m
      cases o with
      | none => exact List.Perm.refl _
      | some x =>
        have hx := h.poss n x ho
        have hxp : x ∈ p := by
          rcases List.mem_cons.mp hx.1 with h1 | h1
          · rw [h1] at hx; simp at hx
          · rcases List.mem_append.mp h1 with h1 | h1
            · exact h1
            · have := hR x h1; simp [UEvent.isPred, hx.2] at this
        have hpe := (List.perm_cons_erase hxp).filterMap (fun e : UEvent K => match e.payload with
          | .hit m' k w => if m' = m then some (Item.hit e.time k w) else none
          | _ => none)
        rw [List.filterMap_cons] at hpe
        simp only [hx.2] at hpe
        exact hpe.symm
    refine ⟨hinv, ?_, ?_, ?_, ?_⟩
    · intro e he
      simp only [List.mem_append] at he
      rcases he with (he | he) | he
      · exact h.late e (by simp [hsub e he])
      · obtain ⟨m, rfl, rfl⟩ := predEv_mem he
        have h0 := predictSteps_nonneg hdt hpr
        have : (0 : K) ≤ (m : K) * E.dt := mul_nonneg (by exact_mod_cast h0) hdt.le
        simp only; linarith
      · exact h.late e (by simp [he])
    · intro m e he
      rw [hst] at he
      by_cases hm : m = n
      · subst hm
        simp only [Function.update_self, Option.some.injEq] at he
        rw [he]
        refine ⟨by simp, ?_⟩
        obtain ⟨_, _, rfl⟩ := predEv_mem (e := e) (E := E) (i := st.nextId) (t := l) (n := m) (r := r) (by rw [he]; simp)
        rfl
      · simp only [ne_eq, hm, not_false_eq_true, Function.update_of_ne] at he
        obtain ⟨h1, h2⟩ := h.poss m e he
        refine ⟨?_, h2⟩
        rcases List.mem_cons.mp h1 with h1 | h1
        · subst h1; simp at h2
        · rcases List.mem_append.mp h1 with h1 | h1
          · have : e ∈ o.elim p p.erase := by
              cases o with
              | none => exact h1
              | some x =>
                refine (List.mem_erase_of_ne ?_).mpr h1
                rintro rfl
                have := hpl e rfl
                rw [h2] at this; simp at this; exact hm this
            simp [this]
          · simp [h1]
    · intro m
      rw [hfn]
      refine List.Perm.trans ?_ (h.hits m)
      simp only [hitsE_append, hpe, List.append_nil]
      have e1 : ∀ x, hitsE m (⟨i, l, .hit n k w⟩ :: x) = hitsE m [⟨i, l, .hit n k w⟩] ++ hitsE m x := fun x => hitsE_append m [_] x
      rw [e1, e1 (p ++ R), hitsE_append]
      have h2 := (hel m).append_right (hitsE m R)
      refine (List.Perm.append_left _ h2).trans ?_
      rw [List.append_assoc, ← List.append_assoc, ← List.append_assoc (hitsE m D)]
      exact List.Perm.append_right _ List.perm_append_comm
    · intro m
      obtain ⟨x, h1, h2, h3, h4, h5⟩ := h.life m
      by_cases hm : m = n
      · subst hm
        refine ⟨x ++ [.hit l k w], ?_, ?_, ?_, ?_, ?_⟩
        · have h6 := h1.hit (t := l) (k := k) (w := w) (s' := s) (r := r) ?_ hb hpr
          · rw [hst]
            simp only [Function.update_self]
            convert h6 using 1
            cases r <;> rfl
          · intro y hy
            rw [ho] at hy
            cases o with
            | none => simp [announced] at hy
            | some e =>
              simp [announced] at hy
              subst hy
              exact h.late e (h.poss m e ho).1
        · rw [hlog, ← h2]; simp [Item.spikes]
        · have : hitsE m (⟨i, l, .hit m k w⟩ :: D) = .hit l k w :: hitsE m D := by simp [hitsE]
          rw [this]
          have e2 : Item.hits (x ++ [.hit l k w]) = Item.hits x ++ [.hit l k w] := by simp [Item.hits]
          rw [e2]
          exact (h3.append_right _).trans List.perm_append_comm
        · refine List.pairwise_append.mpr ⟨h4, by simp, ?_⟩
          intro a ha b hb
          simp at hb; subst hb; exact h5 a ha
        · intro a ha
          rcases List.mem_append.mp ha with ha | ha
          · exact h5 a ha
          · simp at ha; subst ha; exact le_rfl
      · refine ⟨x, ?_, ?_, ?_, h4, h5⟩
        · rw [hst]; simpa [hm] using h1
        · rw [hlog, h2]
        · have : hitsE m (⟨i, l, .hit n k w⟩ :: D) = hitsE m D := by simp [hitsE, Ne.symm hm]
          rw [this]; exact h3

end Axon
