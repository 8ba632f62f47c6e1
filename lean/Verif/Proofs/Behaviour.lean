import Verif.Proofs.Consistent

set_option linter.unusedSectionVars false
namespace Axon
open Spec
variable {K : Type*} [Field K] [LinearOrder K] [FloorRing K]

theorem bumps_append (a b : List (SynKind × K)) : ∀ s : NState K, bumps s (a ++ b) = (bumps s a).bind (fun s' => bumps s' b) := by
  induction a with
  | nil => intro s; rfl
  | cons x a ih =>
    intro s
    simp only [List.cons_append, bumps]
    cases bump s x.1 x.2 with
    | none => rfl
    | some s' => simp [ih]

/-- The neuron `n`, starting in state `s0` as of `l0`, has been through the volleys `vs` and has spiked at `L`; it
is now in state `s` as of `l` and has announced a spike for `o`. -/
inductive Done (E : PEnv K) (n : ℕ) (s0 : NState K) (l0 : K) : List (Volley K) → List K → NState K → K → Option K → Prop
  | start : Done E n s0 l0 [] [] s0 l0 none
  | volley {vs L s l o v s' r} : Done E n s0 l0 vs L s l o → (∀ x ∈ o, v.time < x) → (∀ u ∈ vs, u.time < v.time) → (∀ y ∈ L, y ≤ v.time) →
      v.hits ≠ [] → bumps (if v.time = l then s else pass E.exp (E.net.par n) s (v.time - l)) v.hits = some s' →
      predictSteps E.exp (E.net.par n) s' E.dt = .ok r →
      Done E n s0 l0 (vs ++ [v]) L s' v.time (r.map (fun m : ℤ => v.time + (m : K) * E.dt))
  | fire {vs L s l x} : Done E n s0 l0 vs L s l (some x) → Done E n s0 l0 vs (L ++ [x]) ⟨(E.net.par n).Vreset, 0, 0, 0⟩ l none

theorem Done.sorted {E : PEnv K} {n s0 l0 vs L s l o} (h : Done E n s0 l0 vs L s l o) :
    (vs.map Volley.time).Pairwise (· < ·) ∧ ∀ v ∈ vs, v.hits ≠ [] := by
  induction h with
  | start => simp
  | @volley vs L s l o v s' r _ h2 h3 h4 h5 _ _ ih =>
    refine ⟨?_, ?_⟩
    · rw [List.map_append, List.pairwise_append]
      refine ⟨ih.1, by simp, ?_⟩
      intro a ha b hb
      simp at hb; subst hb
      obtain ⟨u, hu, rfl⟩ := List.mem_map.mp ha
      exact h3 u hu
    · intro u hu
      rcases List.mem_append.mp hu with hu | hu
      · exact ih.2 u hu
      · simp at hu; rw [hu]; exact h5
  | fire _ ih => exact ih

theorem Done.reacts {E : PEnv K} {n s0 l0 vs L s l o} (h : Done E n s0 l0 vs L s l o) : ∀ {ws L'}, RestOf E n s l o ws L' →
    (∀ w ∈ ws.head?, (∀ v ∈ vs, v.time < w.time) ∧ ∀ y ∈ L, y ≤ w.time) → Reacts E n s0 l0 (vs ++ ws) (L ++ L') := by
  induction h with
  | start => intro ws L' h _; exact h
  | @volley vs L s l o v s' r _ h2 h3 h4 h5 h6 h7 ih =>
    intro ws L' h hw
    rw [List.append_assoc]
    refine ih ?_ ?_
    · have hr := reacts_of h6 h7 h
      cases o with
      | none => exact hr
      | some x => exact .inr ⟨⟨v, by simp, h2 x rfl⟩, hr⟩
    · intro w hw'
      simp at hw'; subst hw'
      exact ⟨h3, h4⟩
  | @fire vs L s l x _ ih =>
    intro ws L' h hw
    rw [List.append_assoc]
    refine ih (.inl ⟨?_, L', rfl, h⟩) ?_
    · intro v hv; exact (hw v hv).2 x (by simp)
    · intro w hw'
      exact ⟨(hw w hw').1, fun y hy => (hw w hw').2 y (by simp [hy])⟩

/-- The hit is on `n`. -/
def UEvent.onN (n : ℕ) (e : UEvent K) : Prop := ∃ k w, e.payload = .hit n k w

/-- At the top of the loop. -/
structure Past (E : PEnv K) (s0 : ℕ → NState K) (l0 : ℕ → K) (inj : List (ℕ × K)) (st : PSim K) (U : List (UEvent K)) : Prop where
  inv : PInv st U
  poss : ∀ n e, st.poss n = some (some e) → e ∈ U ∧ e.payload = .predicted n
  logs : ∀ n, ∀ y ∈ logOf st n, ∀ e ∈ U, y ≤ e.time
  link : ∀ n, ∃ vs : List (Volley K), Done E n (s0 n) (l0 n) vs (logOf st n) (st.nst n) (st.last n) (announced (st.poss n)) ∧
    (∀ v ∈ vs, ∀ e ∈ U, v.time ≤ e.time ∧ (UEvent.onN n e → v.time < e.time)) ∧
    (vs.flatMap Volley.items ++ hitsE n U).Perm (arriving E.net inj (logOf st) n)

/-- While the spikes of a batch are handled. -/
structure SPast (E : PEnv K) (s0 : ℕ → NState K) (l0 : ℕ → K) (inj : List (ℕ × K)) (T : K) (B B' : List (UEvent K)) (st : PSim K)
    (D U : List (UEvent K)) : Prop where
  inv : PInv st U
  poss : ∀ n e, st.poss n = some (some e) → e ∈ U ∧ e.payload = .predicted n
  logs : ∀ n, ∀ y ∈ logOf st n, y ≤ T
  link : ∀ n, ∃ vs : List (Volley K), Done E n (s0 n) (l0 n) vs (logOf st n) (st.nst n) (st.last n) (announced (st.poss n)) ∧
    (∀ v ∈ vs, v.time ≤ T) ∧ (∀ v ∈ vs, ∀ e ∈ U, UEvent.onN n e → v.time < e.time) ∧
    (vs.flatMap Volley.items ++ hitsE n U).Perm (arriving E.net inj (logOf st) n)
  late : ∀ e ∈ U, T ≤ e.time
  atT : ∀ e ∈ U, e.isPred = true → e.time = T → e ∈ B ∧ e ∉ D
  atH : ∀ e ∈ U, e.isPred = false → e.time = T → e ∈ B'

/-- While the hits of a batch are handled. -/
structure HPast (E : PEnv K) (s0 : ℕ → NState K) (l0 : ℕ → K) (inj : List (ℕ × K)) (T : K) (B : List (UEvent K)) (st : PSim K)
    (D U : List (UEvent K)) : Prop where
  inv : PInv st U
  poss : ∀ n e, st.poss n = some (some e) → e ∈ U ∧ e.payload = .predicted n
  late : ∀ e ∈ U, T ≤ e.time
  logs : ∀ n, ∀ y ∈ logOf st n, y ≤ T
  atT : ∀ e ∈ U, e.isPred = false → e.time = T → e ∈ B ∧ e ∉ D
  link : ∀ n, (∃ vs : List (Volley K), Done E n (s0 n) (l0 n) vs (logOf st n) (st.nst n) (st.last n) (announced (st.poss n)) ∧
      (∀ x ∈ announced (st.poss n), T < x) ∧ (∀ v ∈ vs, v.time ≤ T) ∧ (∀ v ∈ vs, ∀ e ∈ U, UEvent.onN n e → v.time < e.time) ∧
      (vs.flatMap Volley.items ++ hitsE n U).Perm (arriving E.net inj (logOf st) n)) ∨
    (∃ vs hs s l o r, Done E n (s0 n) (l0 n) vs (logOf st n) s l o ∧ (∀ x ∈ o, T < x) ∧ (∀ v ∈ vs, v.time < T) ∧ hs ≠ [] ∧
      bumps (if T = l then s else pass E.exp (E.net.par n) s (T - l)) hs = some (st.nst n) ∧ st.last n = T ∧
      predictSteps E.exp (E.net.par n) (st.nst n) E.dt = .ok r ∧ announced (st.poss n) = r.map (fun m : ℤ => T + (m : K) * E.dt) ∧
      ((vs ++ [(⟨T, hs⟩ : Volley K)]).flatMap Volley.items ++ hitsE n U).Perm (arriving E.net inj (logOf st) n))

theorem SPast.perm {E : PEnv K} {s0 : ℕ → NState K} {l0 : ℕ → K} {inj : List (ℕ × K)} {T : K} {B B' : List (UEvent K)} (st : PSim K)
    (D D' U U' : List (UEvent K)) (hD : D.Perm D') (hU : U.Perm U') (h : SPast E s0 l0 inj T B B' st D U) :
    SPast E s0 l0 inj T B B' st D' U' where
  inv := (pinv_induct E T).perm st D D' U U' hD hU h.inv
  poss n e he := ⟨hU.mem_iff.mp (h.poss n e he).1, (h.poss n e he).2⟩
  logs := h.logs
  link n := by
    obtain ⟨vs, h1, h2, h2', h3⟩ := h.link n
    exact ⟨vs, h1, h2, fun v hv e he => h2' v hv e (hU.mem_iff.mpr he), (((hU.filterMap _).symm).append_left _).trans h3⟩
  late e he := h.late e (hU.mem_iff.mpr he)
  atT e he := fun a b => ⟨(h.atT e (hU.mem_iff.mpr he) a b).1, fun hd => (h.atT e (hU.mem_iff.mpr he) a b).2 (hD.mem_iff.mpr hd)⟩
  atH e he := h.atH e (hU.mem_iff.mpr he)

theorem HPast.perm {E : PEnv K} {s0 : ℕ → NState K} {l0 : ℕ → K} {inj : List (ℕ × K)} {T : K} {B : List (UEvent K)} (st : PSim K)
    (D D' U U' : List (UEvent K)) (hD : D.Perm D') (hU : U.Perm U') (h : HPast E s0 l0 inj T B st D U) :
    HPast E s0 l0 inj T B st D' U' where
  inv := (pinv_induct E T).perm st D D' U U' hD hU h.inv
  poss n e he := ⟨hU.mem_iff.mp (h.poss n e he).1, (h.poss n e he).2⟩
  late e he := h.late e (hU.mem_iff.mpr he)
  logs := h.logs
  atT e he := fun a b => ⟨(h.atT e (hU.mem_iff.mpr he) a b).1, fun hd => (h.atT e (hU.mem_iff.mpr he) a b).2 (hD.mem_iff.mpr hd)⟩
  link n := by
    have hp : (hitsE n U').Perm (hitsE n U) := (hU.filterMap _).symm
    rcases h.link n with ⟨vs, h1, h2, h3, h4, h5⟩ | ⟨vs, hs, s, l, o, r, h1, h2, h3, h4, h5, h6, h7, h8, h9⟩
    · exact .inl ⟨vs, h1, h2, h3, fun v hv e he => h4 v hv e (hU.mem_iff.mpr he), (hp.append_left _).trans h5⟩
    · exact .inr ⟨vs, hs, s, l, o, r, h1, h2, h3, h4, h5, h6, h7, h8, (hp.append_left _).trans h9⟩

theorem SPast.spike [IsStrictOrderedRing K] {E : PEnv K} {s0 : ℕ → NState K} {l0 : ℕ → K} {inj : List (ℕ × K)}
    (hdel : ∀ s ∈ E.net.syns, 0 < s.delay) {T : K}
    {B B' : List (UEvent K)} (st st' : PSim K) (i n : ℕ) (p D R : List (UEvent K)) (l : List K) (hp : CRep E.H st.queue p)
    (h : SPast E s0 l0 inj T B B' st D (⟨i, T, .predicted n⟩ :: (p ++ R))) (hl : st.spikeLog n = some l)
    (hst : st' = { st with
          queue := st'.queue
          nextId := st.nextId + (E.net.out n).length
          nst := Function.update st.nst n (NState.reset (E.net.par n))
          poss := Function.update st.poss n (some none)
          spikeLog := Function.update st.spikeLog n (some (l ++ [T])) }) :
    SPast E s0 l0 inj T B B' st' (⟨i, T, .predicted n⟩ :: D) ((p ++ hitsOf T st.nextId (E.net.out n)) ++ R) := by
  have hinv := (pinv_induct E T).spike st st' i n p D R l hp h.inv hl hst
  have hpn := h.inv.pred ⟨i, T, .predicted n⟩ (by simp) n rfl
  have hlog : ∀ a, logOf st' a = logOf st a ++ if a = n then [T] else [] := by
    intro a
    rw [hst]
    by_cases ha : a = n
    · subst ha; simp [logOf, hl]
    · simp [logOf, ha]
  have hnew : ∀ e ∈ (p ++ hitsOf T st.nextId (E.net.out n)) ++ R,
      e ∈ (⟨i, T, .predicted n⟩ :: (p ++ R) : List (UEvent K)) ∨ T < e.time := by
    intro e he
    simp only [List.mem_append] at he
    rcases he with (he | he) | he
    · left; simp [he]
    · right
      obtain ⟨s, hs, ht, -⟩ := hitsOf_mem he
      have := hdel s (List.mem_of_mem_filter hs)
      rw [ht]; linarith
    · left; simp [he]
  have hlate : ∀ e ∈ (p ++ hitsOf T st.nextId (E.net.out n)) ++ R, T ≤ e.time := by
    intro e he
    rcases hnew e he with he | he
    · exact h.late e he
    · exact he.le
  refine { inv := hinv, poss := ?_, logs := ?_, link := ?_, late := hlate, atT := ?_, atH := ?_ }
  · intro m e he
    rw [hst] at he
    by_cases hm : m = n
    · subst hm; simp at he
    · simp only [ne_eq, hm, not_false_eq_true, Function.update_of_ne] at he
      obtain ⟨h1, h2⟩ := h.poss m e he
      refine ⟨?_, h2⟩
      rcases List.mem_cons.mp h1 with h1 | h1
      · subst h1; simp at h2; exact absurd h2.symm hm
      · rcases List.mem_append.mp h1 with h1 | h1 <;> simp [h1]
  · intro m y hy
    rw [hlog] at hy
    rcases List.mem_append.mp hy with hy | hy
    · exact h.logs m y hy
    · split at hy
      · simp at hy; subst hy; exact le_rfl
      · simp at hy
  · intro m
    obtain ⟨vs, h1, h2, h2', h3⟩ := h.link m
    refine ⟨vs, ?_, h2, ?_, ?_⟩
    · rw [hlog]
      by_cases hm : m = n
      · subst hm
        rw [hpn] at h1
        have := h1.fire
        rw [hst]
        simpa [announced, NState.reset] using this
      · rw [hst]
        simpa [hm] using h1
    · intro v hv e he hon
      rcases hnew e he with he | he
      · exact h2' v hv e he hon
      · exact lt_of_le_of_lt (h2 v hv) he
    · refine List.Perm.trans ?_ ((h3.append_right _).trans (arrivals_spike E.net inj (logOf st) (logOf st') T n m st.nextId hlog).symm)
      have e2 : ∀ x, hitsE m (⟨i, T, .predicted n⟩ :: x) = hitsE m x := fun _ => rfl
      rw [e2]
      simp only [hitsE_append, List.append_assoc]
      refine List.Perm.append_left _ (List.Perm.append_left _ ?_)
      exact List.perm_append_comm
  · intro e he hpr ht
    have hmem : e ∈ p ++ R := by
      simp only [List.mem_append] at he ⊢
      rcases he with (he | he) | he
      · exact .inl he
      · obtain ⟨_, _, _, hpl, _⟩ := hitsOf_mem he; simp [UEvent.isPred, hpl] at hpr
      · exact .inr he
    obtain ⟨h1, h2⟩ := h.atT e (List.mem_cons_of_mem _ hmem) hpr ht
    refine ⟨h1, fun hd => ?_⟩
    rcases List.mem_cons.mp hd with rfl | hd
    · exact (List.nodup_cons.mp h.inv.nodup).1 hmem
    · exact h2 hd
  · intro e he hnp ht
    rcases hnew e he with he | he
    · exact h.atH e he hnp ht
    · exact absurd ht he.ne'

theorem HPast.hit [IsStrictOrderedRing K] {E : PEnv K} (hdt : 0 < E.dt) {s0 : ℕ → NState K} {l0 : ℕ → K} {inj : List (ℕ × K)} {T : K}
    {B : List (UEvent K)} (st st' : PSim K) (i n : ℕ) (k : SynKind) (w : K) (p D R : List (UEvent K)) (o : Option (UEvent K)) (s : NState K)
    (l : K) (r : Option ℤ) (c : ℕ) (hp : CRep E.H st.queue p) (hR : ∀ e ∈ R, e.isPred = false)
    (h : HPast E s0 l0 inj T B st D (⟨i, T, .hit n k w⟩ :: (p ++ R))) (ho : st.poss n = some o)
    (hr : receivePred E.exp (E.net.par n) (st.nst n) (st.last n) k w T = .ok (s, l))
    (hpr : predictSteps E.exp (E.net.par n) s E.dt = .ok r) (hc : st.cnt k = some c)
    (hst : st' = { st with
          queue := st'.queue
          nextId := st.nextId + (predEv E st.nextId T n r).toList.length
          nst := Function.update st.nst n s
          last := Function.update st.last n l
          poss := Function.update st.poss n (some (predEv E st.nextId T n r))
          cnt := Function.update st.cnt k (some (c + 1)) }) :
    HPast E s0 l0 inj T B st' (⟨i, T, .hit n k w⟩ :: D) (((o.elim p p.erase) ++ (predEv E st.nextId T n r).toList) ++ R) := by
  have hinv := (pinv_induct E T).hit st st' i n k w p D R o s l r c hp hR h.inv ho hr hpr hc hst
  obtain ⟨hb, rfl⟩ := receivePred_bump hr
  have hsub : ∀ e, e ∈ o.elim p p.erase → e ∈ p := by
    intro e he; cases o with
    | none => exact he
    | some x => exact List.mem_of_mem_erase he
  have hpl : ∀ x, o = some x → x.payload = .predicted n := fun x hx => (h.poss n x (by rw [ho, hx])).2
  have hfn : logOf st' = logOf st := by funext a; rw [hst]; rfl
  -- cancelling predictions does not change the hits
  have hel : ∀ m, (hitsE m (((o.elim p p.erase) ++ (predEv E st.nextId l n r).toList) ++ R)).Perm (hitsE m (p ++ R)) := by
    intro m
    simp only [hitsE_append]
    have e1 : hitsE m (predEv E st.nextId l n r).toList = [] := by
      cases r with
      | none => rfl
      | some a => rfl
    rw [e1, List.append_nil]
    refine List.Perm.append_right _ ?_
    cases o with
    | none => exact List.Perm.refl _
    | some x =>
      have hx := h.poss n x ho
      have hxp : x ∈ p := by
        rcases List.mem_cons.mp hx.1 with h1 | h1
        · rw [h1] at hx; simp at hx
        · rcases List.mem_append.mp h1 with h1 | h1
          · exact h1
          · have := hR x h1; simp [UEvent.isPred, hx.2] at this
      have hpe := (List.perm_cons_erase hxp).filterMap (fun e : UEvent K => match e.payload with
        | .hit a k w => if a = m then some (Item.hit e.time k w) else none
        | _ => none)
      rw [List.filterMap_cons, hx.2] at hpe
      exact hpe.symm
  have hnew : ∀ e ∈ ((o.elim p p.erase) ++ (predEv E st.nextId l n r).toList) ++ R, e ∈ p ++ R ∨ (e.isPred = true ∧ l ≤ e.time) := by
    intro e he
    simp only [List.mem_append] at he ⊢
    rcases he with (he | he) | he
    · exact .inl (.inl (hsub e he))
    · right
      obtain ⟨m, hm, rfl⟩ := predEv_mem he
      refine ⟨rfl, ?_⟩
      subst hm
      have h0 := predictSteps_nonneg hdt hpr
      have : (0 : K) ≤ (m : K) * E.dt := mul_nonneg (by exact_mod_cast h0) hdt.le
      simp only; linarith
    · exact .inl (.inr he)
  refine { inv := hinv, poss := ?_, late := ?_, logs := ?_, atT := ?_, link := ?_ }
  · intro m e he
    rw [hst] at he
    by_cases hm : m = n
    · subst hm
      simp only [Function.update_self, Option.some.injEq] at he
      rw [he]
      refine ⟨by simp, ?_⟩
      obtain ⟨_, _, rfl⟩ := predEv_mem (e := e) (E := E) (i := st.nextId) (t := l) (n := m) (r := r) (by rw [he]; simp)
      rfl
    · simp only [ne_eq, hm, not_false_eq_true, Function.update_of_ne] at he
      obtain ⟨h1, h2⟩ := h.poss m e he
      refine ⟨?_, h2⟩
      rcases List.mem_cons.mp h1 with h1 | h1
      · subst h1; simp at h2
      · rcases List.mem_append.mp h1 with h1 | h1
        · have : e ∈ o.elim p p.erase := by
            cases o with
            | none => exact h1
            | some x =>
              refine (List.mem_erase_of_ne ?_).mpr h1
              rintro rfl
              have := hpl e rfl
              rw [h2] at this; simp at this; exact hm this
          simp [this]
        · simp [h1]
  · intro e he
    rcases hnew e he with he | he
    · exact h.late e (List.mem_cons_of_mem _ he)
    · exact he.2
  · rw [hfn]; exact h.logs
  · intro e he hnp ht
    rcases hnew e he with hmem | he
    · obtain ⟨h1, h2⟩ := h.atT e (List.mem_cons_of_mem _ hmem) hnp ht
      refine ⟨h1, fun hd => ?_⟩
      rcases List.mem_cons.mp hd with rfl | hd
      · exact (List.nodup_cons.mp h.inv.nodup).1 hmem
      · exact h2 hd
    · rw [he.1] at hnp; cases hnp
  · intro m
    rw [hfn]
    by_cases hm : m = n
    · subst hm
      right
      have f1 : st'.nst m = s ∧ st'.last m = l ∧ st'.poss m = some (predEv E st.nextId l m r) := by rw [hst]; simp
      have f2 : announced (st'.poss m) = r.map (fun a : ℤ => l + (a : K) * E.dt) := by
        rw [f1.2.2]; cases r <;> rfl
      have ea : hitsE m (⟨i, l, .hit m k w⟩ :: (p ++ R)) = .hit l k w :: hitsE m (p ++ R) := by simp [hitsE]
      rw [f1.1, f1.2.1]
      rcases h.link m with ⟨vs, h1, h2, h3, h4, h5⟩ | ⟨vs, hs, s1, l1, o1, r1, h1, h2, h3, h4, h5, h6, h7, h8, h9⟩
      · refine ⟨vs, [(k, w)], _, _, _, r, h1, h2, fun v hv => h4 v hv ⟨i, l, .hit m k w⟩ (by simp) ⟨k, w, rfl⟩, by simp, ?_, rfl, hpr, f2, ?_⟩
        · simpa [bumps] using hb
        · rw [ea] at h5
          refine (List.Perm.append_left _ (hel m)).trans (List.Perm.trans (List.Perm.of_eq ?_) h5)
          simp [Volley.items]
      · refine ⟨vs, hs ++ [(k, w)], s1, l1, o1, r, h1, h2, h3, by simp, ?_, rfl, hpr, f2, ?_⟩
        · rw [bumps_append, h5, Option.bind_some]
          rw [if_pos h6.symm] at hb
          simpa [bumps] using hb
        · rw [ea] at h9
          refine (List.Perm.append_left _ (hel m)).trans (List.Perm.trans (List.Perm.of_eq ?_) h9)
          simp [Volley.items]
    · have f1 : st'.nst m = st.nst m ∧ st'.last m = st.last m ∧ st'.poss m = st.poss m := by rw [hst]; simp [hm]
      have ea : hitsE m (⟨i, l, .hit n k w⟩ :: (p ++ R)) = hitsE m (p ++ R) := by simp [hitsE, Ne.symm hm]
      rw [f1.1, f1.2.1, f1.2.2]
      rcases h.link m with ⟨vs, h1, h2, h3, h4, h5⟩ | ⟨vs, hs, s1, l1, o1, r1, h1, h2, h3, h4, h5, h6, h7, h8, h9⟩
      · refine .inl ⟨vs, h1, h2, h3, ?_, ?_⟩
        · intro v hv e he hon
          rcases hnew e he with he | he
          · exact h4 v hv e (List.mem_cons_of_mem _ he) hon
          · obtain ⟨a, b, hab⟩ := hon
            simp [UEvent.isPred, hab] at he
        · rw [ea] at h5
          exact (List.Perm.append_left _ (hel m)).trans h5
      · refine .inr ⟨vs, hs, s1, l1, o1, r1, h1, h2, h3, h4, h5, h6, h7, h8, ?_⟩
        rw [ea] at h9
        exact (List.Perm.append_left _ (hel m)).trans h9

/-- From the spikes of a batch to its hits. -/
theorem SPast.toH {E : PEnv K} {s0 : ℕ → NState K} {l0 : ℕ → K} {inj : List (ℕ × K)} {T : K} {B B' D U : List (UEvent K)} {st : PSim K}
    (h : SPast E s0 l0 inj T B B' st D U) (hBD : ∀ e ∈ B, e ∈ D) :
    HPast E s0 l0 inj T B' st [] U where
  inv := h.inv
  poss := h.poss
  late := h.late
  logs := h.logs
  atT e he a b := ⟨h.atH e he a b, by simp⟩
  link n := by
    obtain ⟨vs, h1, h2, h2', h3⟩ := h.link n
    refine .inl ⟨vs, h1, ?_, h2, h2', h3⟩
    intro x hx
    match ha : st.poss n with
    | none => rw [ha] at hx; simp [announced] at hx
    | some none => rw [ha] at hx; simp [announced] at hx
    | some (some e) =>
      rw [ha] at hx
      simp only [announced, Option.mem_def, Option.some.injEq] at hx
      obtain ⟨g1, g2⟩ := h.poss n e ha
      rw [← hx]
      refine lt_of_le_of_ne (h.late e g1) fun hh => ?_
      have := h.atT e g1 (by simp [UEvent.isPred, g2]) hh.symm
      exact this.2 (hBD e this.1)

/-- After the hits of a batch. -/
theorem HPast.toB {E : PEnv K} {s0 : ℕ → NState K} {l0 : ℕ → K} {inj : List (ℕ × K)} {T : K} {B D U : List (UEvent K)} {st : PSim K}
    (h : HPast E s0 l0 inj T B st D U) (hBD : ∀ e ∈ B, e ∈ D) : Past E s0 l0 inj st U where
  inv := h.inv
  poss := h.poss
  logs n y hy e he := (h.logs n y hy).trans (h.late e he)
  link n := by
    rcases h.link n with ⟨vs, h1, h2, h3, h4, h5⟩ | ⟨vs, hs, s, l, o, r, h1, h2, h3, h4, h5, h6, h7, h8, h9⟩
    · exact ⟨vs, h1, fun v hv e he => ⟨(h3 v hv).trans (h.late e he), h4 v hv e he⟩, h5⟩
    · refine ⟨vs ++ [⟨T, hs⟩], ?_, ?_, h9⟩
      · rw [h6, h8]
        exact Done.volley (v := ⟨T, hs⟩) h1 h2 h3 (h.logs n) h4 h5 h7
      · intro v hv e he
        have hv' : v.time ≤ T := by
          rcases List.mem_append.mp hv with hv | hv
          · exact (h3 v hv).le
          · simp at hv; rw [hv]
        refine ⟨hv'.trans (h.late e he), fun hon => lt_of_le_of_lt hv' (lt_of_le_of_ne (h.late e he) fun hh => ?_)⟩
        obtain ⟨k, w, hk⟩ := hon
        have := h.atT e he (by simp [UEvent.isPred, hk]) hh.symm
        exact this.2 (hBD e this.1)

/-- One iteration of the loop. -/
theorem Past.iter [IsStrictOrderedRing K] {E : PEnv K} (hdt : 0 < E.dt) (hdel : ∀ s ∈ E.net.syns, 0 < s.delay)
    {s0 : ℕ → NState K} {l0 : ℕ → K} {inj : List (ℕ × K)} {st st' : PSim K} {p evs : List (UEvent K)} (hp : CRep E.H st.queue p)
    (h : Past E s0 l0 inj st p) (hpe : p ≠ []) (hi : st.iter E = .ok (evs, st')) :
    ∃ p', CRep E.H st'.queue p' ∧ Past E s0 l0 inj st' p' := by
  have hb := iter_batch hp hi
  obtain ⟨T, hT, hmin, hbne⟩ := batch_time hpe
  obtain ⟨x0, hx0⟩ := List.exists_mem_of_ne_nil _ hbne
  have hxp : x0 ∈ p := List.mem_of_mem_filter hx0
  have hxT := hT x0 hx0
  unfold PSim.iter at hi
  by_cases ht : st.queue.times = []
  · simp [CQueue.pop, ht] at hi
  · obtain ⟨q', hq', hrep⟩ := hp.pop ht
    rw [hq'] at hi
    simp only at hi
    rw [← hb] at hi hT
    split at hi
    · cases hi
    next st1 h1 =>
      split at hi
      · cases hi
      next st2 h2 =>
        simp only [Except.ok.injEq, Prod.mk.injEq] at hi
        obtain ⟨-, rfl⟩ := hi
        have hperm : p.Perm (Spec.others p ++ (evs.filter UEvent.isPred ++ evs.filter (fun e => !e.isPred))) := by
          refine (batch_perm p).symm.trans (List.Perm.append_left _ ?_)
          rw [← hb]; exact (filter_isPred_perm evs).symm
        have hothers : ∀ e ∈ Spec.others p, e.time ≠ T := by
          intro e he hh
          simp only [Spec.others, List.mem_filter, decide_eq_true_eq] at he
          exact he.2 (fun x hx => hh ▸ hmin x hx)
        have hS0 : SPast E s0 l0 inj T (evs.filter UEvent.isPred) (evs.filter (fun e => !e.isPred)) { st with queue := q' } []
            (Spec.others p ++ (evs.filter UEvent.isPred ++ evs.filter (fun e => !e.isPred))) := by
          refine SPast.perm _ _ _ p _ (List.Perm.refl _) hperm ?_
          refine { inv := ⟨h.inv.ids, h.inv.nodup, h.inv.pred⟩, poss := h.poss, logs := ?_, link := ?_, late := hmin, atT := ?_, atH := ?_ }
          · intro n y hy
            have := h.logs n y hy x0 hxp
            rwa [hxT] at this
          · intro n
            obtain ⟨vs, a1, a2, a3⟩ := h.link n
            refine ⟨vs, a1, fun v hv => ?_, fun v hv e he => (a2 v hv e he).2, a3⟩
            have := (a2 v hv x0 hxp).1
            rwa [hxT] at this
          · intro e he a b
            refine ⟨?_, by simp⟩
            rcases List.mem_append.mp (hperm.mem_iff.mp he) with he | he
            · exact absurd b (hothers e he)
            · rcases List.mem_append.mp he with he | he
              · exact he
              · simp [a] at he
          · intro e he a b
            rcases List.mem_append.mp (hperm.mem_iff.mp he) with he | he
            · exact absurd b (hothers e he)
            · rcases List.mem_append.mp he with he | he
              · simp [a] at he
              · exact he
        obtain ⟨p1, hp1, hS1⟩ := spike_fold (I := SPast E s0 l0 inj T (evs.filter UEvent.isPred) (evs.filter (fun e => !e.isPred))) SPast.perm
          (fun st st' i n p D R l a b c d => SPast.spike hdel st st' i n p D R l a b c d) evs _ st1 _ [] _ hrep hT hS0 h1
        have hH1 := hS1.toH (by intro e he; simpa using he)
        obtain ⟨p2, hp2, hH2⟩ := hit_fold (I := HPast E s0 l0 inj T (evs.filter (fun e => !e.isPred))) HPast.perm (HPast.hit hdt) evs st1 st2 p1 [] hp1 hT hH1 h2
        exact ⟨p2, hp2, hH2.toB (by intro e he; simpa using he)⟩

end Axon
