import Verif.Proofs.Replay
import Mathlib.Algebra.BigOperators.Group.Finset.Basic
import Mathlib.Data.Finset.Basic

set_option linter.unusedSectionVars false
namespace Axon
open Spec
variable {K : Type*} [Field K] [LinearOrder K] [FloorRing K]

/-! ## Volleys -/

theorem bump_comm (s : NState K) (k k' : SynKind) (w w' : K) :
    (bump s k w).bind (fun s => bump s k' w') = (bump s k' w').bind (fun s => bump s k w) := by
  cases k <;> cases k' <;> simp [bump, add_right_comm]

theorem bumps_perm {l l' : List (SynKind × K)} (h : l.Perm l') : ∀ s : NState K, bumps s l = bumps s l' := by
  induction h with
  | nil => intro s; rfl
  | cons x _ ih => intro s; simp only [bumps, ih]
  | swap x y l =>
    intro s
    simp only [bumps]
    have := bump_comm s y.1 x.1 y.2 x.2
    have h2 : ∀ (a b : SynKind × K), (bump s a.1 a.2).bind (fun s' => (bump s' b.1 b.2).bind (fun s'' => bumps s'' l)) =
        ((bump s a.1 a.2).bind (fun s' => bump s' b.1 b.2)).bind (fun s'' => bumps s'' l) := by
      intro a b; rw [Option.bind_assoc]
    rw [h2, h2, this]
  | trans _ _ ih1 ih2 => intro s; rw [ih1, ih2]

/-- What a neuron that has announced a spike for `o` does next. -/
def RestOf (E : PEnv K) (n : ℕ) (s : NState K) (l : K) (o : Option K) (ws : List (Volley K)) (L : List K) : Prop :=
  match o with
  | none => Reacts E n s l ws L
  | some x => ((∀ v ∈ ws.head?, x ≤ v.time) ∧ ∃ L', L = x :: L' ∧ Reacts E n ⟨(E.net.par n).Vreset, 0, 0, 0⟩ l ws L') ∨
      ((∃ v ∈ ws.head?, v.time < x) ∧ Reacts E n s l ws L)

theorem reacts_cons {E : PEnv K} {n : ℕ} {s l v vs L} (h : Reacts E n s l (v :: vs) L) :
    ∃ s' r, bumps (if v.time = l then s else pass E.exp (E.net.par n) s (v.time - l)) v.hits = some s' ∧
      predictSteps E.exp (E.net.par n) s' E.dt = .ok r ∧
      RestOf E n s' v.time (r.map (fun m : ℤ => v.time + (m : K) * E.dt)) vs L := by
  cases h with
  | @quiet _ _ _ _ _ s' r h1 h2 h3 h4 =>
    refine ⟨s', r, h1, h2, ?_⟩
    cases r with
    | none => exact h4
    | some m => exact .inr ⟨h3 m rfl, h4⟩
  | @fires _ _ _ _ _ s' m h1 h2 h3 h4 => exact ⟨s', some m, h1, h2, .inl ⟨h3, _, rfl, h4⟩⟩

theorem reacts_of {E : PEnv K} {n : ℕ} {s l v vs L s' r}
    (h1 : bumps (if v.time = l then s else pass E.exp (E.net.par n) s (v.time - l)) v.hits = some s')
    (h2 : predictSteps E.exp (E.net.par n) s' E.dt = .ok r)
    (h3 : RestOf E n s' v.time (r.map (fun m : ℤ => v.time + (m : K) * E.dt)) vs L) : Reacts E n s l (v :: vs) L := by
  cases r with
  | none => exact .quiet h1 h2 (by simp) h3
  | some m =>
    rcases h3 with ⟨h3, L', rfl, h4⟩ | ⟨h3, h4⟩
    · exact .fires h1 h2 h3 h4
    · exact .quiet h1 h2 (by rintro _ ⟨⟩; exact h3) h4

/-- The order of the hits within a volley does not matter. -/
theorem reacts_perm {E : PEnv K} {n : ℕ} {s l T hs hs' vs L} (hp : hs.Perm hs') (h : Reacts E n s l (⟨T, hs⟩ :: vs) L) :
    Reacts E n s l (⟨T, hs'⟩ :: vs) L := by
  obtain ⟨s', r, h1, h2, h3⟩ := reacts_cons h
  exact reacts_of (v := ⟨T, hs'⟩) (by rw [← bumps_perm hp]; exact h1) h2 h3

section
variable [IsStrictOrderedRing K]

/-- Spikes come after volleys. -/
theorem reacts_after {E : PEnv K} (hdt : 0 < E.dt) {n : ℕ} {s l vs L} (h : Reacts E n s l vs L)
    (hs : (vs.map Volley.time).Pairwise (· < ·)) : ∀ x ∈ L, ∃ v ∈ vs.head?, v.time ≤ x := by
  induction h with
  | done => intro x hx; simp at hx
  | @quiet s l v vs L s' r h1 h2 h3 h4 ih =>
    intro x hx
    rw [List.map_cons, List.pairwise_cons] at hs
    obtain ⟨v', hv', hx'⟩ := ih hs.2 x hx
    refine ⟨v, by simp, ?_⟩
    have : v' ∈ vs := by cases vs with | nil => simp at hv' | cons a b => simp at hv'; simp [hv']
    exact (hs.1 v'.time (List.mem_map_of_mem this)).le.trans hx'
  | @fires s l v vs L s' m h1 h2 h3 h4 ih =>
    intro x hx
    rw [List.map_cons, List.pairwise_cons] at hs
    refine ⟨v, by simp, ?_⟩
    rcases List.mem_cons.mp hx with rfl | hx
    · have h0 := predictSteps_nonneg hdt h2
      have : (0 : K) ≤ (m : K) * E.dt := mul_nonneg (by exact_mod_cast h0) hdt.le
      linarith
    · obtain ⟨v', hv', hx'⟩ := ih hs.2 x hx
      have : v' ∈ vs := by cases vs with | nil => simp at hv' | cons a b => simp at hv'; simp [hv']
      exact (hs.1 v'.time (List.mem_map_of_mem this)).le.trans hx'

theorem rest_after {E : PEnv K} (hdt : 0 < E.dt) {n : ℕ} {s l o vs L} (h : RestOf E n s l o vs L)
    (hs : (vs.map Volley.time).Pairwise (· < ·)) : ∀ x ∈ L, (∃ y ∈ o, y ≤ x) ∨ ∃ v ∈ vs.head?, v.time ≤ x := by
  intro x hx
  cases o with
  | none => exact .inr (reacts_after hdt h hs x hx)
  | some y =>
    rcases h with ⟨h1, L', rfl, h2⟩ | ⟨-, h2⟩
    · rcases List.mem_cons.mp hx with rfl | hx
      · exact .inl ⟨x, rfl, le_rfl⟩
      · exact .inr (reacts_after hdt h2 hs x hx)
    · exact .inr (reacts_after hdt h2 hs x hx)
end

/-! ## Hits at the time of the batch and others -/

/-- The hits on `n` at time `T`. -/
def hitsAt (n : ℕ) (T : K) (es : List (UEvent K)) : List (SynKind × K) :=
  es.filterMap (fun e => match e.payload with
    | .hit m k w => if m = n ∧ e.time = T then some (k, w) else none
    | _ => none)

/-- The hits on `n` at other times. -/
def hitsNot (n : ℕ) (T : K) (es : List (UEvent K)) : List (Item K) :=
  es.filterMap (fun e => match e.payload with
    | .hit m k w => if m = n ∧ e.time ≠ T then some (.hit e.time k w) else none
    | _ => none)

theorem hitsE_split (n : ℕ) (T : K) (es : List (UEvent K)) :
    (hitsE n es).Perm ((hitsAt n T es).map (fun x => Item.hit T x.1 x.2) ++ hitsNot n T es) := by
  induction es with
  | nil => exact List.Perm.refl _
  | cons e es ih =>
    obtain ⟨i, t, pl⟩ := e
    cases pl with
    | predicted m => simpa [hitsE, hitsAt, hitsNot] using ih
    | hit m k w =>
      by_cases hm : m = n
      · by_cases ht : t = T
        · subst hm ht
          simpa [hitsE, hitsAt, hitsNot] using ih
        · subst hm
          simp only [hitsE, hitsAt, hitsNot, List.filterMap_cons, ht, if_true, and_false, if_false, ne_eq, not_false_eq_true, and_true] at ih ⊢
          exact (ih.cons _).trans List.perm_middle.symm
      · simpa [hitsE, hitsAt, hitsNot, hm] using ih

theorem hitsNot_append (n : ℕ) (T : K) (a b : List (UEvent K)) : hitsNot n T (a ++ b) = hitsNot n T a ++ hitsNot n T b := by
  simp [hitsNot, List.filterMap_append]

theorem hitsAt_append (n : ℕ) (T : K) (a b : List (UEvent K)) : hitsAt n T (a ++ b) = hitsAt n T a ++ hitsAt n T b := by
  simp [hitsAt, List.filterMap_append]

/-- Hits caused by spikes that are still to come. -/
theorem arrivals_future (net : Net K) (L L' : ℕ → List K) (T : K) (m n i : ℕ)
    (h : ∀ a, L a = (if a = m then [T] else []) ++ L' a) :
    (arriving net [] L n).Perm (hitsE n (hitsOf T i (net.out m)) ++ arriving net [] L' n) := by
  rw [hitsE_out]
  unfold arriving
  simp only [List.filter_nil, List.map_nil, List.nil_append]
  have : ∀ ss : List (Synapse K), (ss.flatMap (fun s => (L s.pre).map (fun t => Item.hit (t + s.delay) s.kind s.weight))).Perm
      (ss.flatMap (fun s => if s.pre = m then [Item.hit (T + s.delay) s.kind s.weight] else []) ++
      ss.flatMap (fun s => (L' s.pre).map (fun t => Item.hit (t + s.delay) s.kind s.weight))) := by
    intro ss
    refine List.Perm.trans (List.Perm.of_eq ?_) (List.flatMap_append_perm _ _ _).symm
    refine List.flatMap_congr fun s _ => ?_
    rw [h]
    by_cases hs : s.pre = m <;> simp [hs]
  exact this _

/-! ## The invariant -/

/-- The spikes of the candidate behaviour that the engine has not logged yet. -/
def todo (LS : ℕ → List K) (st : PSim K) (n : ℕ) : List K := (LS n).drop (logOf st n).length

/-- At the top of the loop. -/
structure Bdry (E : PEnv K) (LS : ℕ → List K) (st : PSim K) (U : List (UEvent K)) : Prop where
  inv : PInv st U
  poss : ∀ n e, st.poss n = some (some e) → e ∈ U ∧ e.payload = .predicted n
  pre : ∀ n, LS n = logOf st n ++ todo LS st n
  link : ∀ n, ∃ ws : List (Volley K), (ws.map Volley.time).Pairwise (· < ·) ∧ (∀ v ∈ ws, v.hits ≠ []) ∧
    (ws.flatMap Volley.items).Perm (hitsE n U ++ arriving E.net [] (todo LS st) n) ∧
    RestOf E n (st.nst n) (st.last n) (announced (st.poss n)) ws (todo LS st n)

/-- While the spikes of a batch at `T` (the predictions in `B`) are handled. -/
structure SInv (E : PEnv K) (LS : ℕ → List K) (T : K) (B B' : List (UEvent K)) (st : PSim K) (D U : List (UEvent K)) : Prop
    extends Bdry E LS st U where
  late : ∀ e ∈ U, T ≤ e.time
  ahead : ∀ n, ∀ x ∈ todo LS st n, T ≤ x
  atT : ∀ e ∈ U, e.isPred = true → e.time = T → e ∈ B ∧ e ∉ D
  atH : ∀ e ∈ U, e.isPred = false → e.time = T → e ∈ B'

/-- While the hits of a batch at `T` (those in `B`) are handled. -/
structure HInv (E : PEnv K) (LS : ℕ → List K) (T : K) (B : List (UEvent K)) (st : PSim K) (D U : List (UEvent K)) : Prop where
  inv : PInv st U
  poss : ∀ n e, st.poss n = some (some e) → e ∈ U ∧ e.payload = .predicted n
  pre : ∀ n, LS n = logOf st n ++ todo LS st n
  atT : ∀ e ∈ U, e.isPred = false → e.time = T → e ∈ B ∧ e ∉ D
  link : ∀ n, ∃ ws : List (Volley K), (ws.map Volley.time).Pairwise (· < ·) ∧ (∀ v ∈ ws, v.hits ≠ []) ∧ (∀ v ∈ ws, T < v.time) ∧
    (ws.flatMap Volley.items).Perm (hitsNot n T U ++ arriving E.net [] (todo LS st) n) ∧
    (if hitsAt n T U = [] then RestOf E n (st.nst n) (st.last n) (announced (st.poss n)) ws (todo LS st n)
      else Reacts E n (st.nst n) (st.last n) (⟨T, hitsAt n T U⟩ :: ws) (todo LS st n))

theorem arrivals_late {net : Net K} [IsStrictOrderedRing K] {L : ℕ → List K} {T : K} (hdel : ∀ s ∈ net.syns, 0 < s.delay)
    (h : ∀ n, ∀ x ∈ L n, T ≤ x) {n : ℕ} {i : Item K} (hi : i ∈ arriving net [] L n) : T < i.time := by
  unfold arriving at hi
  simp only [List.filter_nil, List.map_nil, List.nil_append, List.mem_flatMap, List.mem_map] at hi
  obtain ⟨s, hs, t, ht, rfl⟩ := hi
  have h1 := hdel s (List.mem_of_mem_filter hs)
  have h2 := h _ t ht
  simp only [Item.time]; linarith

theorem mem_hitsE {n : ℕ} {es : List (UEvent K)} {i : Item K} (h : i ∈ hitsE n es) : ∃ e ∈ es, e.time = i.time ∧ e.isPred = false := by
  unfold hitsE at h
  rw [List.mem_filterMap] at h
  obtain ⟨e, he, h⟩ := h
  refine ⟨e, he, ?_⟩
  obtain ⟨j, t, pl⟩ := e
  cases pl with
  | predicted m => simp at h
  | hit m k w =>
    by_cases hm : m = n
    · simp [hm] at h; subst h; simp [Item.time, UEvent.isPred]
    · simp [hm] at h

/-- No spike of the candidate behaviour has been overlooked. -/
theorem Bdry.ahead [IsStrictOrderedRing K] {E : PEnv K} (hdt : 0 < E.dt) (hdel : ∀ s ∈ E.net.syns, 0 < s.delay) {LS : ℕ → List K}
    (hLS : ∀ n ∉ E.net.neurons, LS n = []) {st : PSim K} {U : List (UEvent K)} (h : Bdry E LS st U) {T : K} (hT : ∀ e ∈ U, T ≤ e.time) :
    ∀ n, ∀ x ∈ todo LS st n, T ≤ x := by
  intro n0 x0 hx0
  set all := E.net.neurons.flatMap (fun n => (todo LS st n)) with hall
  have hin : ∀ n, ∀ x ∈ todo LS st n, x ∈ all := by
    intro n x hx
    rw [hall, List.mem_flatMap]
    refine ⟨n, ?_, hx⟩
    by_contra hn
    rw [todo, hLS n hn] at hx; simp at hx
  obtain ⟨y, hy, hmin⟩ : ∃ y ∈ all, ∀ x ∈ all, y ≤ x := by
    obtain ⟨y, hy, hm⟩ := all.toFinset.exists_min_image id ⟨x0, by simpa using hin n0 x0 hx0⟩
    exact ⟨y, by simpa using hy, fun x hx => hm x (by simpa using hx)⟩
  refine le_trans ?_ (hmin x0 (hin n0 x0 hx0))
  rw [hall, List.mem_flatMap] at hy
  obtain ⟨m, -, hy⟩ := hy
  obtain ⟨ws, h1, h2, h3, h4⟩ := h.link m
  rcases rest_after hdt h4 h1 y hy with ⟨z, hz, hzy⟩ | ⟨v, hv, hvy⟩
  · refine le_trans ?_ hzy
    match ha : st.poss m with
    | none => rw [ha] at hz; simp [announced] at hz
    | some none => rw [ha] at hz; simp [announced] at hz
    | some (some e) =>
      rw [ha] at hz
      simp only [announced, Option.mem_def, Option.some.injEq] at hz
      rw [← hz]; exact hT e (h.poss m e ha).1
  · have hvw : v ∈ ws := by cases ws with | nil => simp at hv | cons a b => simp at hv; simp [hv]
    obtain ⟨x, hx⟩ := List.exists_mem_of_ne_nil _ (h2 v hvw)
    have hi : (Item.hit v.time x.1 x.2) ∈ ws.flatMap Volley.items :=
      List.mem_flatMap.mpr ⟨v, hvw, List.mem_map.mpr ⟨x, hx, rfl⟩⟩
    rcases List.mem_append.mp (h3.mem_iff.mp hi) with hi | hi
    · obtain ⟨e, he, ht, -⟩ := mem_hitsE hi
      exact (hT e he).trans (ht.le.trans hvy)
    · have := arrivals_late hdel (T := y) (fun n x hx => hmin x (hin n x hx)) hi
      simp only [Item.time] at this
      exact absurd this (not_lt.mpr hvy)

theorem SInv.perm {E : PEnv K} {LS : ℕ → List K} {T : K} {B B' : List (UEvent K)} (st : PSim K) (D D' U U' : List (UEvent K))
    (hD : D.Perm D') (hU : U.Perm U') (h : SInv E LS T B B' st D U) : SInv E LS T B B' st D' U' where
  inv := (pinv_induct E T).perm st D D' U U' hD hU h.inv
  poss n e he := ⟨hU.mem_iff.mp (h.poss n e he).1, (h.poss n e he).2⟩
  pre := h.pre
  link n := by
    obtain ⟨ws, h1, h2, h3, h4⟩ := h.link n
    exact ⟨ws, h1, h2, h3.trans ((hU.filterMap _).append_right _), h4⟩
  late e he := h.late e (hU.mem_iff.mpr he)
  ahead := h.ahead
  atT e he := fun a b => ⟨(h.atT e (hU.mem_iff.mpr he) a b).1, fun hd => (h.atT e (hU.mem_iff.mpr he) a b).2 (hD.mem_iff.mpr hd)⟩
  atH e he := h.atH e (hU.mem_iff.mpr he)

theorem SInv.spike [IsStrictOrderedRing K] {E : PEnv K} (hdel : ∀ s ∈ E.net.syns, 0 < s.delay) {LS : ℕ → List K} {T : K}
    {B B' : List (UEvent K)} (st st' : PSim K) (i n : ℕ) (p D R : List (UEvent K)) (l : List K) (hp : CRep E.H st.queue p)
    (h : SInv E LS T B B' st D (⟨i, T, .predicted n⟩ :: (p ++ R))) (hl : st.spikeLog n = some l)
    (hst : st' = { st with
          queue := st'.queue
          nextId := st.nextId + (E.net.out n).length
          nst := Function.update st.nst n (NState.reset (E.net.par n))
          poss := Function.update st.poss n (some none)
          spikeLog := Function.update st.spikeLog n (some (l ++ [T])) }) :
    SInv E LS T B B' st' (⟨i, T, .predicted n⟩ :: D) ((p ++ hitsOf T st.nextId (E.net.out n)) ++ R) := by
  have hinv := (pinv_induct E T).spike st st' i n p D R l hp h.inv hl hst
  have hpn := h.inv.pred ⟨i, T, .predicted n⟩ (by simp) n rfl
  have hlog : ∀ a, logOf st' a = logOf st a ++ if a = n then [T] else [] := by
    intro a
    rw [hst]
    by_cases ha : a = n
    · subst ha; simp [logOf, hl]
    · simp [logOf, ha]
  -- the candidate behaviour spikes here too
  have hfire : ∃ L', todo LS st n = T :: L' ∧ ∃ ws : List (Volley K), (ws.map Volley.time).Pairwise (· < ·) ∧ (∀ v ∈ ws, v.hits ≠ []) ∧
      (ws.flatMap Volley.items).Perm (hitsE n (⟨i, T, .predicted n⟩ :: (p ++ R)) ++ arriving E.net [] (todo LS st) n) ∧
      Reacts E n ⟨(E.net.par n).Vreset, 0, 0, 0⟩ (st.last n) ws L' := by
    obtain ⟨ws, h1, h2, h3, h4⟩ := h.link n
    rw [hpn] at h4
    rcases h4 with ⟨-, L', e, h5⟩ | ⟨⟨v, hv, hlt⟩, -⟩
    · exact ⟨L', e, ws, h1, h2, h3, h5⟩
    · exfalso
      have hvw : v ∈ ws := by cases ws with | nil => simp at hv | cons a b => simp at hv; simp [hv]
      obtain ⟨x, hx⟩ := List.exists_mem_of_ne_nil _ (h2 v hvw)
      have hi : (Item.hit v.time x.1 x.2) ∈ ws.flatMap Volley.items :=
        List.mem_flatMap.mpr ⟨v, hvw, List.mem_map.mpr ⟨x, hx, rfl⟩⟩
      rcases List.mem_append.mp (h3.mem_iff.mp hi) with hi | hi
      · obtain ⟨e, he, ht, -⟩ := mem_hitsE hi
        have := h.late e he
        simp only [Item.time] at ht
        rw [ht] at this
        exact absurd hlt (not_lt.mpr this)
      · have := arrivals_late hdel h.ahead hi
        simp only [Item.time] at this
        exact absurd hlt (not_lt.mpr this.le)
  obtain ⟨L', hL', hws⟩ := hfire
  have htodo : ∀ a, todo LS st a = (if a = n then [T] else []) ++ todo LS st' a := by
    intro a
    by_cases ha : a = n
    · subst ha
      have e1 : todo LS st' a = L' := by
        have : todo LS st' a = (todo LS st a).drop 1 := by
          unfold todo; rw [hlog, List.drop_drop]; simp
        rw [this, hL']; rfl
      rw [e1, hL']; simp
    · have : todo LS st' a = todo LS st a := by unfold todo; rw [hlog]; simp [ha]
      rw [this]; simp [ha]
  have hperm : ∀ m, (hitsE m (⟨i, T, .predicted n⟩ :: (p ++ R)) ++ arriving E.net [] (todo LS st) m).Perm
      (hitsE m ((p ++ hitsOf T st.nextId (E.net.out n)) ++ R) ++ arriving E.net [] (todo LS st') m) := by
    intro m
    have e2 : ∀ x, hitsE m (⟨i, T, .predicted n⟩ :: x) = hitsE m x := fun _ => rfl
    rw [e2]
    refine ((arrivals_future E.net (todo LS st) (todo LS st') T n m st.nextId htodo).append_left _).trans ?_
    simp only [hitsE_append]
    rw [← List.append_assoc, List.append_assoc (hitsE m p), List.append_assoc (hitsE m p) _ (hitsE m R)]
    exact ((List.perm_append_comm).append_left _).append_right _
  refine { inv := hinv, poss := ?_, pre := ?_, link := ?_, late := ?_, ahead := ?_, atT := ?_, atH := ?_ }
  · intro m e he
    rw [hst] at he
    by_cases hm : m = n
    · subst hm; simp at he
    · simp only [ne_eq, hm, not_false_eq_true, Function.update_of_ne] at he
      obtain ⟨h1, h2⟩ := h.poss m e he
      refine ⟨?_, h2⟩
      rcases List.mem_cons.mp h1 with h1 | h1
      · subst h1; simp at h2; exact absurd h2.symm hm
      · rcases List.mem_append.mp h1 with h1 | h1 <;> simp [h1]
  · intro m
    rw [hlog, h.pre m, htodo m, List.append_assoc]
  · intro m
    by_cases hm : m = n
    · subst hm
      obtain ⟨ws, h1, h2, h3, h4⟩ := hws
      refine ⟨ws, h1, h2, h3.trans (hperm m), ?_⟩
      have e1 : todo LS st' m = L' := by
        have := htodo m; rw [hL'] at this; simpa using this.symm
      rw [e1, hst]
      simpa [announced, RestOf, NState.reset] using h4
    · obtain ⟨ws, h1, h2, h3, h4⟩ := h.link m
      refine ⟨ws, h1, h2, h3.trans (hperm m), ?_⟩
      have e1 : todo LS st' m = todo LS st m := by have := htodo m; simpa [hm] using this.symm
      rw [e1, hst]
      simpa [hm] using h4
  · intro e he
    simp only [List.mem_append] at he
    rcases he with (he | he) | he
    · exact h.late e (by simp [he])
    · obtain ⟨s, hs, ht, -⟩ := hitsOf_mem he
      have := hdel s (List.mem_of_mem_filter hs)
      rw [ht]; linarith
    · exact h.late e (by simp [he])
  · intro m x hx
    refine h.ahead m x ?_
    rw [htodo]; simp [hx]
  · intro e he hpr ht
    have hmem : e ∈ p ++ R := by
      simp only [List.mem_append] at he ⊢
      rcases he with (he | he) | he
      · exact .inl he
      · obtain ⟨_, _, _, hpl, _⟩ := hitsOf_mem he; simp [UEvent.isPred, hpl] at hpr
      · exact .inr he
    obtain ⟨h1, h2⟩ := h.atT e (List.mem_cons_of_mem _ hmem) hpr ht
    refine ⟨h1, fun hd => ?_⟩
    rcases List.mem_cons.mp hd with rfl | hd
    · exact (List.nodup_cons.mp h.inv.nodup).1 hmem
    · exact h2 hd
  · intro e he hnp ht
    simp only [List.mem_append] at he
    rcases he with (he | he) | he
    · exact h.atH e (by simp [he]) hnp ht
    · obtain ⟨s, hs, ht', -⟩ := hitsOf_mem he
      have := hdel s (List.mem_of_mem_filter hs)
      rw [ht'] at ht; linarith
    · exact h.atH e (by simp [he]) hnp ht

theorem HInv.perm {E : PEnv K} {LS : ℕ → List K} {T : K} {B : List (UEvent K)} (st : PSim K) (D D' U U' : List (UEvent K))
    (hD : D.Perm D') (hU : U.Perm U') (h : HInv E LS T B st D U) : HInv E LS T B st D' U' where
  inv := (pinv_induct E T).perm st D D' U U' hD hU h.inv
  poss n e he := ⟨hU.mem_iff.mp (h.poss n e he).1, (h.poss n e he).2⟩
  pre := h.pre
  atT e he := fun a b => ⟨(h.atT e (hU.mem_iff.mpr he) a b).1, fun hd => (h.atT e (hU.mem_iff.mpr he) a b).2 (hD.mem_iff.mpr hd)⟩
  link n := by
    obtain ⟨ws, h1, h2, h3, h4, h5⟩ := h.link n
    have hat : (hitsAt n T U).Perm (hitsAt n T U') := hU.filterMap _
    refine ⟨ws, h1, h2, h3, h4.trans ((hU.filterMap _).append_right _), ?_⟩
    by_cases hz : hitsAt n T U = []
    · rw [if_pos hz] at h5
      rw [if_pos (by rw [hz] at hat; exact hat.symm.eq_nil)]
      exact h5
    · rw [if_neg hz] at h5
      rw [if_neg (fun hh => hz (by rw [hh] at hat; exact hat.eq_nil))]
      exact reacts_perm hat h5

theorem HInv.hit {E : PEnv K} {LS : ℕ → List K} {T : K}
    {B : List (UEvent K)} (st st' : PSim K) (i n : ℕ) (k : SynKind) (w : K) (p D R : List (UEvent K)) (o : Option (UEvent K)) (s : NState K)
    (l : K) (r : Option ℤ) (c : ℕ) (hp : CRep E.H st.queue p) (hR : ∀ e ∈ R, e.isPred = false)
    (h : HInv E LS T B st D (⟨i, T, .hit n k w⟩ :: (p ++ R))) (ho : st.poss n = some o)
    (hr : receivePred E.exp (E.net.par n) (st.nst n) (st.last n) k w T = .ok (s, l))
    (hpr : predictSteps E.exp (E.net.par n) s E.dt = .ok r) (hc : st.cnt k = some c)
    (hst : st' = { st with
          queue := st'.queue
          nextId := st.nextId + (predEv E st.nextId T n r).toList.length
          nst := Function.update st.nst n s
          last := Function.update st.last n l
          poss := Function.update st.poss n (some (predEv E st.nextId T n r))
          cnt := Function.update st.cnt k (some (c + 1)) }) :
    HInv E LS T B st' (⟨i, T, .hit n k w⟩ :: D) (((o.elim p p.erase) ++ (predEv E st.nextId T n r).toList) ++ R) := by
  have hinv := (pinv_induct E T).hit st st' i n k w p D R o s l r c hp hR h.inv ho hr hpr hc hst
  obtain ⟨hb, rfl⟩ := receivePred_bump hr
  have hsub : ∀ e, e ∈ o.elim p p.erase → e ∈ p := by
    intro e he; cases o with
    | none => exact he
    | some x => exact List.mem_of_mem_erase he
  have hpl : ∀ x, o = some x → x.payload = .predicted n := fun x hx => (h.poss n x (by rw [ho, hx])).2
  have hfn : logOf st' = logOf st := by funext a; rw [hst]; rfl
  have htd : todo LS st' = todo LS st := by funext a; unfold todo; rw [hfn]
  -- cancelling predictions does not change the hits
  have hel : ∀ {β : Type _} (f : UEvent K → Option β), (∀ e, e.isPred = true → f e = none) →
      ((((o.elim p p.erase) ++ (predEv E st.nextId l n r).toList) ++ R).filterMap f).Perm ((p ++ R).filterMap f) := by
    intro β f hf
    rw [List.filterMap_append, List.filterMap_append, List.filterMap_append]
    have e1 : (predEv E st.nextId l n r).toList.filterMap f = [] := by
      cases r with
      | none => rfl
      | some m =>
        have := hf ⟨st.nextId, l + (m : K) * E.dt, .predicted n⟩ rfl
        simp [predEv, this]
    rw [e1, List.append_nil]
    refine List.Perm.append_right _ ?_
    cases o with
    | none => exact List.Perm.refl _
    | some x =>
      have hx := h.poss n x ho
      have hxp : x ∈ p := by
        rcases List.mem_cons.mp hx.1 with h1 | h1
        · rw [h1] at hx; simp at hx
        · rcases List.mem_append.mp h1 with h1 | h1
          · exact h1
          · have := hR x h1; simp [UEvent.isPred, hx.2] at this
      have hpe := (List.perm_cons_erase hxp).filterMap f
      rw [List.filterMap_cons, hf x (by simp [UEvent.isPred, hx.2])] at hpe
      exact hpe.symm
  have hat : ∀ m, (hitsAt m l (((o.elim p p.erase) ++ (predEv E st.nextId l n r).toList) ++ R)).Perm (hitsAt m l (p ++ R)) := by
    intro m
    refine hel _ ?_
    intro e he
    obtain ⟨j, t, pl⟩ := e
    cases pl with
    | predicted a => rfl
    | hit a b c => simp [UEvent.isPred] at he
  have hnot : ∀ m, (hitsNot m l (((o.elim p p.erase) ++ (predEv E st.nextId l n r).toList) ++ R)).Perm (hitsNot m l (p ++ R)) := by
    intro m
    refine hel _ ?_
    intro e he
    obtain ⟨j, t, pl⟩ := e
    cases pl with
    | predicted a => rfl
    | hit a b c => simp [UEvent.isPred] at he
  refine { inv := hinv, poss := ?_, pre := ?_, atT := ?_, link := ?_ }
  · intro m e he
    rw [hst] at he
    by_cases hm : m = n
    · subst hm
      simp only [Function.update_self, Option.some.injEq] at he
      rw [he]
      refine ⟨by simp, ?_⟩
      obtain ⟨_, _, rfl⟩ := predEv_mem (e := e) (E := E) (i := st.nextId) (t := l) (n := m) (r := r) (by rw [he]; simp)
      rfl
    · simp only [ne_eq, hm, not_false_eq_true, Function.update_of_ne] at he
      obtain ⟨h1, h2⟩ := h.poss m e he
      refine ⟨?_, h2⟩
      rcases List.mem_cons.mp h1 with h1 | h1
      · subst h1; simp at h2
      · rcases List.mem_append.mp h1 with h1 | h1
        · have : e ∈ o.elim p p.erase := by
            cases o with
            | none => exact h1
            | some x =>
              refine (List.mem_erase_of_ne ?_).mpr h1
              rintro rfl
              have := hpl e rfl
              rw [h2] at this; simp at this; exact hm this
          simp [this]
        · simp [h1]
  · intro m; rw [htd, hfn]; exact h.pre m
  · intro e he hnp ht
    have hmem : e ∈ p ++ R := by
      simp only [List.mem_append] at he ⊢
      rcases he with (he | he) | he
      · exact .inl (hsub e he)
      · obtain ⟨_, _, rfl⟩ := predEv_mem he; simp [UEvent.isPred] at hnp
      · exact .inr he
    obtain ⟨h1, h2⟩ := h.atT e (List.mem_cons_of_mem _ hmem) hnp ht
    refine ⟨h1, fun hd => ?_⟩
    rcases List.mem_cons.mp hd with rfl | hd
    · exact (List.nodup_cons.mp h.inv.nodup).1 hmem
    · exact h2 hd
  · intro m
    obtain ⟨ws, h1, h2, h3, h4, h5⟩ := h.link m
    have en : hitsNot m l (⟨i, l, .hit n k w⟩ :: (p ++ R)) = hitsNot m l (p ++ R) := by simp [hitsNot]
    refine ⟨ws, h1, h2, h3, ?_, ?_⟩
    · rw [htd]
      rw [en] at h4
      exact h4.trans ((hnot m).symm.append_right _)
    · by_cases hm : m = n
      · subst hm
        have ea : hitsAt m l (⟨i, l, .hit m k w⟩ :: (p ++ R)) = (k, w) :: hitsAt m l (p ++ R) := by simp [hitsAt]
        rw [ea, if_neg (by simp)] at h5
        obtain ⟨s', r', c1, c2, c3⟩ := reacts_cons h5
        simp only [bumps] at c1
        rw [hb, Option.bind_some] at c1
        have f1 : st'.nst m = s ∧ st'.last m = l ∧ st'.poss m = some (predEv E st.nextId l m r) := by rw [hst]; simp
        rw [htd, f1.1, f1.2.1, f1.2.2]
        by_cases hz : hitsAt m l (p ++ R) = []
        · rw [hz] at c1
          simp only [bumps, Option.some.injEq] at c1
          subst c1
          rw [hpr] at c2
          simp only [Except.ok.injEq] at c2
          subst c2
          rw [if_pos (by have := hat m; rw [hz] at this; exact this.eq_nil)]
          cases r with
          | none => exact c3
          | some a => exact c3
        · rw [if_neg (fun hh => hz (by have := hat m; rw [hh] at this; exact this.symm.eq_nil))]
          refine reacts_perm (hat m).symm ?_
          exact reacts_of (v := ⟨l, hitsAt m l (p ++ R)⟩) (by simpa using c1) c2 c3
      · have ea : hitsAt m l (⟨i, l, .hit n k w⟩ :: (p ++ R)) = hitsAt m l (p ++ R) := by simp [hitsAt, Ne.symm hm]
        rw [ea] at h5
        have f1 : st'.nst m = st.nst m ∧ st'.last m = st.last m ∧ st'.poss m = st.poss m := by rw [hst]; simp [hm]
        rw [htd, f1.1, f1.2.1, f1.2.2]
        by_cases hz : hitsAt m l (p ++ R) = []
        · rw [if_pos hz] at h5
          rw [if_pos (by have := hat m; rw [hz] at this; exact this.eq_nil)]
          exact h5
        · rw [if_neg hz] at h5
          rw [if_neg (fun hh => hz (by have := hat m; rw [hh] at this; exact this.symm.eq_nil))]
          exact reacts_perm (hat m).symm h5

/-- From the spikes of a batch to its hits. -/
theorem SInv.toH [IsStrictOrderedRing K] {E : PEnv K} (hdel : ∀ s ∈ E.net.syns, 0 < s.delay) {LS : ℕ → List K} {T : K}
    {B B' D U : List (UEvent K)} {st : PSim K} (h : SInv E LS T B B' st D U) (hBD : ∀ e ∈ B, e ∈ D) : HInv E LS T B' st [] U where
  inv := h.inv
  poss := h.poss
  pre := h.pre
  atT e he a b := ⟨h.atH e he a b, by simp⟩
  link n := by
    obtain ⟨ws, h1, h2, h3, h4⟩ := h.link n
    have hge : ∀ v ∈ ws, T ≤ v.time := by
      intro v hvw
      obtain ⟨x, hx⟩ := List.exists_mem_of_ne_nil _ (h2 v hvw)
      have hi : (Item.hit v.time x.1 x.2) ∈ ws.flatMap Volley.items :=
        List.mem_flatMap.mpr ⟨v, hvw, List.mem_map.mpr ⟨x, hx, rfl⟩⟩
      rcases List.mem_append.mp (h3.mem_iff.mp hi) with hi | hi
      · obtain ⟨e, he, ht, -⟩ := mem_hitsE hi
        have := h.late e he
        rw [ht] at this; exact this
      · exact (arrivals_late hdel h.ahead hi).le
    -- nothing announced for `T` is left
    have hann : ∀ x ∈ announced (st.poss n), T < x := by
      intro x hx
      match ha : st.poss n with
      | none => rw [ha] at hx; simp [announced] at hx
      | some none => rw [ha] at hx; simp [announced] at hx
      | some (some e) =>
        rw [ha] at hx
        simp only [announced, Option.mem_def, Option.some.injEq] at hx
        obtain ⟨g1, g2⟩ := h.poss n e ha
        rw [← hx]
        refine lt_of_le_of_ne (h.late e g1) fun hh => ?_
        have := h.atT e g1 (by simp [UEvent.isPred, g2]) hh.symm
        exact this.2 (hBD e this.1)
    -- the hits at `T`
    let atI : Item K → Option (SynKind × K) := fun i => match i with | .hit t k w => if t = T then some (k, w) else none | _ => none
    let notI : Item K → Bool := fun i => decide (i.time ≠ T)
    have ha1 : ∀ es : List (UEvent K), (hitsE n es).filterMap atI = hitsAt n T es := by
      intro es
      unfold hitsE hitsAt
      rw [List.filterMap_filterMap]
      congr 1
      funext e
      obtain ⟨j, t, pl⟩ := e
      cases pl with
      | predicted a => rfl
      | hit a b c => by_cases ha : a = n <;> by_cases ht : t = T <;> simp [ha, ht, atI]
    have hn1 : ∀ es : List (UEvent K), (hitsE n es).filter notI = hitsNot n T es := by
      intro es
      unfold hitsE hitsNot
      rw [List.filter_filterMap]
      congr 1
      funext e
      obtain ⟨j, t, pl⟩ := e
      cases pl with
      | predicted a => rfl
      | hit a b c => by_cases ha : a = n <;> by_cases ht : t = T <;> simp [ha, ht, notI, Item.time]
    have ha2 : (arriving E.net [] (todo LS st) n).filterMap atI = [] := by
      rw [List.filterMap_eq_nil_iff]
      intro i hi
      have := arrivals_late hdel h.ahead hi
      cases i with
      | hit t k w => simp only [Item.time] at this; simp [atI, this.ne']
      | spike t => rfl
    have hn2 : (arriving E.net [] (todo LS st) n).filter notI = arriving E.net [] (todo LS st) n := by
      rw [List.filter_eq_self]
      intro i hi
      have := arrivals_late hdel h.ahead hi
      simp [notI, this.ne']
    have hA := h3.filterMap atI
    rw [List.filterMap_append, ha1, ha2, List.append_nil] at hA
    have hN := h3.filter notI
    rw [List.filter_append, hn1, hn2] at hN
    have hlater : ∀ vs : List (Volley K), (∀ v ∈ vs, T < v.time) → (vs.flatMap Volley.items).filterMap atI = [] ∧
        (vs.flatMap Volley.items).filter notI = vs.flatMap Volley.items := by
      intro vs hvs
      refine ⟨?_, ?_⟩
      · rw [List.filterMap_eq_nil_iff]
        intro i hi
        obtain ⟨v, hv, hi⟩ := List.mem_flatMap.mp hi
        obtain ⟨x, -, rfl⟩ := List.mem_map.mp hi
        simp [atI, (hvs v hv).ne']
      · rw [List.filter_eq_self]
        intro i hi
        obtain ⟨v, hv, hi⟩ := List.mem_flatMap.mp hi
        obtain ⟨x, -, rfl⟩ := List.mem_map.mp hi
        simp [notI, Item.time, (hvs v hv).ne']
    by_cases hT : ∃ hs ws', ws = ⟨T, hs⟩ :: ws'
    · obtain ⟨hs, ws', rfl⟩ := hT
      rw [List.map_cons, List.pairwise_cons] at h1
      have hgt : ∀ v ∈ ws', T < v.time := fun v hv => h1.1 v.time (List.mem_map_of_mem hv)
      have hi1 : (Volley.items ⟨T, hs⟩).filterMap atI = hs := by
        unfold Volley.items
        rw [List.filterMap_map]
        have : (atI ∘ fun x : SynKind × K => Item.hit T x.1 x.2) = some := by funext x; simp [atI]
        rw [this, List.filterMap_some]
      have hi2 : (Volley.items ⟨T, hs⟩).filter notI = [] := by
        rw [List.filter_eq_nil_iff]
        intro i hi
        obtain ⟨x, -, rfl⟩ := List.mem_map.mp hi
        simp [notI, Item.time]
      rw [List.flatMap_cons, List.filterMap_append, hi1, (hlater ws' hgt).1, List.append_nil] at hA
      rw [List.flatMap_cons, List.filter_append, hi2, (hlater ws' hgt).2, List.nil_append] at hN
      have hne : hs ≠ [] := h2 _ (List.mem_cons_self)
      refine ⟨ws', h1.2, fun v hv => h2 v (List.mem_cons_of_mem _ hv), hgt, hN, ?_⟩
      rw [if_neg (fun hh => hne (by rw [hh] at hA; exact hA.eq_nil))]
      refine reacts_perm hA ?_
      revert h4 hann
      generalize announced (st.poss n) = o
      intro hann h4
      cases o with
      | none => exact h4
      | some x =>
        rcases h4 with ⟨h4, -⟩ | ⟨-, h4⟩
        · exact absurd (h4 ⟨T, hs⟩ (by simp)) (not_le.mpr (hann x rfl))
        · exact h4
    · have hgt : ∀ v ∈ ws, T < v.time := by
        cases ws with
        | nil => simp
        | cons v0 ws' =>
          have h0 : T < v0.time := lt_of_le_of_ne (hge v0 (by simp)) fun hh => hT ⟨v0.hits, ws', by cases v0; simp at hh; simp [hh]⟩
          rw [List.map_cons, List.pairwise_cons] at h1
          intro v hv
          rcases List.mem_cons.mp hv with rfl | hv
          · exact h0
          · exact h0.trans (h1.1 v.time (List.mem_map_of_mem hv))
      rw [(hlater ws hgt).1] at hA
      rw [(hlater ws hgt).2] at hN
      refine ⟨ws, h1, h2, hgt, hN, ?_⟩
      rw [if_pos hA.symm.eq_nil]
      exact h4

/-- After the hits of a batch. -/
theorem HInv.toB {E : PEnv K} {LS : ℕ → List K} {T : K} {B D U : List (UEvent K)} {st : PSim K} (h : HInv E LS T B st D U)
    (hBD : ∀ e ∈ B, e ∈ D) : Bdry E LS st U where
  inv := h.inv
  poss := h.poss
  pre := h.pre
  link n := by
    have hno : ∀ e ∈ U, e.isPred = false → e.time ≠ T := by
      intro e he a b
      have := h.atT e he a b
      exact this.2 (hBD e this.1)
    have hz : hitsAt n T U = [] := by
      unfold hitsAt
      rw [List.filterMap_eq_nil_iff]
      intro e he
      have := hno e he
      obtain ⟨j, t, pl⟩ := e
      cases pl with
      | predicted a => rfl
      | hit a b c => simp [this rfl]
    obtain ⟨ws, h1, h2, h3, h4, h5⟩ := h.link n
    rw [if_pos hz] at h5
    refine ⟨ws, h1, h2, h4.trans (List.Perm.append_right _ ?_), h5⟩
    have := hitsE_split n T U
    rw [hz] at this
    simpa using this.symm

/-- One iteration of the loop. -/
theorem Bdry.iter [IsStrictOrderedRing K] {E : PEnv K} (hdt : 0 < E.dt) (hdel : ∀ s ∈ E.net.syns, 0 < s.delay) {LS : ℕ → List K}
    (hLS : ∀ n ∉ E.net.neurons, LS n = []) {st st' : PSim K} {p evs : List (UEvent K)} (hp : CRep E.H st.queue p)
    (h : Bdry E LS st p) (hpe : p ≠ []) (hi : st.iter E = .ok (evs, st')) : ∃ p', CRep E.H st'.queue p' ∧ Bdry E LS st' p' := by
  have hb := iter_batch hp hi
  obtain ⟨T, hT, hmin, hbne⟩ := batch_time hpe
  unfold PSim.iter at hi
  by_cases ht : st.queue.times = []
  · simp [CQueue.pop, ht] at hi
  · obtain ⟨q', hq', hrep⟩ := hp.pop ht
    rw [hq'] at hi
    simp only at hi
    rw [← hb] at hi hT
    split at hi
    · cases hi
    next st1 h1 =>
      split at hi
      · cases hi
      next st2 h2 =>
        simp only [Except.ok.injEq, Prod.mk.injEq] at hi
        obtain ⟨-, rfl⟩ := hi
        have hperm : p.Perm (Spec.others p ++ (evs.filter UEvent.isPred ++ evs.filter (fun e => !e.isPred))) := by
          refine (batch_perm p).symm.trans (List.Perm.append_left _ ?_)
          rw [← hb]; exact (filter_isPred_perm evs).symm
        have hothers : ∀ e ∈ Spec.others p, e.time ≠ T := by
          intro e he hh
          simp only [Spec.others, List.mem_filter, decide_eq_true_eq] at he
          exact he.2 (fun x hx => hh ▸ hmin x hx)
        have hS0 : SInv E LS T (evs.filter UEvent.isPred) (evs.filter (fun e => !e.isPred)) { st with queue := q' } []
            (Spec.others p ++ (evs.filter UEvent.isPred ++ evs.filter (fun e => !e.isPred))) := by
          refine SInv.perm _ _ _ p _ (List.Perm.refl _) hperm ?_
          refine { inv := ⟨h.inv.ids, h.inv.nodup, h.inv.pred⟩, poss := h.poss, pre := h.pre, link := h.link, late := hmin,
                   ahead := h.ahead hdt hdel hLS hmin, atT := ?_, atH := ?_ }
          · intro e he a b
            refine ⟨?_, by simp⟩
            rcases List.mem_append.mp (hperm.mem_iff.mp he) with he | he
            · exact absurd b (hothers e he)
            · rcases List.mem_append.mp he with he | he
              · exact he
              · simp [a] at he
          · intro e he a b
            rcases List.mem_append.mp (hperm.mem_iff.mp he) with he | he
            · exact absurd b (hothers e he)
            · rcases List.mem_append.mp he with he | he
              · simp [a] at he
              · exact he
        obtain ⟨p1, hp1, hS1⟩ := spike_fold (I := SInv E LS T (evs.filter UEvent.isPred) (evs.filter (fun e => !e.isPred))) SInv.perm
          (fun st st' i n p D R l a b c d => SInv.spike hdel st st' i n p D R l a b c d) evs _ st1 _ [] _ hrep hT hS0 h1
        have hH1 := hS1.toH hdel (by intro e he; simpa using he)
        obtain ⟨p2, hp2, hH2⟩ := hit_fold (I := HInv E LS T (evs.filter (fun e => !e.isPred))) HInv.perm HInv.hit evs st1 st2 p1 [] hp1 hT hH1 h2
        exact ⟨p2, hp2, hH2.toB (by intro e he; simpa using he)⟩

end Axon

namespace Axon
open Spec
variable {K : Type*} [Field K] [LinearOrder K] [FloorRing K]

/-! ## How many events there can be -/

/-- The number of pending hits. -/
def hitCount (U : List (UEvent K)) : ℕ := U.countP (fun e => !e.isPred)

/-- What the spikes logged so far account for. -/
def paid (E : PEnv K) (st : PSim K) : ℕ := ∑ n ∈ E.net.neurons.toFinset, (logOf st n).length * (1 + (E.net.out n).length)

theorem hitCount_hits (t : K) (ss : List (Synapse K)) : ∀ i, hitCount (hitsOf t i ss) = ss.length := by
  induction ss with
  | nil => intro i; rfl
  | cons s ss ih => intro i; have := ih (i + 1); simp only [hitCount, hitsOf, List.countP_cons, List.length_cons] at this ⊢; rw [this]; simp [UEvent.isPred]

theorem hitCount_append (a b : List (UEvent K)) : hitCount (a ++ b) = hitCount a + hitCount b := List.countP_append

theorem hitCount_pred (i : ℕ) (t : K) (n : ℕ) (U : List (UEvent K)) : hitCount (⟨i, t, .predicted n⟩ :: U) = hitCount U := by
  simp [hitCount, UEvent.isPred]

theorem hitCount_hit (i : ℕ) (t : K) (n : ℕ) (k w) (U : List (UEvent K)) : hitCount (⟨i, t, .hit n k w⟩ :: U) = hitCount U + 1 := by
  simp [hitCount, UEvent.isPred]

theorem budget_induct (E : PEnv K) (T : K) (C : ℕ) : PInduct E T
    (fun st D U => (∀ n, (st.spikeLog n).isSome → n ∈ E.net.neurons) ∧ hitCount U + D.length ≤ C + paid E st) where
  perm := by
    intro st D D' U U' hD hU h
    refine ⟨h.1, ?_⟩
    have h2 := h.2
    unfold hitCount at *
    rw [← hU.countP_eq, ← hD.length_eq]; exact h2
  queue := fun st q D U h => h
  spike := by
    intro st st' i n p D R l hp h hl hst
    have hn : n ∈ E.net.neurons := h.1 n (by rw [hl]; rfl)
    have hlog : ∀ a, (logOf st' a).length = (logOf st a).length + if a = n then 1 else 0 := by
      intro a
      rw [hst]
      by_cases ha : a = n
      · subst ha; simp [logOf, hl]
      · simp [logOf, ha]
    have hpaid : paid E st' = paid E st + (1 + (E.net.out n).length) := by
      unfold paid
      simp only [hlog, add_mul, Finset.sum_add_distrib]
      congr 1
      rw [Finset.sum_eq_single n]
      · simp
      · intro b _ hb; simp [hb]
      · intro hh; exact absurd (List.mem_toFinset.mpr hn) hh
    refine ⟨?_, ?_⟩
    · intro m hm
      rw [hst] at hm
      by_cases hmn : m = n
      · rw [hmn]; exact hn
      · exact h.1 m (by simpa [hmn] using hm)
    · have h2 := h.2
      have h3 := hitCount_hits T (E.net.out n) st.nextId
      rw [hpaid]
      rw [hitCount_pred, hitCount_append] at h2
      rw [hitCount_append, hitCount_append, h3, List.length_cons]
      omega
  hit := by
    intro st st' i n k w p D R o s l r c hp hR h ho hr hpr hc hst
    have hpaid : paid E st' = paid E st := by rw [hst]; rfl
    refine ⟨fun m hm => h.1 m (by rw [hst] at hm; exact hm), ?_⟩
    have h2 := h.2
    have he : hitCount (o.elim p p.erase) ≤ hitCount p := by
      cases o with
      | none => exact le_rfl
      | some x => exact (List.erase_sublist).countP_le
    have hpe : hitCount (predEv E st.nextId T n r).toList = 0 := by
      cases r with
      | none => rfl
      | some m => rfl
    rw [hpaid]
    rw [hitCount_hit, hitCount_append] at h2
    rw [hitCount_append, hitCount_append, hpe, List.length_cons]
    omega

/-- If the loop cannot go through more than `B` batches it ends. -/
theorem loop_ends {E : PEnv K} (hE : Runnable E.net) {st0 : PSim K} {B : ℕ} (hB : ∀ bs st, Steps E st0 bs st → bs.length ≤ B) :
    ∀ (fuel : ℕ) (bs) (st : PSim K) p, Steps E st0 bs st → B < fuel + bs.length → Keys E st → CRep E.H st.queue p →
      (∀ e ∈ p, GoodEv E.net e) → ∃ st', st.loop E fuel = some (.ok st') := by
  intro fuel
  induction fuel with
  | zero =>
    intro bs st p hs hf hk hp hg
    exact absurd (hB bs st hs) (by omega)
  | succ fuel ih =>
    intro bs st p hs hf hk hp hg
    unfold PSim.loop
    cases hl : st.queue.len with
    | error e => rw [hp.len] at hl; cases hl
    | ok m =>
      cases m with
      | zero => exact ⟨_, rfl⟩
      | succ m =>
        have hne := hp.ne_nil_of_len hl
        obtain ⟨b, st', hit, hk'⟩ := iter_ok hE hk hp hne hg
        obtain ⟨T, hT, -, -⟩ := batch_time hne
        obtain ⟨p', hp', hg'⟩ := (good_induct E hE T).iter (D := []) hp hT hg hit
        simp only [hit]
        refine ih (bs ++ [b]) st' p' (hs.step hl hit) ?_ hk' hp' hg'
        simp; omega

end Axon
