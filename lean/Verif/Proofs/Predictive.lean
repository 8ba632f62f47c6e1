import Verif.Model.Predictive
import Verif.Proofs.Queue
import Mathlib.Algebra.Order.Field.Basic
import Mathlib.Algebra.Order.Floor.Ring
import Mathlib.Tactic.Linarith
import Mathlib.Tactic.Ring
import Mathlib.Tactic.Push

set_option linter.unusedSectionVars false
set_option linter.unnecessarySimpa false
namespace Axon
variable {K : Type*}

/-! ## The bisection -/

/-- What the bisection maintains. -/
structure BInv (P : ℤ → Bool) (M : ℤ) (lo hi : ℤ) : Prop where
  lo0 : 0 ≤ lo
  hiM : hi ≤ M
  le : lo ≤ hi ∨ (hi = M ∧ lo = M + 1)
  top : hi = M ∨ P hi = true
  bot : lo = 0 ∨ P (lo - 1) = false

theorem bisect_inv (P : ℤ → Bool) (M : ℤ) (hM : 0 ≤ M) : ∀ (i : ℕ) (lo hi : ℤ),
    BInv P M lo hi → BInv P M (bisect P i (lo, hi)).1 (bisect P i (lo, hi)).2 ∧
      (bisect P i (lo, hi)).2 - (bisect P i (lo, hi)).1 ≤ (hi - lo) / 2 ^ i ⊔ 0 := by
  intro i
  induction i with
  | zero => intro lo hi h; simpa [bisect] using h
  | succ i ih =>
    intro lo hi h
    have hstep : ∀ lo' hi', BInv P M lo' hi' → hi' - lo' ≤ (hi - lo) / 2 ⊔ 0 →
        BInv P M (bisect P i (lo', hi')).1 (bisect P i (lo', hi')).2 ∧
        (bisect P i (lo', hi')).2 - (bisect P i (lo', hi')).1 ≤ (hi - lo) / 2 ^ (i + 1) ⊔ 0 := by
      intro lo' hi' h' hs
      obtain ⟨h1, h2⟩ := ih lo' hi' h'
      refine ⟨h1, h2.trans ?_⟩
      have hp : (0 : ℤ) < 2 ^ i := by positivity
      have : (hi' - lo') / 2 ^ i ≤ ((hi - lo) / 2 ⊔ 0) / 2 ^ i := Int.ediv_le_ediv hp hs
      rcases le_total ((hi - lo) / 2) 0 with h0 | h0
      · rw [max_eq_right h0] at this
        simp only [Int.zero_ediv] at this
        exact max_le (this.trans (le_max_right _ _)) (le_max_right _ _)
      · rw [max_eq_left h0] at this
        rw [pow_succ', ← Int.ediv_ediv_of_nonneg (by norm_num : (0:ℤ) ≤ 2)]
        exact max_le_max this le_rfl
    unfold bisect
    simp only
    by_cases hP : P ((lo + hi) / 2) = true
    · simp only [hP, if_true]
      apply hstep
      · refine ⟨h.lo0, ?_, ?_, Or.inr hP, h.bot⟩
        · rcases h.le with hl | hl <;> have := h.hiM <;> omega
        · rcases h.le with hl | ⟨hl, hl'⟩
          · left; omega
          · exfalso
            have h1 := h.bot
            rcases h1 with h1 | h1
            · omega
            · rw [show lo - 1 = (lo + hi) / 2 by omega] at h1
              rw [h1] at hP; cases hP
      · omega
    · have hP' : P ((lo + hi) / 2) = false := by simpa using hP
      simp only [hP', Bool.false_eq_true, if_false]
      apply hstep
      · refine ⟨?_, h.hiM, ?_, h.top, Or.inr ?_⟩
        · have := h.lo0; rcases h.le with hl | hl <;> omega
        · rcases h.le with hl | ⟨hl, hl'⟩
          · by_cases hlh : lo = hi
            · right
              rcases h.top with ht | ht
              · exact ⟨ht, by omega⟩
              · exfalso; rw [show (lo + hi) / 2 = hi by omega] at hP'; rw [ht] at hP'; cases hP'
            · left; omega
          · right; exact ⟨hl, by omega⟩
        · rw [show (lo + hi) / 2 + 1 - 1 = (lo + hi) / 2 by omega]; exact hP'
      · omega

/-- The bisection over `[0, M)`, with enough iterations, returns a crossing of `P` or `≥ M`. -/
theorem bisect_spec (P : ℤ → Bool) (M : ℤ) (hM : 0 ≤ M) (i : ℕ) (hi : M < 2 ^ i) :
    let k := (bisect P i (0, M)).1
    0 ≤ k ∧ (k < M → P k = true) ∧ (k ≠ 0 → P (k - 1) = false) := by
  have h0 : BInv P M 0 M := ⟨le_rfl, le_rfl, Or.inl hM, Or.inl rfl, Or.inl rfl⟩
  obtain ⟨h1, h2⟩ := bisect_inv P M hM i 0 M h0
  simp only
  generalize (bisect P i (0, M)).1 = k at *
  generalize (bisect P i (0, M)).2 = h at *
  have : (M - 0) / 2 ^ i = 0 := Int.ediv_eq_zero_of_lt (by omega) (by simpa using hi)
  rw [this] at h2
  simp only [max_self] at h2
  refine ⟨h1.lo0, ?_, ?_⟩
  · intro hk
    have hkh : k = h := by rcases h1.le with hl | hl <;> omega
    rcases h1.top with ht | ht
    · omega
    · rw [hkh]; exact ht
  · intro hk; rcases h1.bot with hb | hb
    · exact absurd hb hk
    · exact hb


section
variable [Field K] [LinearOrder K] [IsStrictOrderedRing K] [FloorRing K]

theorem maxSteps_nonneg {dt : K} (h : 0 < dt) : 0 ≤ maxSteps dt := by
  unfold maxSteps
  have h0 : (0 : K) ≤ 500 / dt := div_nonneg (by norm_num) h.le
  rw [if_pos h0]; exact Int.floor_nonneg.mpr h0

/-- `predictSteps` succeeds exactly when the time constants are non-zero, and then returns a
crossing, or nothing. -/
theorem predictSteps_some {exp : K → K} {p : Params K} {s : NState K} {dt : K} {k : ℤ}
    (hdt : 0 < dt) (hM : maxSteps dt < 2 ^ 64) (h : predictSteps exp p s dt = .ok (some k)) :
    0 ≤ k ∧ k < maxSteps dt ∧ p.Vt ≤ predVoltage exp p s dt k ∧
      (k ≠ 0 → predVoltage exp p s dt (k - 1) < p.Vt) := by
  unfold predictSteps at h
  split at h
  · cases h
  · simp only at h
    split at h
    next hlt =>
      simp only [Except.ok.injEq, Option.some.injEq] at h
      have hs := bisect_spec (fun m => decide (p.Vt ≤ predVoltage exp p s dt m)) (maxSteps dt)
        (maxSteps_nonneg hdt) 64 hM
      simp only [h] at hs hlt
      refine ⟨hs.1, hlt, by simpa using hs.2.1 hlt, fun hk => ?_⟩
      simpa using hs.2.2 hk
    next => simp at h

/-- The step count is never negative (without any bound on the number of steps). -/
theorem predictSteps_nonneg {exp : K → K} {p : Params K} {s : NState K} {dt : K} {k : ℤ}
    (hdt : 0 < dt) (h : predictSteps exp p s dt = .ok (some k)) : 0 ≤ k := by
  unfold predictSteps at h
  split at h
  · cases h
  · simp only at h
    split at h
    next hlt =>
      simp only [Except.ok.injEq, Option.some.injEq] at h
      have h0 := (bisect_inv (fun m => decide (p.Vt ≤ predVoltage exp p s dt m)) (maxSteps dt)
        (maxSteps_nonneg hdt) 64 0 (maxSteps dt)
        ⟨le_rfl, le_rfl, Or.inl (maxSteps_nonneg hdt), Or.inl rfl, Or.inl rfl⟩).1.lo0
      omega
    next => simp at h

end

/-! ## Content of the queue -/

section
variable [LinearOrder K]

/-- What is stored in a `CancelableEventQueue`. -/
def CQueue.events (q : CQueue K) : List (UEvent K) := q.times.flatMap (fun t => (q.at_ t).getD [])

theorem count_flatMap_filter {α : Type*} [DecidableEq α] (f : α → K) (p : List α) (a : α) :
    ∀ ts : List K, ts.Nodup → (ts.flatMap (fun t => p.filter (fun e => f e = t))).count a
      = if f a ∈ ts then p.count a else 0 := by
  intro ts
  induction ts with
  | nil => simp
  | cons t ts ih =>
    intro hnd
    rw [List.flatMap_cons, List.count_append, ih (List.nodup_cons.mp hnd).2]
    by_cases h : f a = t
    · subst h
      have := (List.nodup_cons.mp hnd).1
      simp only [this, if_false, List.mem_cons, true_or, if_true, add_zero]
      rw [List.count_filter (by simp)]
    · have h0 : (p.filter (fun e => f e = t)).count a = 0 := by
        rw [List.count_eq_zero]; simp [h]
      simp [h0, h]

theorem CRep.events_perm {H : TimeHeap K} {q : CQueue K} {p} (h : CRep H q p) : q.events.Perm p := by
  rw [List.perm_iff_count]
  intro a
  unfold CQueue.events
  rw [List.flatMap_congr (fun t _ => h.val t), count_flatMap_filter (fun e : UEvent K => e.time) p a
    _ h.nodup]
  split
  · rfl
  next hn =>
    symm; rw [List.count_eq_zero]; intro ha; exact hn (h.time_mem ha)

/-! ## One handler at a time -/

/-- The hits sent by a spike at `t` along `ss`, with consecutive ids from `i`. -/
def hitsOf [Add K] (t : K) : ℕ → List (Synapse K) → List (UEvent K)
  | _, [] => []
  | i, s :: ss => ⟨i, t + s.delay, .hit s.post s.kind s.weight⟩ :: hitsOf t (i + 1) ss

theorem PSim.push_rep {H : TimeHeap K} {st : PSim K} {p} (h : CRep H st.queue p) (t : K) (pl) :
    CRep H (st.push H t pl).queue (p ++ [⟨st.nextId, t, pl⟩]) := h.add _

end

section
variable [Field K] [LinearOrder K] [FloorRing K]

theorem PSim.propagate_spec (E : PEnv K) (t : K) (n : ℕ) (st : PSim K) (p : List (UEvent K))
    (h : CRep E.H st.queue p) :
    ∃ q, CRep E.H q (p ++ hitsOf t st.nextId (E.net.out n)) ∧
      st.propagate E t n = { st with queue := q, nextId := st.nextId + (E.net.out n).length } := by
  unfold PSim.propagate
  generalize E.net.out n = ss
  induction ss generalizing st p with
  | nil => exact ⟨st.queue, by simpa [hitsOf] using h, rfl⟩
  | cons s ss ih =>
    obtain ⟨q, h1, h2⟩ := ih (st.push E.H (t + s.delay) (.hit s.post s.kind s.weight)) _
      (PSim.push_rep h _ _)
    refine ⟨q, by simpa [hitsOf, PSim.push] using h1, ?_⟩
    rw [List.foldl_cons, h2]
    simp [PSim.push]; omega

/-- The effect of one predicted spike. -/
theorem PSim.handleSpike_spec (E : PEnv K) (t : K) (n : ℕ) {st st' : PSim K} {p : List (UEvent K)}
    (h : CRep E.H st.queue p) (hst : st.handleSpike E t n = .ok st') :
    ∃ l, st.spikeLog n = some l ∧
      CRep E.H st'.queue (p ++ hitsOf t st.nextId (E.net.out n)) ∧
      st' = { st with
        queue := st'.queue
        nextId := st.nextId + (E.net.out n).length
        nst := Function.update st.nst n (NState.reset (E.net.par n))
        poss := Function.update st.poss n (some none)
        spikeLog := Function.update st.spikeLog n (some (l ++ [t])) } := by
  unfold PSim.handleSpike at hst
  obtain ⟨q, h1, h2⟩ := PSim.propagate_spec E t n
    { st with nst := Function.update st.nst n (NState.reset (E.net.par n)) } p h
  simp only [h2] at hst
  split at hst
  · cases hst
  next l hl =>
    simp only [Except.ok.injEq] at hst
    subst hst
    exact ⟨l, hl, h1, rfl⟩

/-- The event enqueued after a hit, if any. -/
def predEv (E : PEnv K) (i : ℕ) (t : K) (n : ℕ) (r : Option ℤ) : Option (UEvent K) :=
  r.map (fun m : ℤ => ⟨i, t + (m : K) * E.dt, .predicted n⟩)

/-- The effect of one hit. -/
theorem PSim.handleHit_spec (E : PEnv K) (t : K) (n : ℕ) (k : SynKind) (w : K) {st st' : PSim K}
    {p : List (UEvent K)} (h : CRep E.H st.queue p) (hst : st.handleHit E t n k w = .ok st') :
    ∃ o s l r c, st.poss n = some o ∧
      receivePred E.exp (E.net.par n) (st.nst n) (st.last n) k w t = .ok (s, l) ∧
      predictSteps E.exp (E.net.par n) s E.dt = .ok r ∧ st.cnt k = some c ∧
      CRep E.H st'.queue ((o.elim p p.erase) ++ (predEv E st.nextId t n r).toList) ∧
      st' = { st with
        queue := st'.queue
        nextId := st.nextId + (predEv E st.nextId t n r).toList.length
        nst := Function.update st.nst n s
        last := Function.update st.last n l
        poss := Function.update st.poss n (some (predEv E st.nextId t n r))
        cnt := Function.update st.cnt k (some (c + 1)) } := by
  unfold PSim.handleHit at hst
  have hd : ∀ st1, st.dequeue n = .ok st1 → ∃ o, st.poss n = some o ∧
      CRep E.H st1.queue (o.elim p p.erase) ∧
      st1 = { st with queue := st1.queue, poss := Function.update st.poss n (some none) } := by
    intro st1 h1
    unfold PSim.dequeue at h1
    split at h1
    · cases h1
    next hn => simp only [Except.ok.injEq] at h1; subst h1; exact ⟨none, hn, h, rfl⟩
    next e hn => simp only [Except.ok.injEq] at h1; subst h1; exact ⟨some e, hn, h.remove e, rfl⟩
  cases hdq : st.dequeue n with
  | error e => rw [hdq] at hst; cases hst
  | ok st1 =>
    obtain ⟨o, ho, hrep, heq⟩ := hd st1 hdq
    rw [hdq] at hst
    simp only at hst
    generalize st1.queue = q1 at hrep heq
    subst heq
    split at hst
    · cases hst
    next s l hr =>
      simp only at hst
      split at hst
      · cases hst
      next r hp =>
        split at hst
        · cases hst
        next c hc =>
          cases r with
          | none =>
            simp only [Except.ok.injEq] at hst
            subst hst
            exact ⟨o, s, l, none, c, ho, hr, hp, hc, by simpa [predEv] using hrep, by simp [predEv]⟩
          | some m =>
            simp only [Except.ok.injEq] at hst
            subst hst
            refine ⟨o, s, l, some m, c, ho, hr, hp, hc, ?_, ?_⟩
            · simpa [predEv, PSim.push] using hrep.add _
            · simp [predEv, PSim.push]

end


/-! ## One iteration, as an induction principle -/

/-- Is this event a prediction? -/
def UEvent.isPred (e : UEvent K) : Bool := match e.payload with | .predicted _ => true | _ => false

section
variable [Field K] [LinearOrder K] [FloorRing K]

/-- A property of (state, processed events, unprocessed events) that each handler preserves when
called at batch time `T`. -/
structure PInduct (E : PEnv K) (T : K) (I : PSim K → List (UEvent K) → List (UEvent K) → Prop) :
    Prop where
  perm : ∀ st D D' U U', D.Perm D' → U.Perm U' → I st D U → I st D' U'
  queue : ∀ st q D U, I st D U → I { st with queue := q } D U
  spike : ∀ (st st' : PSim K) i n p D R l, CRep E.H st.queue p →
    I st D (⟨i, T, .predicted n⟩ :: (p ++ R)) → st.spikeLog n = some l →
    st' = { st with
        queue := st'.queue
        nextId := st.nextId + (E.net.out n).length
        nst := Function.update st.nst n (NState.reset (E.net.par n))
        poss := Function.update st.poss n (some none)
        spikeLog := Function.update st.spikeLog n (some (l ++ [T])) } →
    I st' (⟨i, T, .predicted n⟩ :: D) ((p ++ hitsOf T st.nextId (E.net.out n)) ++ R)
  hit : ∀ (st st' : PSim K) i n k w p D R o s l r c, CRep E.H st.queue p →
    (∀ e ∈ R, e.isPred = false) → I st D (⟨i, T, .hit n k w⟩ :: (p ++ R)) →
    st.poss n = some o →
    receivePred E.exp (E.net.par n) (st.nst n) (st.last n) k w T = .ok (s, l) →
    predictSteps E.exp (E.net.par n) s E.dt = .ok r → st.cnt k = some c →
    st' = { st with
        queue := st'.queue
        nextId := st.nextId + (predEv E st.nextId T n r).toList.length
        nst := Function.update st.nst n s
        last := Function.update st.last n l
        poss := Function.update st.poss n (some (predEv E st.nextId T n r))
        cnt := Function.update st.cnt k (some (c + 1)) } →
    I st' (⟨i, T, .hit n k w⟩ :: D)
      (((o.elim p p.erase) ++ (predEv E st.nextId T n r).toList) ++ R)

variable {E : PEnv K} {T : K} {I : PSim K → List (UEvent K) → List (UEvent K) → Prop}

/-- The spike phase, for a property that need only survive spikes. -/
theorem spike_fold (hperm : ∀ st D D' U U', D.Perm D' → U.Perm U' → I st D U → I st D' U')
    (hspike : ∀ (st st' : PSim K) i n p D R l, CRep E.H st.queue p →
      I st D (⟨i, T, .predicted n⟩ :: (p ++ R)) → st.spikeLog n = some l →
      st' = { st with
          queue := st'.queue
          nextId := st.nextId + (E.net.out n).length
          nst := Function.update st.nst n (NState.reset (E.net.par n))
          poss := Function.update st.poss n (some none)
          spikeLog := Function.update st.spikeLog n (some (l ++ [T])) } →
      I st' (⟨i, T, .predicted n⟩ :: D) ((p ++ hitsOf T st.nextId (E.net.out n)) ++ R)) : ∀ (r : List (UEvent K)) (st st' : PSim K) p D R,
    CRep E.H st.queue p → (∀ e ∈ r, e.time = T) → I st D (p ++ (r.filter UEvent.isPred ++ R)) →
    r.foldlM (PSim.spikePhase E) st = .ok st' →
    ∃ p', CRep E.H st'.queue p' ∧ I st' (r.filter UEvent.isPred ++ D) (p' ++ R) := by
  intro r
  induction r with
  | nil =>
    intro st st' p D R hp _ hI hf
    simp only [List.foldlM_nil, pure, Except.pure, Except.ok.injEq] at hf
    subst hf; exact ⟨p, hp, by simpa using hI⟩
  | cons e r ih =>
    intro st st' p D R hp hT hI hf
    simp only [List.foldlM_cons, bind, Except.bind] at hf
    obtain ⟨i, t, pl⟩ := e
    have ht : t = T := hT ⟨i, t, pl⟩ (by simp)
    subst ht
    have hT' : ∀ e ∈ r, e.time = t := fun e he => hT e (by simp [he])
    cases pl with
    | hit n k w =>
      simp only [PSim.spikePhase] at hf
      exact ih st st' p D R hp hT' (by simpa [UEvent.isPred, List.filter_cons] using hI) hf |>.imp
        (fun p' h => ⟨h.1, by simpa [UEvent.isPred, List.filter_cons] using h.2⟩)
    | predicted n =>
      simp only [PSim.spikePhase] at hf
      cases hs : st.handleSpike E t n with
      | error err => rw [hs] at hf; cases hf
      | ok st1 =>
        rw [hs] at hf
        obtain ⟨l, hl, hrep, heq⟩ := PSim.handleSpike_spec E t n hp hs
        have hI1 : I st D (⟨i, t, .predicted n⟩ :: (p ++ (r.filter UEvent.isPred ++ R))) := by
          refine hperm _ _ _ _ _ (List.Perm.refl _) ?_ hI
          simpa [UEvent.isPred, List.filter_cons] using List.perm_middle
        have h1 := hspike st st1 i n p D _ l hp hI1 hl heq
        obtain ⟨p', hp', hI'⟩ := ih st1 st' _ _ R hrep hT' h1 hf
        refine ⟨p', hp', hperm _ _ _ _ _ ?_ (List.Perm.refl _) hI'⟩
        simpa [UEvent.isPred, List.filter_cons] using List.perm_middle

theorem PInduct.spikeFold (h : PInduct E T I) : ∀ (r : List (UEvent K)) (st st' : PSim K) p D R,
    CRep E.H st.queue p → (∀ e ∈ r, e.time = T) → I st D (p ++ (r.filter UEvent.isPred ++ R)) →
    r.foldlM (PSim.spikePhase E) st = .ok st' →
    ∃ p', CRep E.H st'.queue p' ∧ I st' (r.filter UEvent.isPred ++ D) (p' ++ R) :=
  spike_fold h.perm h.spike

/-- The hit phase, for a property that need only survive hits. -/
theorem hit_fold (hperm : ∀ st D D' U U', D.Perm D' → U.Perm U' → I st D U → I st D' U')
    (hhit : ∀ (st st' : PSim K) i n k w p D R o s l r c, CRep E.H st.queue p →
      (∀ e ∈ R, e.isPred = false) → I st D (⟨i, T, .hit n k w⟩ :: (p ++ R)) →
      st.poss n = some o →
      receivePred E.exp (E.net.par n) (st.nst n) (st.last n) k w T = .ok (s, l) →
      predictSteps E.exp (E.net.par n) s E.dt = .ok r → st.cnt k = some c →
      st' = { st with
          queue := st'.queue
          nextId := st.nextId + (predEv E st.nextId T n r).toList.length
          nst := Function.update st.nst n s
          last := Function.update st.last n l
          poss := Function.update st.poss n (some (predEv E st.nextId T n r))
          cnt := Function.update st.cnt k (some (c + 1)) } →
      I st' (⟨i, T, .hit n k w⟩ :: D)
        (((o.elim p p.erase) ++ (predEv E st.nextId T n r).toList) ++ R)) : ∀ (r : List (UEvent K)) (st st' : PSim K) p D,
    CRep E.H st.queue p → (∀ e ∈ r, e.time = T) →
    I st D (p ++ r.filter (fun e => !e.isPred)) →
    r.foldlM (PSim.hitPhase E) st = .ok st' →
    ∃ p', CRep E.H st'.queue p' ∧ I st' (r.filter (fun e => !e.isPred) ++ D) p' := by
  intro r
  induction r with
  | nil =>
    intro st st' p D hp _ hI hf
    simp only [List.foldlM_nil, pure, Except.pure, Except.ok.injEq] at hf
    subst hf; exact ⟨p, hp, by simpa using hI⟩
  | cons e r ih =>
    intro st st' p D hp hT hI hf
    simp only [List.foldlM_cons, bind, Except.bind] at hf
    obtain ⟨i, t, pl⟩ := e
    have ht : t = T := hT ⟨i, t, pl⟩ (by simp)
    subst ht
    have hT' : ∀ e ∈ r, e.time = t := fun e he => hT e (by simp [he])
    cases pl with
    | predicted n =>
      simp only [PSim.hitPhase] at hf
      exact ih st st' p D hp hT' (by simpa [UEvent.isPred, List.filter_cons] using hI) hf |>.imp
        (fun p' h => ⟨h.1, by simpa [UEvent.isPred, List.filter_cons] using h.2⟩)
    | hit n k w =>
      simp only [PSim.hitPhase] at hf
      cases hs : st.handleHit E t n k w with
      | error err => rw [hs] at hf; cases hf
      | ok st1 =>
        rw [hs] at hf
        obtain ⟨o, s, l, rr, c, ho, hr, hpr, hc, hrep, heq⟩ := PSim.handleHit_spec E t n k w hp hs
        have hI1 : I st D (⟨i, t, .hit n k w⟩ :: (p ++ r.filter (fun e => !e.isPred))) := by
          refine hperm _ _ _ _ _ (List.Perm.refl _) ?_ hI
          simpa [UEvent.isPred, List.filter_cons] using List.perm_middle
        have h1 := hhit st st1 i n k w p D _ o s l rr c hp (by simp) hI1 ho hr hpr hc heq
        obtain ⟨p', hp', hI'⟩ := ih st1 st' _ _ hrep hT' h1 hf
        refine ⟨p', hp', hperm _ _ _ _ _ ?_ (List.Perm.refl _) hI'⟩
        simpa [UEvent.isPred, List.filter_cons] using List.perm_middle

theorem PInduct.hitFold (h : PInduct E T I) : ∀ (r : List (UEvent K)) (st st' : PSim K) p D,
    CRep E.H st.queue p → (∀ e ∈ r, e.time = T) →
    I st D (p ++ r.filter (fun e => !e.isPred)) →
    r.foldlM (PSim.hitPhase E) st = .ok st' →
    ∃ p', CRep E.H st'.queue p' ∧ I st' (r.filter (fun e => !e.isPred) ++ D) p' :=
  hit_fold h.perm h.hit

theorem filter_isPred_perm (l : List (UEvent K)) :
    (l.filter UEvent.isPred ++ l.filter (fun e => !e.isPred)).Perm l :=
  List.filter_append_perm _ _

theorem batch_perm (p : List (UEvent K)) : (Spec.others p ++ Spec.batch p).Perm p := by
  refine List.perm_append_comm.trans ?_
  unfold Spec.others Spec.batch
  have := List.filter_append_perm (fun e : UEvent K => decide (∀ x ∈ p, e.time ≤ x.time)) p
  simpa only [decide_not] using this

/-- The batch of an iteration: the pending events of least time. -/
theorem iter_batch {st st' : PSim K} {p evs} (hp : CRep E.H st.queue p)
    (hi : st.iter E = .ok (evs, st')) : evs = Spec.batch p := by
  unfold PSim.iter at hi
  by_cases ht : st.queue.times = []
  · simp [CQueue.pop, ht] at hi
  · obtain ⟨q', hq', -⟩ := hp.pop ht
    rw [hq'] at hi
    simp only at hi
    split at hi
    · cases hi
    · split at hi
      · cases hi
      · simp only [Except.ok.injEq, Prod.mk.injEq] at hi; exact hi.1.symm

theorem PInduct.iter (h : PInduct E T I) {st st' : PSim K} {p D evs} (hp : CRep E.H st.queue p)
    (hT : ∀ e ∈ Spec.batch p, e.time = T) (hI : I st D p) (hi : st.iter E = .ok (evs, st')) :
    ∃ p', CRep E.H st'.queue p' ∧ I st' (evs ++ D) p' := by
  have hb := iter_batch hp hi
  unfold PSim.iter at hi
  by_cases ht : st.queue.times = []
  · simp [CQueue.pop, ht] at hi
  · obtain ⟨q', hq', hrep⟩ := hp.pop ht
    rw [hq'] at hi
    simp only at hi
    rw [← hb] at hi hT
    split at hi
    · cases hi
    next st1 h1 =>
      split at hi
      · cases hi
      next st2 h2 =>
        simp only [Except.ok.injEq, Prod.mk.injEq] at hi
        obtain ⟨-, rfl⟩ := hi
        have hI0 : I { st with queue := q' } D
            (Spec.others p ++ (evs.filter UEvent.isPred ++ evs.filter (fun e => !e.isPred))) := by
          refine h.queue _ _ _ _ (h.perm _ _ _ _ _ (List.Perm.refl _) ?_ hI)
          refine (batch_perm p).symm.trans (List.Perm.append_left _ ?_)
          rw [← hb]; exact (filter_isPred_perm evs).symm
        obtain ⟨p1, hp1, hI1⟩ := h.spikeFold evs _ st1 _ D _ hrep hT hI0 h1
        obtain ⟨p2, hp2, hI2⟩ := h.hitFold evs st1 st2 p1 _ hp1 hT hI1 h2
        refine ⟨p2, hp2, h.perm _ _ _ _ _ ?_ (List.Perm.refl _) hI2⟩
        rw [← List.append_assoc]
        exact List.Perm.append_right _ (List.perm_append_comm.trans (filter_isPred_perm evs))

end

end Axon
