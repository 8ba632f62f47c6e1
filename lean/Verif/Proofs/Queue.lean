import Verif.Spec.Queue
import Mathlib.Data.Finset.Max
import Mathlib.Data.Finset.Lattice.Lemmas

namespace Axon
variable {K : Type*} [LinearOrder K]

theorem heap_perm_length_rest (H : EventHeap K) (x : Event K) (q) (h : H.Inv (x :: q)) :
    (H.rest (x :: q)).length = q.length := (H.perm_rest x q h).length_eq

theorem popLoop_spec (H : EventHeap K) (t : K) : ∀ (n : ℕ) (q : List (Event K)), H.Inv q →
    q.length ≤ n →
    H.Inv (popLoop H t n q).2 ∧ ((popLoop H t n q).1 ++ (popLoop H t n q).2).Perm q ∧
    (popLoop H t n q).1.Pairwise (fun a b => a.time ≤ b.time) ∧
    (∀ e ∈ (popLoop H t n q).1, e.time ≤ t) ∧ (∀ e ∈ (popLoop H t n q).2, ¬ e.time ≤ t) := by
  intro n
  induction n with
  | zero =>
    intro q hq hl
    have : q = [] := List.length_eq_zero_iff.mp (by omega)
    subst this
    simp [popLoop, H.inv_nil]
  | succ n ih =>
    intro q hq hl
    match q with
    | [] => simp [popLoop, H.inv_nil]
    | x :: q =>
      by_cases hx : x.time ≤ t
      · have h1 := ih (H.rest (x :: q)) (H.inv_rest x q hq)
          (by rw [heap_perm_length_rest H x q hq]; simpa using hl)
        obtain ⟨hi, hp, hs, hle, hgt⟩ := h1
        have hperm := hp.trans (H.perm_rest x q hq)
        simp only [popLoop, hx, if_true]
        refine ⟨hi, by simpa using hperm, ?_, ?_, hgt⟩
        · refine List.Pairwise.cons ?_ hs
          intro e he
          exact H.min_head x q hq e (hperm.subset (List.mem_append_left _ he))
        · intro e he
          rcases List.mem_cons.mp he with rfl | he
          · exact hx
          · exact hle e he
      · simp only [popLoop, hx, if_false]
        refine ⟨hq, by simp, by simp, by simp, ?_⟩
        intro e he hle
        rcases List.mem_cons.mp he with rfl | he
        · exact hx hle
        · exact hx ((H.min_head x q hq e he).trans hle)

theorem popEvents_spec (H : EventHeap K) (t : K) (q : List (Event K)) (hq : H.Inv q) :
    H.Inv (popEvents H t q).2 ∧ ((popEvents H t q).1 ++ (popEvents H t q).2).Perm q ∧
    (popEvents H t q).1.Pairwise (fun a b => a.time ≤ b.time) ∧
    (∀ e ∈ (popEvents H t q).1, e.time ≤ t) ∧ (∀ e ∈ (popEvents H t q).2, ¬ e.time ≤ t) :=
  popLoop_spec H t q.length q hq le_rfl

theorem popEvents_fst (H : EventHeap K) (t : K) (q : List (Event K)) (hq : H.Inv q) :
    (popEvents H t q).1.Perm (q.filter (fun e => e.time ≤ t)) := by
  obtain ⟨-, hp, -, hle, hgt⟩ := popEvents_spec H t q hq
  have := hp.filter (fun e => decide (e.time ≤ t))
  rw [List.filter_append, List.filter_eq_self.mpr (by simpa using hle),
    List.filter_eq_nil_iff.mpr (by simpa using hgt), List.append_nil] at this
  exact this

theorem popEvents_snd (H : EventHeap K) (t : K) (q : List (Event K)) (hq : H.Inv q) :
    (popEvents H t q).2.Perm (q.filter (fun e => ¬ e.time ≤ t)) := by
  obtain ⟨-, hp, -, hle, hgt⟩ := popEvents_spec H t q hq
  have := hp.filter (fun e => decide (¬ e.time ≤ t))
  rw [List.filter_append, List.filter_eq_nil_iff.mpr (by simpa using hle),
    List.filter_eq_self.mpr (by simpa using hgt), List.nil_append] at this
  exact this

/-! ## CancelableEventQueue -/

/-- Representation invariant and abstraction: the queue holds exactly the pending list `p`. -/
structure CRep (H : TimeHeap K) (q : CQueue K) (p : List (UEvent K)) : Prop where
  inv : H.Inv q.times
  nodup : q.times.Nodup
  dom : ∀ t, t ∈ q.times ↔ (q.at_ t).isSome
  val : ∀ t, (q.at_ t).getD [] = p.filter (fun e => e.time = t)

theorem CRep.empty (H : TimeHeap K) : CRep H CQueue.empty [] :=
  ⟨H.inv_nil, List.nodup_nil, by simp [CQueue.empty], by simp [CQueue.empty]⟩

theorem CRep.add {H : TimeHeap K} {q : CQueue K} {p} (h : CRep H q p) (e : UEvent K) :
    CRep H (q.add H e) (p ++ [e]) := by
  unfold CQueue.add
  split
  next hn =>
    have hnot : e.time ∉ q.times := by rw [h.dom, hn]; simp
    refine ⟨H.inv_push _ _ h.inv, ?_, ?_, ?_⟩
    · rw [(H.perm_push _ _ h.inv).nodup_iff]; exact List.nodup_cons.mpr ⟨hnot, h.nodup⟩
    · intro t
      rw [(H.perm_push _ _ h.inv).mem_iff]
      by_cases ht : t = e.time
      · subst ht; simp
      · simp [ht, h.dom]
    · intro t
      by_cases ht : t = e.time
      · subst ht
        have := h.val e.time
        rw [hn] at this
        simp [List.filter_append, ← this]
      · have := h.val t
        simp [List.filter_append, ht, this, Ne.symm ht]
  next l hl =>
    refine ⟨h.inv, h.nodup, ?_, ?_⟩
    · intro t
      by_cases ht : t = e.time
      · subst ht; simp [h.dom, hl]
      · simp [ht, h.dom]
    · intro t
      by_cases ht : t = e.time
      · subst ht
        have := h.val e.time
        rw [hl] at this
        simp [List.filter_append, ← this]
      · have := h.val t
        simp [List.filter_append, ht, this, Ne.symm ht]

theorem filter_erase_of_neg {α} [DecidableEq α] (P : α → Bool) (a : α) (h : P a = false) (l : List α) :
    (l.erase a).filter P = l.filter P := by
  induction l with
  | nil => simp
  | cons b l ih =>
    by_cases hb : b = a
    · subst hb; simp [h]
    · rw [List.erase_cons_tail (by simpa using hb)]
      simp [List.filter_cons, ih]

theorem filter_erase_of_pos {α} [DecidableEq α] (P : α → Bool) (a : α) (h : P a = true) (l : List α) :
    (l.erase a).filter P = (l.filter P).erase a := by
  induction l with
  | nil => simp
  | cons b l ih =>
    by_cases hb : b = a
    · subst hb; simp [h]
    · rw [List.erase_cons_tail (by simpa using hb)]
      by_cases hP : P b = true
      · rw [List.filter_cons_of_pos hP, List.filter_cons_of_pos hP, List.erase_cons_tail (by simpa using hb), ih]
      · rw [List.filter_cons_of_neg hP, List.filter_cons_of_neg hP, ih]

theorem CRep.remove {H : TimeHeap K} {q : CQueue K} {p} (h : CRep H q p) (e : UEvent K) :
    CRep H (q.remove e) (p.erase e) := by
  have hval := h.val e.time
  have key : ∀ t, t ≠ e.time → (p.erase e).filter (fun x => x.time = t) = p.filter (fun x => x.time = t) :=
    fun t ht => filter_erase_of_neg _ _ (by simpa using ht.symm) p
  have key2 : (p.erase e).filter (fun x => x.time = e.time) = (p.filter (fun x => x.time = e.time)).erase e :=
    filter_erase_of_pos _ _ (by simp) p
  unfold CQueue.remove
  split
  next hn =>
    refine ⟨h.inv, h.nodup, h.dom, ?_⟩
    intro t
    by_cases ht : t = e.time
    · subst ht
      rw [key2, ← hval, hn]; simp
    · rw [key t ht, h.val]
  next l hl =>
    rw [hl] at hval
    simp only [Option.getD_some] at hval
    split
    next hm =>
      refine ⟨h.inv, h.nodup, ?_, ?_⟩
      · intro t
        by_cases ht : t = e.time
        · subst ht; simp [h.dom, hl]
        · simp [ht, h.dom]
      · intro t
        by_cases ht : t = e.time
        · subst ht; simp [key2, ← hval]
        · simp only [ne_eq, ht, not_false_eq_true, Function.update_of_ne]
          rw [key t ht, h.val]
    next hm =>
      refine ⟨h.inv, h.nodup, h.dom, ?_⟩
      intro t
      by_cases ht : t = e.time
      · subst ht
        rw [key2, ← hval, hl, List.erase_of_not_mem hm]; simp
      · rw [key t ht, h.val]

/-- Every pending event's time is in the heap. -/
theorem CRep.time_mem {H : TimeHeap K} {q : CQueue K} {p} (h : CRep H q p) {e} (he : e ∈ p) :
    e.time ∈ q.times := by
  rw [h.dom]
  have := h.val e.time
  have hm : e ∈ p.filter (fun x => x.time = e.time) := by simp [he]
  rw [← this] at hm
  cases hq : q.at_ e.time <;> simp_all

theorem CRep.batch_of_head {H : TimeHeap K} {q : CQueue K} {p} (h : CRep H q p) {t ts}
    (hq : q.times = t :: ts) (hne : p.filter (fun e => e.time = t) ≠ []) :
    Spec.batch p = p.filter (fun e => e.time = t) ∧ Spec.others p = p.filter (fun e => ¬ e.time = t) := by
  have hmin : ∀ x ∈ p, t ≤ x.time := by
    intro x hx
    have := h.time_mem hx
    rw [hq] at this
    rcases List.mem_cons.mp this with h' | h'
    · exact h'.ge
    · exact H.min_head t ts (hq ▸ h.inv) _ h'
  obtain ⟨e0, he0⟩ := List.exists_mem_of_ne_nil _ hne
  simp only [List.mem_filter, decide_eq_true_eq] at he0
  have iff : ∀ e ∈ p, (∀ x ∈ p, e.time ≤ x.time) ↔ e.time = t := by
    intro e he
    constructor
    · intro hh; exact le_antisymm (he0.2 ▸ hh e0 he0.1) (hmin e he)
    · intro hh x hx; exact hh ▸ hmin x hx
  constructor
  · apply List.filter_congr; intro e he; simp only [iff e he]
  · apply List.filter_congr; intro e he; simp only [iff e he]

theorem CRep.popLoop {H : TimeHeap K} : ∀ (n : ℕ) {q : CQueue K} {p : List (UEvent K)}, CRep H q p →
    q.times.length ≤ n →
    ∃ q', CQueue.popLoop H n q = .ok (Spec.batch p, q') ∧ CRep H q' (Spec.others p) := by
  intro n
  induction n with
  | zero =>
    intro q p h hl
    have h0 : q.times = [] := List.length_eq_zero_iff.mp (by omega)
    have hp : p = [] := by
      by_contra hne
      obtain ⟨e, he⟩ := List.exists_mem_of_ne_nil _ hne
      have := h.time_mem he
      simp [h0] at this
    subst hp
    exact ⟨q, by simp [CQueue.popLoop, Spec.batch], h⟩
  | succ n ih =>
    intro q p h hl
    match hq : q.times with
    | [] =>
      have hp : p = [] := by
        by_contra hne
        obtain ⟨e, he⟩ := List.exists_mem_of_ne_nil _ hne
        have := h.time_mem he
        simp [hq] at this
      subst hp
      exact ⟨q, by simp [CQueue.popLoop, hq, Spec.batch], h⟩
    | t :: ts =>
      have hsome : (q.at_ t).isSome := by rw [← h.dom, hq]; simp
      obtain ⟨evs, hevs⟩ := Option.isSome_iff_exists.mp hsome
      have hval := h.val t
      rw [hevs] at hval
      simp only [Option.getD_some] at hval
      have hinv : H.Inv (t :: ts) := hq ▸ h.inv
      have hnd : (t :: ts).Nodup := hq ▸ h.nodup
      have hperm := H.perm_rest t ts hinv
      have hrep : CRep H ⟨H.rest (t :: ts), Function.update q.at_ t none⟩
          (p.filter (fun e => ¬ e.time = t)) := by
        refine ⟨H.inv_rest _ _ hinv, ?_, ?_, ?_⟩
        · exact hperm.nodup_iff.mpr (List.nodup_cons.mp hnd).2
        · intro u
          show u ∈ H.rest (t :: ts) ↔ _
          rw [hperm.mem_iff]
          by_cases hu : u = t
          · subst hu; simp [(List.nodup_cons.mp hnd).1]
          · have := h.dom u
            rw [hq] at this
            simp only [List.mem_cons, hu, false_or] at this
            simp [hu, this]
        · intro u
          by_cases hu : u = t
          · subst hu; simp
          · have := h.val u
            simp only [ne_eq, hu, not_false_eq_true, Function.update_of_ne, this]
            rw [List.filter_filter]
            apply List.filter_congr
            intro e _
            by_cases he : e.time = u <;> simp [he, hu]
      simp only [CQueue.popLoop, hq, hevs]
      by_cases hz : evs.length = 0
      · simp only [hz, if_true]
        have hnil : p.filter (fun e => e.time = t) = [] := by
          rw [← hval]; exact List.length_eq_zero_iff.mp hz
        have hself : p.filter (fun e => ¬ e.time = t) = p := by
          rw [List.filter_eq_self]
          intro e he
          have := List.filter_eq_nil_iff.mp hnil e he
          simpa using this
        rw [hself] at hrep
        refine ih hrep ?_
        rw [hperm.length_eq]
        rw [hq] at hl; simpa using hl
      · simp only [hz, if_false]
        have hne : p.filter (fun e => e.time = t) ≠ [] := by
          rw [← hval]; intro hh; exact hz (by simp [hh])
        obtain ⟨hb, ho⟩ := h.batch_of_head hq hne
        exact ⟨_, by rw [hb, hval], by rw [ho]; exact hrep⟩

theorem CRep.pop {H : TimeHeap K} {q : CQueue K} {p} (h : CRep H q p) (hne : q.times ≠ []) :
    ∃ q', q.pop H = .ok (Spec.batch p, q') ∧ CRep H q' (Spec.others p) := by
  unfold CQueue.pop
  rw [if_neg hne]
  exact h.popLoop _ le_rfl

theorem CRep.len {H : TimeHeap K} {q : CQueue K} {p} (h : CRep H q p) :
    q.len = .ok (p.map (fun e => e.time)).dedup.length := by
  unfold CQueue.len
  have hall : q.times.all (fun t => (q.at_ t).isSome) = true := by
    rw [List.all_eq_true]; intro t ht; exact (h.dom t).mp ht
  rw [if_pos hall]
  congr 1
  apply List.Perm.length_eq
  apply (List.perm_ext_iff_of_nodup (h.nodup.filter _) (List.nodup_dedup _)).mpr
  intro t
  simp only [List.mem_filter, List.mem_dedup, List.mem_map]
  have hval := h.val t
  constructor
  · rintro ⟨ht, hl⟩
    cases hq : q.at_ t with
    | none => rw [hq] at hl; simp at hl
    | some l =>
      rw [hq] at hl hval
      simp only [Option.getD_some] at hval
      have : l ≠ [] := by simpa using hl
      obtain ⟨e, he⟩ := List.exists_mem_of_ne_nil _ this
      rw [hval] at he
      simp only [List.mem_filter, decide_eq_true_eq] at he
      exact ⟨e, he.1, he.2⟩
  · rintro ⟨e, he, rfl⟩
    refine ⟨h.time_mem he, ?_⟩
    have hm : e ∈ p.filter (fun x => x.time = e.time) := by simp [he]
    rw [← hval] at hm
    cases hq : q.at_ e.time with
    | none => rw [hq] at hm; simp at hm
    | some l =>
      rw [hq] at hm
      simp only [Option.getD_some] at hm
      have := List.ne_nil_of_mem hm
      simpa using this

end Axon
