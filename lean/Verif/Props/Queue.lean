import Verif.Proofs.Queue
import Verif.Proofs.HeapInst

/-!
# C03–C05: the event queues
-/
namespace Axon
open Spec
variable {K : Type*} [LinearOrder K]

/-- Run a history of calls on a `SpikeEventQueue` (results of the pops are dropped here; the
theorems look at the pop after an arbitrary history). -/
def runQ (H : EventHeap K) : List (QOp K) → List (Event K) → List (Event K)
  | [], q => q
  | .add e :: ops, q => runQ H ops (addEvent H q e)
  | .pop t :: ops, q => runQ H ops (popEvents H t q).2

theorem runQ_spec (H : EventHeap K) (ops : List (QOp K)) : ∀ q, H.Inv q →
    H.Inv (runQ H ops q) ∧ (runQ H ops q : Multiset (Event K)) = pending ops q := by
  induction ops with
  | nil => intro q hq; exact ⟨hq, rfl⟩
  | cons op ops ih =>
    intro q hq
    match op with
    | .add e =>
      obtain ⟨h1, h2⟩ := ih (addEvent H q e) (H.inv_push _ _ hq)
      refine ⟨h1, ?_⟩
      have hc : (addEvent H q e : Multiset (Event K)) = e ::ₘ (q : Multiset (Event K)) :=
        Multiset.coe_eq_coe.mpr (H.perm_push q e hq)
      rw [runQ, h2, pending, hc]
    | .pop t =>
      obtain ⟨h1, h2⟩ := ih _ (popEvents_spec H t q hq).1
      refine ⟨h1, ?_⟩
      rw [runQ, h2, pending, Multiset.coe_eq_coe.mpr (popEvents_snd H t q hq),
        Multiset.filter_coe]

/-- **C03.** After any history of calls, `pop_events(t)` returns exactly the pending events due by
`t` (as a multiset: each once, none lost), sorted by time, and leaves exactly the others pending. -/
theorem C03_pop_due_exactly_once (H : EventHeap K) (ops : List (QOp K)) (t : K) :
    let r := popEvents H t (runQ H ops [])
    (r.1 : Multiset (Event K)) = (pending ops 0).filter (fun e => e.time ≤ t) ∧
    r.1.Pairwise (fun a b => a.time ≤ b.time) ∧
    (r.2 : Multiset (Event K)) = (pending ops 0).filter (fun e => ¬ e.time ≤ t) := by
  obtain ⟨hi, hp⟩ := runQ_spec H ops [] H.inv_nil
  have hp : (runQ H ops [] : Multiset (Event K)) = pending ops 0 := hp
  refine ⟨?_, (popEvents_spec H t _ hi).2.2.1, ?_⟩
  · rw [← hp, Multiset.filter_coe]; exact Multiset.coe_eq_coe.mpr (popEvents_fst H t _ hi)
  · rw [← hp, Multiset.filter_coe]; exact Multiset.coe_eq_coe.mpr (popEvents_snd H t _ hi)

/-- Everything a history of calls has returned, in order of return. -/
def poppedQ (H : EventHeap K) : List (QOp K) → List (Event K) → List (Event K)
  | [], _ => []
  | .add e :: ops, q => poppedQ H ops (addEvent H q e)
  | .pop t :: ops, q => (popEvents H t q).1 ++ poppedQ H ops (popEvents H t q).2

/-- All events added in a history. -/
def addedQ : List (QOp K) → Multiset (Event K)
  | [] => 0
  | .add e :: ops => e ::ₘ addedQ ops
  | .pop _ :: ops => addedQ ops

/-- **C03 (conservation).** Over a whole history every added event is returned exactly once or is
still pending. -/
theorem C03_conservation (H : EventHeap K) (ops : List (QOp K)) :
    (poppedQ H ops [] : Multiset (Event K)) + (runQ H ops [] : Multiset (Event K)) = addedQ ops := by
  suffices h : ∀ q, H.Inv q →
      (poppedQ H ops q : Multiset (Event K)) + (runQ H ops q : Multiset (Event K))
        = addedQ ops + (q : Multiset (Event K)) by
    simpa using h [] H.inv_nil
  induction ops with
  | nil => intro q _; simp [poppedQ, runQ, addedQ]
  | cons op ops ih =>
    intro q hq
    match op with
    | .add e =>
      have hc : (addEvent H q e : Multiset (Event K)) = e ::ₘ (q : Multiset (Event K)) :=
        Multiset.coe_eq_coe.mpr (H.perm_push q e hq)
      rw [poppedQ, runQ, ih (addEvent H q e) (H.inv_push _ _ hq), addedQ, hc,
        Multiset.cons_add, Multiset.add_cons]
    | .pop t =>
      have hs := popEvents_spec H t q hq
      have hc : ((popEvents H t q).1 : Multiset (Event K)) + ((popEvents H t q).2 : Multiset (Event K))
          = q := Multiset.coe_eq_coe.mpr hs.2.1
      rw [poppedQ, runQ, addedQ, ← hc, ← Multiset.coe_add, add_assoc, ih _ hs.1]
      rw [← add_assoc, ← add_assoc, add_comm (addedQ ops)]

/-- A concrete history meeting C03 (there are no hypotheses besides a lawful heap, and one exists):
two events at the same time, one later; popping at time 2 returns the first two. -/
example : (popEvents (sortedHeap (fun e : Event ℕ => e.time)) 2
    (runQ (sortedHeap _) [.add ⟨3, 0, .V, 1⟩, .add ⟨2, 1, .ge, 1⟩, .add ⟨1, 2, .gf, 5⟩] [])).1
    = [⟨1, 2, .gf, 5⟩, ⟨2, 1, .ge, 1⟩] := by decide

/-! ## C04, C05 -/

/-- Run a history of calls on a `CancelableEventQueue`; a raising `pop` leaves the queue as it is. -/
def runC (H : TimeHeap K) (ops : List (COp K)) : CQueue K :=
  ops.foldl (fun q op => match op with
    | .add e => q.add H e
    | .remove e => q.remove e
    | .pop => match q.pop H with
      | .ok r => r.2
      | .error _ => q) CQueue.empty

theorem runC_rep (H : TimeHeap K) (ops : List (COp K)) : CRep H (runC H ops) (cpending ops) := by
  unfold runC cpending
  induction ops using List.reverseRecOn with
  | nil => exact CRep.empty H
  | append_singleton ops op ih =>
    rw [List.foldl_append, List.foldl_append]
    generalize ops.foldl cstep [] = p at ih ⊢
    generalize ops.foldl _ CQueue.empty = q at ih ⊢
    match op with
    | .add e => exact ih.add e
    | .remove e => exact ih.remove e
    | .pop =>
      simp only [List.foldl_cons, List.foldl_nil, cstep]
      by_cases hne : q.times = []
      · have hp : p = [] := by
          by_contra hp
          obtain ⟨e, he⟩ := List.exists_mem_of_ne_nil _ hp
          have := ih.time_mem he
          simp [hne] at this
        have hpop : q.pop H = .error .indexError := by simp [CQueue.pop, hne]
        rw [hpop]; subst hp; exact ih
      · obtain ⟨q', hq', hr⟩ := ih.pop hne
        rw [hq']; exact hr

/-- **C04.** After any history of `add_event`, `remove` and `pop` calls, `pop` on a queue with
something pending returns exactly the pending events of minimal time, in insertion order, and the
queue behaves from then on as if exactly those had been taken out of the list of pending events
(`cpending (ops ++ [.pop])`). -/
theorem C04_pop_earliest_batch (H : TimeHeap K) (ops : List (COp K)) (hne : cpending ops ≠ []) :
    (runC H ops).pop H = .ok (batch (cpending ops), runC H (ops ++ [.pop])) ∧
    batch (cpending ops) ≠ [] ∧
    cpending (ops ++ [.pop]) = others (cpending ops) := by
  have hrep := runC_rep H ops
  have ht : (runC H ops).times ≠ [] := by
    obtain ⟨e, he⟩ := List.exists_mem_of_ne_nil _ hne
    exact List.ne_nil_of_mem (hrep.time_mem he)
  obtain ⟨q', hq', hr⟩ := hrep.pop ht
  have : runC H (ops ++ [.pop]) = q' := by
    have h1 : runC H (ops ++ [.pop]) = match (runC H ops).pop H with
      | .ok r => r.2
      | .error _ => runC H ops := by
      unfold runC; rw [List.foldl_append]; rfl
    rw [h1, hq']
  refine ⟨by rw [this, hq'], ?_, ?_⟩
  · obtain ⟨e, he, hmin⟩ : ∃ e ∈ cpending ops, ∀ x ∈ cpending ops, e.time ≤ x.time := by
      have hfin := (cpending ops).toFinset.exists_min_image (fun e => e.time)
        (by simpa using hne)
      obtain ⟨e, he, hm⟩ := hfin
      exact ⟨e, by simpa using he, fun x hx => hm x (by simpa using hx)⟩
    intro h0
    have : e ∈ batch (cpending ops) := by simp [batch, he]; exact hmin
    simp [h0] at this
  · unfold cpending; rw [List.foldl_append]; rfl

/-- **C04 (removal).** Removing an event that is not pending (never added, already removed or
already popped) leaves the queue exactly as it was. -/
theorem C04_remove_absent (H : TimeHeap K) (ops : List (COp K)) (e : UEvent K)
    (h : e ∉ cpending ops) : (runC H ops).remove e = runC H ops := by
  have hrep := runC_rep H ops
  unfold CQueue.remove
  split
  · rfl
  next l hl =>
    rw [if_neg]
    have hv := hrep.val e.time
    rw [hl] at hv
    simp only [Option.getD_some] at hv
    rw [hv]; simp [h]

theorem mem_cpending_sub (ops : List (COp K)) : ∀ (p : List (UEvent K)) (e : UEvent K),
    e ∈ ops.foldl cstep p → e ∈ p ∨ COp.add e ∈ ops := by
  induction ops with
  | nil => intro p e h; exact Or.inl h
  | cons op ops ih =>
    intro p e h
    rcases ih _ e h with h1 | h1
    · match op with
      | .add e' =>
        rcases List.mem_append.mp h1 with h1 | h1
        · exact Or.inl h1
        · simp at h1; subst h1; simp
      | .remove e' => exact Or.inl (List.mem_of_mem_erase h1)
      | .pop => exact Or.inl (List.mem_of_mem_filter h1)
    · exact Or.inr (List.mem_cons_of_mem _ h1)

theorem count_cpending_le (ops : List (COp K)) (e : UEvent K) : ∀ p : List (UEvent K),
    (ops.foldl cstep p).count e ≤ p.count e + (ops.countP (fun o => match o with
      | .add e' => decide (e' = e) | _ => false)) := by
  induction ops with
  | nil => intro p; simp
  | cons op ops ih =>
    intro p
    refine (ih _).trans ?_
    match op with
    | .add e' =>
      simp only [cstep, List.count_append, List.countP_cons, List.count_singleton]
      by_cases h : e' = e <;> simp [h]; omega
    | .remove e' =>
      simp only [cstep, List.countP_cons]
      have : (p.erase e').count e ≤ p.count e := (List.erase_sublist).count_le e
      simp; exact this
    | .pop =>
      simp only [cstep, List.countP_cons]
      have : (others p).count e ≤ p.count e := (List.filter_sublist).count_le e
      simp; exact this

/-- **C04 (removal).** An event that was added at most once and then removed is in no batch popped
later, as long as it is not added again. -/
theorem C04_removed_never_popped (H : TimeHeap K) (ops₁ ops₂ : List (COp K)) (e : UEvent K)
    (h1 : (ops₁.countP (fun o => match o with | .add e' => decide (e' = e) | _ => false)) ≤ 1)
    (h2 : COp.add e ∉ ops₂) (b : List (UEvent K)) (q' : CQueue K)
    (hpop : (runC H (ops₁ ++ [.remove e] ++ ops₂)).pop H = .ok (b, q')) : e ∉ b := by
  have hnot : e ∉ cpending (ops₁ ++ [.remove e] ++ ops₂) := by
    intro hm
    unfold cpending at hm
    rw [List.foldl_append, List.foldl_append] at hm
    rcases mem_cpending_sub _ _ _ hm with h | h
    · simp only [List.foldl_cons, List.foldl_nil, cstep] at h
      have hc := count_cpending_le ops₁ e []
      have h3 := List.count_pos_iff.mpr h
      rw [List.count_erase_self] at h3
      simp only [List.count_nil] at hc
      omega
    · exact h2 h
  by_cases hne : cpending (ops₁ ++ [.remove e] ++ ops₂) = []
  · have hrep := runC_rep H (ops₁ ++ [.remove e] ++ ops₂)
    by_cases ht : (runC H (ops₁ ++ [.remove e] ++ ops₂)).times = []
    · rw [CQueue.pop, if_pos ht] at hpop; cases hpop
    · obtain ⟨q2, hq2, -⟩ := hrep.pop ht
      rw [hq2, hne] at hpop
      simp only [batch, List.filter_nil, Except.ok.injEq, Prod.mk.injEq] at hpop
      simp [← hpop.1]
  · rw [(C04_pop_earliest_batch H _ hne).1] at hpop
    simp only [Except.ok.injEq, Prod.mk.injEq] at hpop
    rw [← hpop.1]
    intro hb
    exact hnot (List.mem_of_mem_filter hb)

/-- **C05 (length).** `len(queue)` never raises and is the number of distinct times among the
pending events. -/
theorem C05_len (H : TimeHeap K) (ops : List (COp K)) :
    (runC H ops).len = .ok ((cpending ops).map (fun e => e.time)).toFinset.card := by
  rw [(runC_rep H ops).len]; rfl

/-- **C05 (pop and length).** If `len(queue) > 0` then `pop` succeeds with a non-empty batch and
afterwards `len` is exactly one less. -/
theorem C05_pop_decrements_len (H : TimeHeap K) (ops : List (COp K)) (m : ℕ)
    (hlen : (runC H ops).len = .ok (m + 1)) :
    ∃ b q', (runC H ops).pop H = .ok (b, q') ∧ b ≠ [] ∧ q'.len = .ok m := by
  rw [C05_len] at hlen
  simp only [Except.ok.injEq] at hlen
  have hne : cpending ops ≠ [] := by
    intro h; rw [h] at hlen; simp at hlen
  obtain ⟨h1, h2, h3⟩ := C04_pop_earliest_batch H ops hne
  refine ⟨_, _, h1, h2, ?_⟩
  rw [C05_len, h3]
  obtain ⟨e0, he0⟩ := List.exists_mem_of_ne_nil _ h2
  simp only [batch, List.mem_filter, decide_eq_true_eq] at he0
  have : ((others (cpending ops)).map (fun e => e.time)).toFinset
      = ((cpending ops).map (fun e => e.time)).toFinset.erase e0.time := by
    ext t
    simp only [others, List.mem_toFinset, List.mem_map, List.mem_filter, decide_eq_true_eq,
      Finset.mem_erase]
    constructor
    · rintro ⟨e, ⟨he, hnm⟩, rfl⟩
      refine ⟨?_, e, he, rfl⟩
      intro heq; exact hnm (heq ▸ he0.2)
    · rintro ⟨hne', e, he, rfl⟩
      refine ⟨e, ⟨he, ?_⟩, rfl⟩
      intro hall
      exact hne' (le_antisymm (hall e0 he0.1) (he0.2 e he))
  rw [this, Finset.card_erase_of_mem (by
    simp only [List.mem_toFinset, List.mem_map]; exact ⟨e0, he0.1, rfl⟩), hlen]
  simp

/-- **C05 (errors).** `pop` raises in exactly one situation - no time is stored at all - and then
the exception is the documented IndexError, never a KeyError. -/
theorem C05_pop_error (H : TimeHeap K) (ops : List (COp K)) (err : PyErr) :
    (runC H ops).pop H = .error err ↔ (runC H ops).times = [] ∧ err = .indexError := by
  constructor
  · intro h
    by_cases ht : (runC H ops).times = []
    · refine ⟨ht, ?_⟩
      simp [CQueue.pop, ht] at h; exact h.symm
    · obtain ⟨q', hq', -⟩ := (runC_rep H ops).pop ht
      rw [hq'] at h; cases h
  · rintro ⟨ht, rfl⟩; simp [CQueue.pop, ht]

/-- Non-vacuity for C04/C05: three events, two at time 1, one of them removed; the batch is the
other one, and the length is 2. -/
example : cpending [COp.add ⟨0, (1 : ℕ), .predicted 4⟩, .add ⟨1, 2, .predicted 5⟩,
      .add ⟨2, 1, .hit 3 .V 7⟩, .remove ⟨0, 1, .predicted 4⟩] ≠ [] ∧
    batch (cpending [COp.add ⟨0, (1 : ℕ), .predicted 4⟩, .add ⟨1, 2, .predicted 5⟩,
      .add ⟨2, 1, .hit 3 .V 7⟩, .remove ⟨0, 1, .predicted 4⟩]) = [⟨2, 1, .hit 3 .V 7⟩] := by
  decide
example : (runC (sortedHeap (fun t : ℕ => t)) [COp.add ⟨0, (1 : ℕ), .predicted 4⟩,
    .add ⟨1, 2, .predicted 5⟩]).len = .ok (1 + 1) := by rw [C05_len]; decide

/-! ## The theorems of this file on concrete cases -/

/-- A history for the cases below: two events at time 1 (the first one removed again) and one at
time 2. -/
abbrev exHistory : List (COp ℕ) := [.add ⟨0, 1, .predicted 4⟩, .add ⟨1, 2, .predicted 5⟩,
  .add ⟨2, 1, .hit 3 .V 7⟩, .remove ⟨0, 1, .predicted 4⟩]

/-- `C03_conservation` on a history with two additions and a `pop` in between: what was popped and
what is left are the two events. -/
example : (poppedQ (sortedHeap _) [.add ⟨3, 0, .V, 1⟩, .add ⟨2, 1, .ge, 1⟩, .pop 2] [] :
      Multiset (Event ℕ)) +
    (runQ (sortedHeap _) [.add ⟨3, 0, .V, 1⟩, .add ⟨2, 1, .ge, 1⟩, .pop 2] [] :
      Multiset (Event ℕ)) = {⟨3, 0, .V, 1⟩, ⟨2, 1, .ge, 1⟩} :=
  C03_conservation (K := ℕ) _ [.add ⟨3, 0, .V, 1⟩, .add ⟨2, 1, .ge, 1⟩, .pop 2]

/-- `C04_pop_earliest_batch` on `exHistory`: the batch is the hit at time 1, and the prediction at
time 2 stays. -/
example : (runC (sortedHeap _ : TimeHeap ℕ) exHistory).pop (sortedHeap _) =
      .ok ([⟨2, 1, .hit 3 .V 7⟩], runC (sortedHeap _) (exHistory ++ [.pop])) ∧
    cpending (exHistory ++ [.pop]) = [⟨1, 2, .predicted 5⟩] := by
  have h := C04_pop_earliest_batch (sortedHeap _ : TimeHeap ℕ) exHistory (by decide)
  have hb : batch (cpending exHistory) = [⟨2, 1, .hit 3 .V 7⟩] := by decide
  have ho : others (cpending exHistory) = [⟨1, 2, .predicted 5⟩] := by decide
  rw [hb, ho] at h
  exact ⟨h.1, h.2.2⟩

/-- `C04_remove_absent` on `exHistory`: the removed event, and one that was never added, are not
pending; the hypothesis is met and a second `remove` changes nothing. -/
example : (runC (sortedHeap _ : TimeHeap ℕ) exHistory).remove ⟨0, 1, .predicted 4⟩ =
      runC (sortedHeap _) exHistory ∧
    (runC (sortedHeap _ : TimeHeap ℕ) exHistory).remove ⟨9, 2, .predicted 5⟩ =
      runC (sortedHeap _) exHistory :=
  ⟨C04_remove_absent _ exHistory _ (by decide), C04_remove_absent _ exHistory _ (by decide)⟩

/-- `C04_removed_never_popped` on a history in which the prediction at time 1 is added, removed and
another event of the same time is added afterwards: the next batch exists and does not contain the
removed one. -/
example : ∃ b q', (runC (sortedHeap _ : TimeHeap ℕ) ([.add ⟨0, 1, .predicted 4⟩] ++
      [.remove ⟨0, 1, .predicted 4⟩] ++ [.add ⟨2, 1, .hit 3 .V 7⟩])).pop (sortedHeap _) = .ok (b, q') ∧
    b ≠ [] ∧ (⟨0, 1, .predicted 4⟩ : UEvent ℕ) ∉ b := by
  obtain ⟨h1, h2, -⟩ := C04_pop_earliest_batch (sortedHeap _ : TimeHeap ℕ)
    ([.add ⟨0, 1, .predicted 4⟩] ++ [.remove ⟨0, 1, .predicted 4⟩] ++ [.add ⟨2, 1, .hit 3 .V 7⟩])
    (by decide)
  exact ⟨_, _, h1, h2, C04_removed_never_popped _ _ _ _ (by decide) (by simp) _ _ h1⟩

/-- `C05_pop_decrements_len` on `exHistory`, whose length is 2. -/
example : ∃ b q', (runC (sortedHeap _ : TimeHeap ℕ) exHistory).pop (sortedHeap _) = .ok (b, q') ∧
    b ≠ [] ∧ q'.len = .ok 1 :=
  C05_pop_decrements_len _ exHistory 1 (by rw [C05_len]; decide)

/-- `C05_pop_error`: after one event was added and popped the queue is empty, and `pop` raises
IndexError. -/
example : (runC (sortedHeap _ : TimeHeap ℕ) [.add ⟨0, 1, .predicted 4⟩, .pop]).pop (sortedHeap _) =
    .error .indexError :=
  (C05_pop_error _ _ _).mpr ⟨by decide, rfl⟩

end Axon
