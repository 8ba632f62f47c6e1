import Verif.Proofs.Heapq
import Verif.Props.Queue

/-! # C70: the heap algorithm behind both event queues -/
namespace Axon
open Spec
variable {α K : Type*} [LinearOrder K]

/-- The lists that heappush and heappop can produce from an empty list. -/
inductive HeapList (key : α → K) : List α → Prop
  | empty : HeapList key []
  | push {h : List α} (x : α) (hh : HeapList key h) : HeapList key (heappush key h x)
  | pop {h : List α} (hh : HeapList key h) : HeapList key (heappopRest key h)

theorem HeapList.isHeap {key : α → K} {h : List α} (hh : HeapList key h) : IsHeap key h := by
  induction hh with
  | empty => exact (cpythonHeap key).inv_nil
  | push x _ ih => exact (heappush_spec key _ x ih).1
  | @pop h _ ih =>
    cases h with
    | nil => exact (cpythonHeap key).inv_nil
    | cons x h => exact (heappop_spec key x h ih).1

/-- **C70.** After any history of heappush and heappop, heappush adds the item and loses none; heappop returns an item with the least key, and
leaves exactly the others. -/
theorem C70_heapq {key : α → K} {h : List α} (hh : HeapList key h) :
    (∀ x, (heappush key h x).Perm (x :: h)) ∧
    ∀ x t, h = x :: t → (∀ y ∈ t, key x ≤ key y) ∧ (heappopRest key h).Perm t := by
  refine ⟨fun x => (heappush_spec key h x hh.isHeap).2, ?_⟩
  rintro x t rfl
  exact ⟨(cpythonHeap key).min_head x t hh.isHeap, (heappop_spec key x t hh.isHeap).2⟩

/-- Pop everything. -/
def popAll (key : α → K) : ℕ → List α → List α
  | 0, _ => []
  | _ + 1, [] => []
  | n + 1, x :: h => x :: popAll key n (heappopRest key (x :: h))

theorem popAll_spec {key : α → K} : ∀ (n : ℕ) (h : List α), h.length = n → HeapList key h →
    (popAll key n h).Perm h ∧ (popAll key n h).Pairwise (fun a b => key a ≤ key b)
  | 0, h, hn, _ => by rw [List.length_eq_zero_iff] at hn; subst hn; simp [popAll]
  | n + 1, [], hn, _ => by simp at hn
  | n + 1, x :: h, hn, hh => by
    obtain ⟨-, h2⟩ := C70_heapq hh
    obtain ⟨h3, h4⟩ := h2 x h rfl
    obtain ⟨i1, i2⟩ := popAll_spec n (heappopRest key (x :: h)) (by rw [h4.length_eq]; simpa using hn) hh.pop
    refine ⟨(i1.trans h4).cons x, List.pairwise_cons.mpr ⟨fun y hy => h3 y (h4.subset (i1.subset hy)), i2⟩⟩

/-- **C70.** After any history, popping everything returns the stored items, each once, in order of their keys. -/
theorem C70_drains_sorted {key : α → K} {h : List α} (hh : HeapList key h) :
    (popAll key h.length h).Perm h ∧ (popAll key h.length h).Pairwise (fun a b => key a ≤ key b) := popAll_spec _ _ rfl hh

/-- So the event queue that uses CPython's heapq returns, after any history, exactly the pending events that are due, by time (C03 for it). -/
example (ops : List (QOp K)) (t : K) :
    let r := popEvents (cpythonHeap (fun e : Event K => e.time)) t (runQ (cpythonHeap _) ops [])
    (r.1 : Multiset (Event K)) = (pending ops 0).filter (fun e => e.time ≤ t) ∧
    r.1.Pairwise (fun a b => a.time ≤ b.time) ∧
    (r.2 : Multiset (Event K)) = (pending ops 0).filter (fun e => ¬ e.time ≤ t) := C03_pop_due_exactly_once _ ops t

/-- A history with duplicate keys. -/
example : let key := fun n : ℕ => n % 10
    HeapList key (heappush key (heappush key (heappopRest key (heappush key (heappush key (heappush key [] 5) 13) 3)) 12) 1) := by
  intro key
  exact .push _ (.push _ (.pop (.push _ (.push _ (.push _ .empty)))))

end Axon
