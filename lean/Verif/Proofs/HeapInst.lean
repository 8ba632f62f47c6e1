import Verif.Model.Events
import Mathlib.Data.List.Sort

/-! A first instance of the `heapq` contract (a sorted list), used to show that statements
parametric in a heap are not vacuous. -/
namespace Axon
variable {K : Type*} [LinearOrder K]

/-- A heap kept as a sorted list.  Not the code's representation; see `Verif.Model.Heapq` and `cpythonHeap` for the
transcription of CPython's algorithm. -/
def sortedHeap {α : Type*} (key : α → K) : Heap α key where
  push h x := h.orderedInsert (fun a b => key a ≤ key b) x
  rest h := h.tail
  Inv h := h.Pairwise (fun a b => key a ≤ key b)
  inv_nil := List.Pairwise.nil
  inv_push h x hh := by
    have : Std.Total (fun a b : α => key a ≤ key b) := ⟨fun a b => le_total _ _⟩
    have : IsTrans α (fun a b : α => key a ≤ key b) := ⟨fun a b c h1 h2 => le_trans h1 h2⟩
    exact hh.orderedInsert x h
  perm_push h x _ := List.perm_orderedInsert _ _ _
  inv_rest x h hh := (List.pairwise_cons.mp hh).2
  perm_rest x h _ := List.Perm.refl _
  min_head x h hh := (List.pairwise_cons.mp hh).1

end Axon
