import Mathlib.Order.Defs.LinearOrder
import Mathlib.Data.List.Perm.Basic

/-!
# Python runtime conventions used by the model

Exceptions are values; `heapq` is a parameter with a small contract.
-/
namespace Axon

/-- Python exceptions raised by the modelled code, e.g. elements.py:94, simulator.py:57, events.py:112 (all raise sites are cited at the use sites). -/
inductive PyErr
  | valueError      -- ValueError
  | keyError        -- KeyError
  | indexError      -- IndexError
  | assertionError  -- AssertionError
  | typeError       -- TypeError
  | zeroDivision    -- ZeroDivisionError
  | recursionError  -- RecursionError
  | exception       -- plain Exception(...)
  deriving DecidableEq, Repr

/-- The contract of Python's `heapq` (used in axon_sdk/primitives/events.py:42,46-47,106,115).
`heapq` is not part of /repo; the model is parametric in any implementation satisfying these laws:
a heap is a Python list `h`, `heap[0]` is a minimum, `heappush` adds the item, `heappop` returns
`heap[0]` and removes it.  The order among items with equal keys is left open. -/
structure Heap (α : Type*) {K : Type*} [LinearOrder K] (key : α → K) where
  /-- `heapq.heappush(h, x)`, returning the new list. -/
  push : List α → α → List α
  /-- `heapq.heappop(h)` on a non-empty list, returning the rest (the result is `h[0]`). -/
  rest : List α → List α
  /-- The representation invariant established by `[]` and preserved by the operations. -/
  Inv : List α → Prop
  inv_nil : Inv []
  inv_push : ∀ h x, Inv h → Inv (push h x)
  perm_push : ∀ h x, Inv h → (push h x).Perm (x :: h)
  inv_rest : ∀ x h, Inv (x :: h) → Inv (rest (x :: h))
  perm_rest : ∀ x h, Inv (x :: h) → (rest (x :: h)).Perm h
  min_head : ∀ x h, Inv (x :: h) → ∀ y ∈ h, key x ≤ key y

end Axon
