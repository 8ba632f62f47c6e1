import Verif.Model.Py

/-! # CPython's `heapq` (Lib/heapq.py), used by axon_sdk/primitives/events.py:42,47,106,115 -/
namespace Axon
variable {α K : Type*} [LinearOrder K]

/-- Lib/heapq.py `_siftdown(heap, 0, pos)`, with `new = heap[pos]` (both callers start at position 0): the `while pos > startpos` loop,
moving the hole towards the root. The comparison `newitem < parent` is by key, like `SpikeEvent.__lt__` (events.py:20-22). -/
def heapSiftdown (key : α → K) (h : List α) (pos : ℕ) (new : α) : List α :=
  match pos with
  | 0 => h.set 0 new
  | p + 1 =>
    match h[p / 2]? with
    | some parent => if key new < key parent then heapSiftdown key (h.set (p + 1) parent) (p / 2) new else h.set (p + 1) new
    | none => h -- IndexError, unreachable
  termination_by pos
  decreasing_by omega

/-- Lib/heapq.py `_siftup(heap, pos)`, with `new = heap[pos]`: the `while childpos < endpos` loop moves the smaller child up until the hole
is a leaf, then the new item is put there and sifted down. -/
def heapSiftup (key : α → K) (h : List α) (pos : ℕ) (new : α) : List α :=
  if hc : 2 * pos + 1 < h.length then
    if hr : 2 * pos + 2 < h.length ∧ ∀ hr : 2 * pos + 2 < h.length, ¬ key (h[2 * pos + 1]) < key (h[2 * pos + 2]) then
      heapSiftup key (h.set pos (h[2 * pos + 2]'hr.1)) (2 * pos + 2) new
    else heapSiftup key (h.set pos h[2 * pos + 1]) (2 * pos + 1) new
  else heapSiftdown key (h.set pos new) pos new
  termination_by h.length - pos
  decreasing_by all_goals (simp only [List.length_set]; omega)

/-- Lib/heapq.py `heappush`. -/
def heappush (key : α → K) (h : List α) (x : α) : List α := heapSiftdown key (h ++ [x]) h.length x

/-- Lib/heapq.py `heappop`: what is left of the heap (the returned item is its first element). -/
def heappopRest (key : α → K) (h : List α) : List α :=
  match h.getLast? with
  | none => []
  | some last => if h.dropLast = [] then [] else heapSiftup key (h.dropLast.set 0 last) 0 last

end Axon
