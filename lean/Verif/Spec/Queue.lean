import Verif.Model.Events
import Mathlib.Data.Multiset.Filter
import Mathlib.Data.List.Sort

/-!
# Specification of the two event queues

Pending events as plain collections: a multiset for `SpikeEventQueue` (order among equal times is
unspecified), a list in insertion order for `CancelableEventQueue`.
-/
namespace Axon.Spec
variable {K : Type*} [LinearOrder K]

/-- The calls a user can make on a `SpikeEventQueue`. -/
inductive QOp (K : Type*)
  | add (e : Event K)
  | pop (t : K)

/-- What is pending after a history of calls (oldest call first): additions put an event in,
`pop t` takes out everything due by `t`. -/
def pending : List (QOp K) → Multiset (Event K) → Multiset (Event K)
  | [], m => m
  | .add e :: ops, m => pending ops (e ::ₘ m)
  | .pop t :: ops, m => pending ops (m.filter (fun e => ¬ e.time ≤ t))

/-- The calls a user can make on a `CancelableEventQueue`. -/
inductive COp (K : Type*)
  | add (e : UEvent K)
  | remove (e : UEvent K)
  | pop

/-- The pending events with the smallest time, in insertion order. -/
def batch (p : List (UEvent K)) : List (UEvent K) := p.filter (fun e => ∀ x ∈ p, e.time ≤ x.time)

/-- The pending events that stay behind when the batch is taken. -/
def others (p : List (UEvent K)) : List (UEvent K) := p.filter (fun e => ¬ ∀ x ∈ p, e.time ≤ x.time)

/-- One call, on the plain list of pending events. -/
def cstep (p : List (UEvent K)) : COp K → List (UEvent K)
  | .add e => p ++ [e]
  | .remove e => p.erase e
  | .pop => others p

/-- Pending events after a history of calls on an empty queue. -/
def cpending (ops : List (COp K)) : List (UEvent K) := ops.foldl cstep []

end Axon.Spec
