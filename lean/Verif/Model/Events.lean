import Verif.Model.Py

namespace Axon
variable {K : Type*}

/-! ## SpikeEventQueue (axon_sdk/primitives/events.py:7-48) -/

/-- Synapse type strings (events.py, elements.py:85-94).  The four strings the code compares against
are constructors; any other string is `other s`. -/
inductive SynKind
  | V | ge | gf | gate
  | other (s : String)
  deriving DecidableEq, Repr

/-- events.py:7-18 `SpikeEvent`; `affected_neuron` is the neuron's identity (creation number). -/
structure Event (K : Type*) where
  time : K
  neuron : ℕ
  kind : SynKind
  weight : K
  deriving DecidableEq, Repr

section
variable [LinearOrder K]

/-- The heaps that can hold `SpikeEvent`s: ordered by `__lt__` on `time` (events.py:20-22). -/
abbrev EventHeap (K : Type*) [LinearOrder K] := Heap (Event K) (fun e : Event K => e.time)

/-- events.py:29-42 `SpikeEventQueue.add_event`. -/
def addEvent (H : EventHeap K) (q : List (Event K)) (e : Event K) : List (Event K) := H.push q e

/-- events.py:44-48 `SpikeEventQueue.pop_events`: the `while` loop, with `n` an upper bound on the
number of iterations (the queue length always suffices, see `popEvents`). -/
def popLoop (H : EventHeap K) (t : K) : ℕ → List (Event K) → List (Event K) × List (Event K)
  | 0, q => ([], q)
  | _ + 1, [] => ([], [])
  | n + 1, x :: q =>
    if x.time ≤ t then
      let r := popLoop H t n (H.rest (x :: q))
      (x :: r.1, r.2)
    else ([], x :: q)

/-- events.py:44-48 `SpikeEventQueue.pop_events(current_time)`: popped events and remaining queue. -/
def popEvents (H : EventHeap K) (t : K) (q : List (Event K)) : List (Event K) × List (Event K) :=
  popLoop H t q.length q

end

/-! ## CancelableEventQueue (events.py:51-124) -/

/-- events.py:51-82 `UniqueEvent` with its subclasses `SpikeHitEvent` and `PredictedSpikeEvent`.
`id` is the value drawn from the class counter (events.py:52,59).  Python compares these objects by
identity; since every object draws a fresh `id`, two references denote the same object iff the
records (with `id`) are equal, so the model uses equality of records. -/
inductive UPayload (K : Type*)
  | hit (neuron : ℕ) (kind : SynKind) (weight : K)   -- SpikeHitEvent, events.py:66-77
  | predicted (neuron : ℕ)                           -- PredictedSpikeEvent, events.py:79-82
  deriving DecidableEq, Repr

/-- events.py:51-63 `UniqueEvent` with the data of its two subclasses (events.py:66-82). -/
structure UEvent (K : Type*) where
  id : ℕ
  time : K
  payload : UPayload K
  deriving DecidableEq, Repr

/-- events.py:91-93: the heap of times and the dictionary from times to event lists. -/
structure CQueue (K : Type*) where
  times : List K
  at_ : K → Option (List (UEvent K))

section
variable [LinearOrder K]

/-- events.py:92,106,115: the list of times kept with `heapq`. -/
abbrev TimeHeap (K : Type*) [LinearOrder K] := Heap K (fun t : K => t)

/-- events.py:91-93 `__init__`. -/
def CQueue.empty : CQueue K := ⟨[], fun _ => none⟩

/-- events.py:95-101 `remove`.  `list.remove` deletes the first equal (i.e. identical) element. -/
def CQueue.remove (q : CQueue K) (e : UEvent K) : CQueue K :=
  match q.at_ e.time with
  | none => q
  | some l =>
    if e ∈ l then { q with at_ := Function.update q.at_ e.time (some (l.erase e)) } else q

/-- events.py:103-108 `add_event`. -/
def CQueue.add (H : TimeHeap K) (q : CQueue K) (e : UEvent K) : CQueue K :=
  match q.at_ e.time with
  | none => { times := H.push q.times e.time
              at_ := Function.update q.at_ e.time (some [e]) }
  | some l => { q with at_ := Function.update q.at_ e.time (some (l ++ [e])) }

/-- events.py:114-117, the `while` loop of `pop`; `n` bounds the iterations. -/
def CQueue.popLoop (H : TimeHeap K) : ℕ → CQueue K → Except PyErr (List (UEvent K) × CQueue K)
  | 0, q => .ok ([], q)
  | n + 1, q =>
    match q.times with
    | [] => .ok ([], q)
    | t :: ts =>
      match q.at_ t with
      | none => .error .keyError
      | some evs =>
        let q' : CQueue K := { times := H.rest (t :: ts), at_ := Function.update q.at_ t none }
        if evs.length = 0 then CQueue.popLoop H n q' else .ok (evs, q')

/-- events.py:110-118 `pop`. -/
def CQueue.pop (H : TimeHeap K) (q : CQueue K) : Except PyErr (List (UEvent K) × CQueue K) :=
  if q.times = [] then .error .indexError else CQueue.popLoop H q.times.length q

/-- events.py:120-124 `__len__`; a time of the heap missing in the dict would be a KeyError. -/
def CQueue.len (q : CQueue K) : Except PyErr ℕ :=
  if q.times.all (fun t => (q.at_ t).isSome) then
    .ok (q.times.filter (fun t => match q.at_ t with | some l => l.length != 0 | none => false)).length
  else .error .keyError

end
end Axon
