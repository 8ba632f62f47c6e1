import Verif.Spec.Predictive
import Verif.Spec.PredSession

/-! # Networks in which excitation does not go round in circles -/
namespace Axon.Spec
variable {K : Type*}

/-- A synapse that can only hold its target back: it lowers the potential or the constant current (or leaves them alone). -/
def Inhibits [LE K] [Zero K] (s : Synapse K) : Prop := (s.kind = .V ∨ s.kind = .ge) ∧ s.weight ≤ 0

/-- There is no directed cycle of synapses that can excite; cycles through an inhibitory synapse are allowed. -/
def ExcitesAcyclic [LE K] [Zero K] (net : Net K) : Prop :=
  ∀ n, ¬ Relation.TransGen (fun a b => ∃ s ∈ net.syns, s.pre = a ∧ s.post = b ∧ ¬ Inhibits s) n n

/-- The predictive simulator ends, without an exception, on module 0 of the world `w`, whatever is injected into its neurons. -/
def AlwaysEnds [Field K] [LinearOrder K] [FloorRing K] (H : TimeHeap K) (exp : K → K) (enc : Encoder K) (dt : K) (w : World K) : Prop :=
  ∃ ns, w.neurons 0 = .ok ns ∧ ∀ cs : List (Call K), (∀ c ∈ cs, CallOK c ∧ (match c with | .spike n _ => n ∈ ns | .value _ n _ => n ∈ ns)) →
    PredEnds H exp enc dt w 0 cs (fun _ => True)

end Axon.Spec
