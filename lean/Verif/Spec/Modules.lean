import Verif.Model.Modules
import Mathlib.Logic.Relation

/-! # Specification vocabulary for module trees -/
namespace Axon.Spec
variable {K : Type*}

mutual
/-- The leaf found in a nested list by following the path `p` of indices, if there is one there. -/
def leafAt {α : Type*} : List (PyVal α) → List ℕ → Option α
  | [], _ => none
  | _ :: _, [] => none
  | v :: _, 0 :: p => leafOf v p
  | _ :: vs, (i + 1) :: p => leafAt vs (i :: p)
/-- The leaf found in a value: a non-list is its own leaf, with the empty path. -/
def leafOf {α : Type*} : PyVal α → List ℕ → Option α
  | .item a, [] => some a
  | .item _, _ :: _ => none
  | .list l, p => leafAt l p
end

/-- Worlds reachable through the public API from a fresh process: every call names objects that
exist. -/
inductive Built : World K → Prop
  | empty : Built World.empty
  | newModule {w : World K} (k name) : Built w → Built (newModule k name w).2
  | addNeuron {w : World K} (m Vt tm tf Vr name) : Built w → m < w.mCount →
      Built (addNeuron m Vt tm tf Vr name w).2
  | addSubnetwork {w : World K} (m s) : Built w → m < w.mCount → s < w.mCount →
      Built (addSubnetwork m s w).2
  | connect {w : World K} (a b k wt d) : Built w → a < w.nCount → b < w.nCount →
      Built (connect a b k wt d w).2

/-- `c` was attached to `m` with `add_subnetwork`. -/
def Child (w : World K) (m c : ℕ) : Prop := (m, c) ∈ w.sub

/-- `m'` is `m` or a transitive submodule of `m`. -/
def InTree (w : World K) : ℕ → ℕ → Prop := Relation.ReflTransGen (Child w)

/-- Some module in the tree of `m` is a transitive submodule of itself. -/
def Cyclic (w : World K) (m : ℕ) : Prop :=
  ∃ m', InTree w m m' ∧ Relation.TransGen (Child w) m' m'

/-- `n` was added to module `m` with `add_neuron`. -/
def Owns (w : World K) (m n : ℕ) : Prop := (m, n) ∈ w.own

/-- `l` lists the tree of `m` depth first: own neurons in creation order, then the listings of the
submodules in attachment order. -/
inductive Listing (w : World K) : ℕ → List ℕ → Prop
  | mk (m : ℕ) (f : ℕ → List ℕ) : (∀ c ∈ w.subnetworks m, Listing w c (f c)) →
      Listing w m (w.topNeurons m ++ (w.subnetworks m).flatMap f)

end Axon.Spec
