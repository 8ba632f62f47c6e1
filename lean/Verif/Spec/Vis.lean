import Verif.Spec.Modules

/-! # Specification vocabulary for the topology view -/
namespace Axon.Spec
variable {K : Type*}

/-- `n` belongs to module `g` or one of its transitive submodules. -/
def Within (w : World K) (g n : ℕ) : Prop := ∃ m', InTree w g m' ∧ Owns w m' n

/-- The place of neuron `n` as seen from module `m`: `m` itself for its own neurons, otherwise the direct
submodule of `m` that contains it. -/
def Region (w : World K) (m n g : ℕ) : Prop := (g = m ∧ Owns w m n) ∨ (Child w m g ∧ Within w g n)

/-- No module is attached twice, and nothing below `m` contains itself. -/
structure Forest (w : World K) (m : ℕ) : Prop where
  once : (w.sub.map (·.2)).Nodup
  acyclic : ¬ Cyclic w m

/-- The colours of the lines in the topology view: `ge` red, `gf` green, `gate` blue, everything else black. -/
def lineColour (k : SynKind) : String :=
  if k = .ge then "#FF0830" else if k = .gf then "#006400" else if k = .gate then "#0E1AFE" else "#000000"

end Axon.Spec
