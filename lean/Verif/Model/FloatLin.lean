import Verif.Model.FloatNets

/-!
# The linear combinator, built in Python floats

The constructor of `LinearCombinatorNetwork` (`Verif/Model/Networks.lean` over exact numbers) once more, with every literal and every operation a Python float.
-/
namespace Axon

/-- linear_combinator.py:118 `abs(c_i)` on a float. -/
def absFl (c : Double) : Double := if 0 ≤ c then c else -c

/-- linear_combinator.py:156-157 `we / N`: unlike synchronizer.py:49 there is no margin. -/
def linWFl (N : ℕ) : Double := weFl / (N : Double)

/-- linear_combinator.py:30-48,112-113: the attributes of `LinearCombinatorNetwork`. -/
structure LinPortsFl extends LinPorts where
  acc2Plus : ℕ
  acc2Minus : ℕ
  interPlus : ℕ
  interMinus : ℕ
  sync : ℕ

/-- functional/linear_combinator.py:115-174: the body of the loop for one coefficient `c`; returns the two input neurons. -/
def linCombRoundFl (enc : Encoder Double) (N m acc1p acc1m sync i : ℕ) (c : Double) : Build Double (ℕ × ℕ) := do
  let inputPlus ← addFl m ("input_plus_" ++ toString i)
  let inputMinus ← addFl m ("input_minus_" ++ toString i)
  let firstPlus ← addFl m ("first_plus_" ++ toString i)
  let firstMinus ← addFl m ("first_minus_" ++ toString i)
  let lastPlus ← addFl m ("last_plus_" ++ toString i)
  let lastMinus ← addFl m ("last_minus_" ++ toString i)
  connect inputPlus firstPlus .V weFl tsynFl
  connect inputPlus lastPlus .V (Fl.of (1 / 2) * weFl) tsynFl
  connect inputMinus firstMinus .V weFl tsynFl
  connect inputMinus lastMinus .V (Fl.of (1 / 2) * weFl) tsynFl
  connect firstPlus firstPlus .V wiFl tsynFl
  connect firstMinus firstMinus .V wiFl tsynFl
  connect lastPlus sync .V (linWFl N) tsynFl
  connect lastMinus sync .V (linWFl N) tsynFl
  let targetPlus := if 0 < c then acc1p else acc1m
  let targetMinus := if 0 < c then acc1m else acc1p
  connect firstPlus targetPlus .ge (absFl c * enc.waccFl) (tsynFl + enc.Tmin)
  connect lastPlus targetPlus .ge (-absFl c * enc.waccFl) tsynFl
  connect firstMinus targetMinus .ge (absFl c * enc.waccFl) (tsynFl + enc.Tmin)
  connect lastMinus targetMinus .ge (-absFl c * enc.waccFl) tsynFl
  return (inputPlus, inputMinus)

/-- functional/linear_combinator.py:115: rounds for the coefficients `coeff[i:]`. -/
def linCombLoopFl (enc : Encoder Double) (N m acc1p acc1m sync : ℕ) : ℕ → List Double → Build Double (List (ℕ × ℕ))
  | _, [] => return []
  | i, c :: cs => do
    let r ← linCombRoundFl enc N m acc1p acc1m sync i c
    let rs ← linCombLoopFl enc N m acc1p acc1m sync (i + 1) cs
    return r :: rs

/-- functional/linear_combinator.py:8-174 `LinearCombinatorNetwork.__init__` with `N = len(coeff)`
(a shorter `coeff` raises IndexError in Python, a longer one is cut off; not modelled).
`kind` is the class (`AdderNetwork` inherits this constructor). -/
def linearCombinatorFl (kind : ModKind) (enc : Encoder Double) (coeff : List Double) (name : Option String) : Build Double LinPortsFl := do
  let m ← newModule kind name
  let acc1p ← addFl m "acc1_plus"
  let acc1m ← addFl m "acc1_minus"
  let acc2p ← addFl m "acc2_plus"
  let acc2m ← addFl m "acc2_minus"
  let interMinus ← addFl m "inter_minus"
  let interPlus ← addFl m "inter_plus"
  let outputPlus ← addFl m "output_plus"
  let outputMinus ← addFl m "output_minus"
  let start ← addFl m "start"
  let sync ← addFl m "sync"
  let syncNet ← synchronizerFl enc 2 (some "sync_net")
  let (sub, subInput1, subInput2, subPlus, subMinus) ← subtractorFl enc (some "sub_net")
  addSubnetwork m syncNet.mod
  addSubnetwork m sub
  connect (syncNet.outputs.getD 0 0) subInput1 .V weFl tsynFl
  connect (syncNet.outputs.getD 1 0) subInput2 .V weFl tsynFl
  connect subPlus start .V weFl tsynFl
  connect subMinus start .V weFl tsynFl
  connect subPlus outputPlus .V weFl tsynFl
  connect subMinus outputMinus .V weFl tsynFl
  connect start start .V wiFl tsynFl
  connect interPlus (syncNet.inputs.getD 0 0) .V weFl tsynFl
  connect interMinus (syncNet.inputs.getD 1 0) .V weFl tsynFl
  connect sync acc1p .ge enc.waccFl tsynFl
  connect sync acc1m .ge enc.waccFl tsynFl
  connect sync acc2p .ge enc.waccFl tsynFl
  connect sync acc2m .ge enc.waccFl tsynFl
  connect acc1p interPlus .V weFl tsynFl
  connect acc1m interMinus .V weFl tsynFl
  connect acc2p interPlus .V weFl (tsynFl + enc.Tmin)
  connect acc2m interMinus .V weFl (tsynFl + enc.Tmin)
  let rs ← linCombLoopFl enc coeff.length m acc1p acc1m sync 0 coeff
  return ⟨⟨m, outputPlus, outputMinus, start, rs.map (·.1), rs.map (·.2)⟩, acc2p, acc2m, interPlus, interMinus, sync⟩

end Axon
