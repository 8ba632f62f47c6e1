import Verif.Model.Networks
import Verif.Model.DoubleOps
import Verif.Model.Modules

/-!
# Some networks of the library, built in Python floats

`Verif/Model/Networks.lean` transcribes the constructors over exact numbers.  Here the constructors of the sign flipper, the constants, the memories, the
subtractor, the logarithm, the exponential, the multiplier, the divider, the scalar multiplier and the synchronizer are transcribed once more, with every literal and every operation a Python float.
-/
namespace Axon

/-- `Vt = 10.0`, `tm = 100.0`, `tf = 20.0`, `Vreset = 0.0` (e.g. memory.py:13-15, networks.py:82-99). -/
def stdFl : Params Double := ⟨Fl.of 10, Fl.of 100, Fl.of 20, 0⟩
/-- `self.add_neuron(Vt=Vt, tm=tm, tf=tf, neuron_name=name)` (networks.py:82-99). -/
def addFl (m : ℕ) (name : String) : Build Double ℕ := addNeuron m stdFl.Vt stdFl.tm stdFl.tf stdFl.Vreset (some name)
/-- e.g. memory.py:17 `we = Vt`. -/
abbrev weFl : Double := Fl.of 10
/-- e.g. memory.py:18 `wi = -Vt`. -/
abbrev wiFl : Double := -Fl.of 10
/-- e.g. memory.py:19 `Tsyn = 1.0`. -/
abbrev tsynFl : Double := Fl.of 1
/-- memory.py:22 `wacc = Vt * tm / encoder.Tmax`. -/
def Encoder.waccFl (enc : Encoder Double) : Double := Fl.of 10 * Fl.of 100 / enc.Tmax

/-- functional/signflip.py:7-42 `SignFlipperNetwork.__init__`; returns the module and the neurons inp_plus, inp_minus, outp_plus, outp_minus. -/
def signFlipperFl (name : Option String) : Build Double (ℕ × ℕ × ℕ × ℕ × ℕ) := do
  let m ← newModule .signFlipper name
  let inpPlus ← addFl m "inp_plus"
  let inpMinus ← addFl m "inp_minus"
  let outpPlus ← addFl m "outp_plus"
  let outpMinus ← addFl m "outp_minus"
  connect inpPlus outpMinus .V weFl tsynFl
  connect inpMinus outpPlus .V weFl tsynFl
  return (m, inpPlus, inpMinus, outpPlus, outpMinus)

/-- memory/constant.py:9-31 `ConstantNetwork.__init__`; returns the module and the neurons recall, output. -/
def constantFl (enc : Encoder Double) (value : Double) (name : Option String) : Build Double (ℕ × ℕ × ℕ) := do
  let m ← newModule .plain name
  let recall ← addFl m "recall"
  let output ← addFl m "output"
  connect recall output .V weFl tsynFl
  connect recall output .V weFl (tsynFl + (value * enc.Tcod + enc.Tmin))
  return (m, recall, output)

/-- memory/memory.py:10-70 `MemoryNetwork.__init__`; returns the module and the neurons input, output, recall, ready. -/
def memoryFl (enc : Encoder Double) (name : Option String) : Build Double (ℕ × ℕ × ℕ × ℕ × ℕ) := do
  let m ← newModule .plain name
  let input ← addFl m "input"
  let first ← addFl m "first"
  let last ← addFl m "last"
  let acc ← addFl m "acc"
  let acc2 ← addFl m "acc2"
  let recall ← addFl m "recall"
  let ready ← addFl m "ready"
  let output ← addFl m "output"
  connect input first .V weFl tsynFl
  connect input last .V (Fl.of (1 / 2) * weFl) tsynFl
  connect first first .V wiFl tsynFl
  connect first acc .ge enc.waccFl tsynFl
  connect last acc2 .ge enc.waccFl (Fl.of 2 * tsynFl)
  connect acc acc2 .ge (-enc.waccFl) tsynFl
  connect recall acc2 .ge enc.waccFl tsynFl
  connect recall output .V weFl (Fl.of 2 * tsynFl)
  connect acc2 output .V weFl tsynFl
  connect acc ready .V weFl tsynFl
  return (m, input, output, recall, ready)

/-- memory/signed_constant.py:10-41 `SignedConstantNetwork.__init__`; `math.fabs(value)` is `-value` for a negative float. Returns the module and the neurons
recall, output_plus, output_minus. -/
def signedConstantFl (enc : Encoder Double) (value : Double) (name : Option String) : Build Double (ℕ × ℕ × ℕ × ℕ) := do
  let m ← newModule .plain name
  let recall ← addFl m "recall"
  let outputPlus ← addFl m "output_plus"
  let outputMinus ← addFl m "output_minus"
  if 0 ≤ value then
    connect recall outputPlus .V weFl tsynFl
    connect recall outputPlus .V weFl (tsynFl + (value * enc.Tcod + enc.Tmin))
  else
    connect recall outputMinus .V weFl tsynFl
    connect recall outputMinus .V weFl (tsynFl + (-value * enc.Tcod + enc.Tmin))
  return (m, recall, outputPlus, outputMinus)

/-- memory/signed_memory.py:10-71 `SignedMemoryNetwork.__init__`; returns the module and the neurons input_pos, input_neg, recall, output_pos, output_neg, ready. -/
def signedMemoryFl (enc : Encoder Double) (name : Option String) : Build Double (ℕ × ℕ × ℕ × ℕ × ℕ × ℕ × ℕ) := do
  let m ← newModule .plain name
  let inputPos ← addFl m "input+"
  let inputNeg ← addFl m "input-"
  let readyPos ← addFl m "ready+"
  let readyNeg ← addFl m "ready-"
  let recall ← addFl m "recall"
  let outputPos ← addFl m "output+"
  let outputNeg ← addFl m "output-"
  let readyOut ← addFl m "ready"
  let (mem, memInput, memOutput, memRecall, _) ← memoryFl enc none
  addSubnetwork m mem
  connect inputPos readyPos .V weFl tsynFl
  connect inputNeg readyNeg .V weFl tsynFl
  connect inputPos readyNeg .V (Fl.of (1 / 4) * weFl) tsynFl
  connect inputNeg readyPos .V (Fl.of (1 / 4) * weFl) tsynFl
  connect readyPos readyNeg .V (Fl.of (1 / 2) * wiFl) tsynFl
  connect readyNeg readyPos .V (Fl.of (1 / 2) * wiFl) tsynFl
  connect recall readyPos .V (Fl.of (1 / 2) * weFl) tsynFl
  connect recall readyNeg .V (Fl.of (1 / 2) * weFl) tsynFl
  connect inputPos memInput .V weFl tsynFl
  connect inputNeg memInput .V weFl tsynFl
  connect recall memRecall .V weFl tsynFl
  connect memOutput outputPos .V weFl tsynFl
  connect memOutput outputNeg .V weFl tsynFl
  connect readyPos outputNeg .V (Fl.of 2 * wiFl) tsynFl
  connect readyNeg outputPos .V (Fl.of 2 * wiFl) tsynFl
  connect memOutput readyOut .V weFl tsynFl
  return (m, inputPos, inputNeg, recall, outputPos, outputNeg, readyOut)

/-- memory/inverting_memory.py:10-42 `InvertingMemoryNetwork.__init__`; returns the module and the neurons input, output, recall. -/
def invMemoryFl (enc : Encoder Double) (name : Option String) : Build Double (ℕ × ℕ × ℕ × ℕ) := do
  let m ← newModule .plain name
  let input ← addFl m "input"
  let first ← addFl m "first"
  let last ← addFl m "last"
  let acc ← addFl m "acc"
  let recall ← addFl m "recall"
  let output ← addFl m "output"
  connect input first .V weFl tsynFl
  connect input last .V (Fl.of (1 / 2) * weFl) tsynFl
  connect first first .V wiFl tsynFl
  connect first acc .ge enc.waccFl (tsynFl + enc.Tmin)
  connect last acc .ge (-enc.waccFl) tsynFl
  connect recall acc .ge enc.waccFl tsynFl
  connect acc output .V weFl tsynFl
  connect recall output .V weFl (Fl.of 2 * tsynFl + Fl.of (1 / 100))
  return (m, input, output, recall)

/-- functional/subtractor.py:15 `Tneu = 0.01`. -/
abbrev tneuFl : Double := Fl.of (1 / 100)

/-- functional/subtractor.py:5-86 `SubtractorNetwork.__init__`; returns the module and the neurons input1, input2, output_plus, output_minus. -/
def subtractorFl (enc : Encoder Double) (name : Option String) : Build Double (ℕ × ℕ × ℕ × ℕ × ℕ) := do
  let m ← newModule .plain name
  let input1 ← addFl m "input1"
  let input2 ← addFl m "input2"
  let sync1 ← addFl m "sync1"
  let sync2 ← addFl m "sync2"
  let inb1 ← addFl m "inb1"
  let inb2 ← addFl m "inb2"
  let outputPlus ← addFl m "output_plus"
  let outputMinus ← addFl m "output_minus"
  let zero ← addFl m "zero"
  connect input1 sync1 .V (Fl.of (1 / 2) * weFl) tsynFl
  connect input2 sync2 .V (Fl.of (1 / 2) * weFl) tsynFl
  connect sync1 inb1 .V weFl tsynFl
  connect sync2 inb2 .V weFl tsynFl
  connect sync1 inb2 .V wiFl tsynFl
  connect sync2 inb1 .V wiFl tsynFl
  connect sync1 outputPlus .V weFl (enc.Tmin + (Fl.of 3 * tsynFl + Fl.of 2 * tneuFl))
  connect sync2 outputMinus .V weFl (enc.Tmin + (Fl.of 3 * tsynFl + Fl.of 2 * tneuFl))
  connect sync2 outputPlus .V weFl (Fl.of 3 * tsynFl + Fl.of 2 * tneuFl)
  connect sync1 outputMinus .V weFl (Fl.of 3 * tsynFl + Fl.of 2 * tneuFl)
  connect inb2 outputMinus .V (Fl.of 2 * wiFl) tsynFl
  connect inb1 outputPlus .V (Fl.of 2 * wiFl) tsynFl
  connect outputPlus inb2 .V (Fl.of (1 / 2) * weFl) tsynFl
  connect outputMinus inb1 .V (Fl.of (1 / 2) * weFl) tsynFl
  connect zero zero .V weFl tneuFl
  connect sync1 zero .V (Fl.of (1 / 2) * wiFl) (Fl.of 2 * tneuFl)
  connect sync2 zero .V (Fl.of (1 / 2) * wiFl) (Fl.of 2 * tneuFl)
  connect sync1 zero .V (Fl.of (1 / 2) * weFl) tneuFl
  connect sync2 zero .V (Fl.of (1 / 2) * weFl) tneuFl
  connect zero outputMinus .V (Fl.of 2 * wiFl) tneuFl
  connect zero inb2 .V wiFl tneuFl
  return (m, input1, input2, outputPlus, outputMinus)

/-- functional/natural_log.py:24, exponential.py:24, multiplier.py:21 `wacc_bar = (Vt * tm) / encoder.Tcod`. -/
def Encoder.waccBarFl (enc : Encoder Double) : Double := Fl.of 10 * Fl.of 100 / enc.Tcod
/-- functional/natural_log.py:23, exponential.py:23, multiplier.py:22 `gmult = (Vt * tm) / tf`. -/
abbrev gmultFl : Double := Fl.of 10 * Fl.of 100 / Fl.of 20

/-- functional/natural_log.py:11-53 `LogNetwork.__init__`; returns the module and the neurons input, output. -/
def logFl (enc : Encoder Double) (name : Option String) : Build Double (ℕ × ℕ × ℕ) := do
  let m ← newModule .plain name
  let input ← addFl m "input"
  let first ← addFl m "first"
  let last ← addFl m "last"
  let acc ← addFl m "acc"
  let output ← addFl m "output"
  connect input first .V weFl tsynFl
  connect input last .V (Fl.of (1 / 2) * weFl) tsynFl
  connect first first .V wiFl tsynFl
  connect first acc .ge enc.waccBarFl (tsynFl + enc.Tmin)
  connect last acc .gate (Fl.of 1) tsynFl
  connect last acc .ge (-enc.waccBarFl) tsynFl
  connect last acc .gf gmultFl tsynFl
  connect acc output .V weFl (tsynFl + enc.Tmin)
  connect last output .V weFl (Fl.of 2 * tsynFl)
  return (m, input, output)

/-- functional/exponential.py:8-50 `ExponentialNetwork.__init__`; returns the module and the neurons input, output. -/
def exponentialFl (enc : Encoder Double) (name : Option String) : Build Double (ℕ × ℕ × ℕ) := do
  let m ← newModule .plain name
  let input ← addFl m "input"
  let first ← addFl m "first"
  let last ← addFl m "last"
  let acc ← addFl m "acc"
  let output ← addFl m "output"
  connect input first .V weFl tsynFl
  connect input last .V (Fl.of (1 / 2) * weFl) tsynFl
  connect first first .V wiFl tsynFl
  connect first acc .gf gmultFl (tsynFl + enc.Tmin)
  connect first acc .gate (Fl.of 1) (tsynFl + enc.Tmin)
  connect last acc .gate (-Fl.of 1) tsynFl
  connect last acc .ge enc.waccBarFl tsynFl
  connect acc output .V weFl (tsynFl + enc.Tmin)
  connect last output .V weFl (Fl.of 2 * tsynFl)
  return (m, input, output)

/-- functional/multiplier.py:7-77 `MultiplierNetwork.__init__`; returns the module and the neurons input1, input2, output. -/
def multiplierFl (enc : Encoder Double) (name : Option String) : Build Double (ℕ × ℕ × ℕ × ℕ) := do
  let m ← newModule .plain name
  let input1 ← addFl m "input1"
  let input2 ← addFl m "input2"
  let first1 ← addFl m "first1"
  let last1 ← addFl m "last1"
  let accLog1 ← addFl m "acc_log1"
  let zero ← addFl m "zero"
  let first2 ← addFl m "first2"
  let last2 ← addFl m "last2"
  let accLog2 ← addFl m "acc_log2"
  let sync ← addFl m "sync"
  let accExp ← addFl m "acc_exp"
  let output ← addFl m "output"
  connect input1 first1 .V weFl tsynFl
  connect input1 last1 .V (Fl.of (1 / 2) * weFl) tsynFl
  connect first1 first1 .V wiFl tsynFl
  connect first1 accLog1 .ge enc.waccBarFl (tsynFl + enc.Tmin)
  connect last1 accLog1 .ge (-enc.waccBarFl) tsynFl
  connect last1 sync .V (Fl.of (1 / 2) * weFl) tsynFl
  connect input2 first2 .V weFl tsynFl
  connect input2 last2 .V (Fl.of (1 / 2) * weFl) tsynFl
  connect first2 first2 .V wiFl tsynFl
  connect first2 accLog2 .ge enc.waccBarFl (tsynFl + enc.Tmin)
  connect last2 accLog2 .ge (-enc.waccBarFl) tsynFl
  connect last2 sync .V (Fl.of (1 / 2) * weFl) tsynFl
  connect accLog1 accLog2 .gf gmultFl tsynFl
  connect accLog1 accLog2 .gate (Fl.of 1) tsynFl
  connect accLog2 accExp .gate (-Fl.of 1) tsynFl
  connect accLog2 accExp .ge enc.waccBarFl tsynFl
  connect accLog2 output .V weFl (Fl.of 2 * tsynFl)
  connect sync accLog1 .gf gmultFl tsynFl
  connect sync accLog1 .gate (Fl.of 1) tsynFl
  connect sync accExp .gate (Fl.of 1) (Fl.of 3 * tsynFl)
  connect sync accExp .gf gmultFl (Fl.of 3 * tsynFl)
  connect accExp output .V weFl (enc.Tmin + tsynFl)
  connect input1 zero .V (Fl.of 10 / Fl.of 4) (Fl.of 350)
  connect input2 zero .V (Fl.of 10 / Fl.of 4) (Fl.of 350)
  connect output zero .V (-Fl.of 10 / Fl.of 2) tsynFl
  connect zero output .V weFl tsynFl
  connect zero output .V weFl (tsynFl + enc.Tmin)
  return (m, input1, input2, output)

/-- functional/scalar_multiplier.py:16-60 `ScalarMultiplierNetwork.__init__` (`factor` a Python float); returns the module and the neurons input, output. -/
def scalarMultiplierFl (factor : Double) (enc : Encoder Double) (name : Option String) : Build Double (ℕ × ℕ × ℕ) := do
  let m ← newModule .plain name
  let input ← addFl m "input"
  let first ← addFl m "first"
  let last ← addFl m "last"
  let acc ← addFl m "acc"
  let acc2 ← addFl m "acc"
  let output ← addFl m "output"
  connect input first .V weFl tsynFl
  connect input last .V (Fl.of (1 / 2) * weFl) tsynFl
  connect first first .V wiFl tsynFl
  connect first acc .ge (factor * enc.waccFl) (tsynFl + enc.Tmin)
  connect last acc2 .ge (factor * enc.waccFl) (Fl.of 2 * tsynFl)
  connect acc acc2 .ge (-(factor * enc.waccFl)) tsynFl
  connect acc2 output .V weFl (tsynFl + enc.Tmin)
  connect acc acc2 .ge enc.waccFl tsynFl
  connect acc output .V weFl (Fl.of 2 * tsynFl)
  return (m, input, output)

/-- functional/divider.py:20-81 `LogAndSyncNetwork.__init__`; returns the module and the neurons input1, input2, output1, output2. -/
def logAndSyncFl (enc : Encoder Double) (name : Option String) : Build Double (ℕ × ℕ × ℕ × ℕ × ℕ) := do
  let m ← newModule .plain name
  let input1 ← addFl m "input1"
  let first1 ← addFl m "first1"
  let last1 ← addFl m "last1"
  let acc1 ← addFl m "acc1"
  let output1 ← addFl m "output1"
  connect input1 first1 .V weFl tsynFl
  connect first1 first1 .V wiFl tsynFl
  connect input1 last1 .V (Fl.of (1 / 2) * weFl) tsynFl
  connect first1 acc1 .ge enc.waccBarFl (tsynFl + enc.Tmin)
  connect last1 acc1 .ge (-enc.waccBarFl) tsynFl
  let input2 ← addFl m "input2"
  let first2 ← addFl m "first2"
  let last2 ← addFl m "last2"
  let acc2 ← addFl m "acc2"
  let output2 ← addFl m "output2"
  connect input2 first2 .V weFl tsynFl
  connect first2 first2 .V wiFl tsynFl
  connect input2 last2 .V (Fl.of (1 / 2) * weFl) tsynFl
  connect first2 acc2 .ge enc.waccBarFl (tsynFl + enc.Tmin)
  connect last2 acc2 .ge (-enc.waccBarFl) tsynFl
  let sync ← addFl m "sync"
  connect last1 sync .V (Fl.of (1 / 2) * weFl) tsynFl
  connect last2 sync .V (Fl.of (1 / 2) * weFl) tsynFl
  connect sync output1 .V weFl (Fl.of 2 * tsynFl)
  connect sync output2 .V weFl (Fl.of 2 * tsynFl)
  connect sync acc1 .gf gmultFl tsynFl
  connect sync acc1 .gate (Fl.of 1) tsynFl
  connect acc1 output1 .V weFl (tsynFl + enc.Tmin)
  connect sync acc2 .gf gmultFl tsynFl
  connect sync acc2 .gate (Fl.of 1) tsynFl
  connect acc2 output2 .V weFl (tsynFl + enc.Tmin)
  return (m, input1, input2, output1, output2)

/-- functional/divider.py:99-133 `DivNetwork.__init__`; returns the module and the neurons input1, input2, output. -/
def divFl (enc : Encoder Double) (name : Option String) : Build Double (ℕ × ℕ × ℕ × ℕ) := do
  let m ← newModule .div name
  let (logsync, input1, input2, output1, output2) ← logAndSyncFl enc (some "log_and_sync_net")
  let (sub, subInput1, subInput2, outputPlus, _) ← subtractorFl enc (some "sub_net")
  let (exp, expInput, expOutput) ← exponentialFl enc (some "exp_net")
  addSubnetwork m logsync
  addSubnetwork m sub
  addSubnetwork m exp
  connect output1 subInput1 .V weFl tsynFl
  connect output2 subInput2 .V weFl tsynFl
  connect outputPlus expInput .V weFl tsynFl
  return (m, input1, input2, expOutput)

/-- connecting/synchronizer.py:49 `(we / N) + 0.0001`. -/
def syncWFl (N : ℕ) : Double := weFl / (N : Double) + Fl.of (1 / 10000)

/-- connecting/synchronizer.py:26-52: the body of the loop; returns the input and output neurons and the memory block of round `i`. -/
def synchronizerRoundFl (enc : Encoder Double) (N m sync i : ℕ) : Build Double (ℕ × ℕ × MemPorts) := do
  let input ← addFl m ("input_" ++ toString i)
  let output ← addFl m ("output_" ++ toString i)
  let (mem, memInput, memOutput, memRecall, memReady) ← memoryFl enc (some ("mem_" ++ toString i))
  addSubnetwork m mem
  connect input memInput .V weFl tsynFl
  connect memOutput output .V weFl tsynFl
  connect memReady sync .V (syncWFl N) tsynFl
  connect sync memRecall .V weFl tsynFl
  return (input, output, ⟨mem, memInput, memOutput, memRecall, memReady⟩)

/-- connecting/synchronizer.py:26: rounds `i, …, i + k - 1`. -/
def synchronizerLoopFl (enc : Encoder Double) (N m sync : ℕ) : ℕ → ℕ → Build Double (List (ℕ × ℕ × MemPorts))
  | _, 0 => return []
  | i, k + 1 => do
    let r ← synchronizerRoundFl enc N m sync i
    let rs ← synchronizerLoopFl enc N m sync (i + 1) k
    return r :: rs

/-- connecting/synchronizer.py:8-52 `SynchronizerNetwork.__init__`. -/
def synchronizerFl (enc : Encoder Double) (N : ℕ) (name : Option String) : Build Double SyncPorts := do
  let m ← newModule .plain name
  let sync ← addFl m "sync"
  let rs ← synchronizerLoopFl enc N m sync 0 N
  return ⟨m, sync, rs.map (·.1), rs.map (·.2.1), rs.map (·.2.2)⟩

end Axon
