import Verif.Model.Modules

/-!
# The network library (axon_sdk/networks)

Each constructor is transcribed statement by statement into the `Build` monad; the returned record
holds the attributes (`self.…`) other code uses.  All networks use the same local constants
(`Vt = 10.0`, `tm = 100.0`, `tf = 20.0`, `Tsyn = 1.0`, `Tneu = 0.01`, `we = Vt`, `wi = -Vt`), defined once
here.  Simplification: the `ZeroDivisionError`s for `encoder.Tmax = 0`, `encoder.Tcod = 0` and `N = 0`
are not modelled (division by zero is 0 here); the theorems assume these are positive.
-/
set_option linter.unusedSectionVars false
namespace Axon
variable {K : Type*} [Field K]

/-- e.g. memory.py:13 `Vt = 10.0`. -/
abbrev cVt : K := 10
/-- e.g. memory.py:14 `tm = 100.0`. -/
abbrev ctm : K := 100
/-- e.g. memory.py:15 `tf = 20.0`. -/
abbrev ctf : K := 20
/-- e.g. memory.py:17 `we = Vt`. -/
abbrev cwe : K := 10
/-- e.g. memory.py:18 `wi = -Vt`. -/
abbrev cwi : K := -10
/-- e.g. memory.py:19 `Tsyn = 1.0`. -/
abbrev cTsyn : K := 1
/-- e.g. memory.py:20 `Tneu = 0.01`. -/
abbrev cTneu : K := 1 / 100

/-- e.g. memory.py:22 `wacc = Vt * tm / encoder.Tmax`. -/
def Encoder.wacc (enc : Encoder K) : K := cVt * ctm / enc.Tmax
/-- e.g. natural_log.py:26 `wacc_bar = (Vt * tm) / encoder.Tcod`. -/
def Encoder.waccBar (enc : Encoder K) : K := cVt * ctm / enc.Tcod
/-- e.g. natural_log.py:25 `gmult = (Vt * tm) / self.tf`. -/
abbrev cgmult : K := cVt * ctm / ctf

/-- `self.add_neuron(Vt=Vt, tm=tm, tf=tf, neuron_name=name)` with the library constants
(networks.py:82-99; `Vreset` defaults to 0.0). -/
def addStd (m : ℕ) (name : String) : Build K ℕ := addNeuron m cVt ctm ctf 0 (some name)

/-! ## axon_sdk/networks/memory -/

/-- constant.py:22,25: the attributes of `ConstantNetwork`. -/
structure ConstPorts where (mod recall output : ℕ)

/-- memory/constant.py:9-31 `ConstantNetwork.__init__`. -/
def constantNetwork (enc : Encoder K) (value : K) (name : Option String) : Build K ConstPorts := do
  let m ← newModule .plain name
  let recall ← addStd m "recall"
  let output ← addStd m "output"
  connect recall output .V cwe cTsyn
  connect recall output .V cwe (cTsyn + (value * enc.Tcod + enc.Tmin))
  return ⟨m, recall, output⟩

/-- signed_constant.py:23,26,29: the attributes of `SignedConstantNetwork`. -/
structure SConstPorts where (mod recall outputPlus outputMinus : ℕ)

/-- memory/signed_constant.py:10-40 `SignedConstantNetwork.__init__`. -/
def signedConstantNetwork [LinearOrder K] (enc : Encoder K) (value : K) (name : Option String) :
    Build K SConstPorts := do
  let m ← newModule .plain name
  let recall ← addStd m "recall"
  let outputPlus ← addStd m "output_plus"
  let outputMinus ← addStd m "output_minus"
  if 0 ≤ value then
    connect recall outputPlus .V cwe cTsyn
    connect recall outputPlus .V cwe (cTsyn + (|value| * enc.Tcod + enc.Tmin))
  else
    connect recall outputMinus .V cwe cTsyn
    connect recall outputMinus .V cwe (cTsyn + (|value| * enc.Tcod + enc.Tmin))
  return ⟨m, recall, outputPlus, outputMinus⟩

/-- inverting_memory.py:40-42: the attributes of `InvertingMemoryNetwork`. -/
structure InvMemPorts where (mod input output recall : ℕ)

/-- memory/inverting_memory.py:10-42 `InvertingMemoryNetwork.__init__`. -/
def invertingMemoryNetwork (enc : Encoder K) (name : Option String) : Build K InvMemPorts := do
  let m ← newModule .plain name
  let input ← addStd m "input"
  let first ← addStd m "first"
  let last ← addStd m "last"
  let acc ← addStd m "acc"
  let recall ← addStd m "recall"
  let output ← addStd m "output"
  connect input first .V cwe cTsyn
  connect input last .V (1 / 2 * cwe) cTsyn
  connect first first .V cwi cTsyn
  connect first acc .ge enc.wacc (cTsyn + enc.Tmin)
  connect last acc .ge (-enc.wacc) cTsyn
  connect recall acc .ge enc.wacc cTsyn
  connect acc output .V cwe cTsyn
  connect recall output .V cwe (2 * cTsyn + cTneu)
  return ⟨m, input, output, recall⟩

/-- memory.py:67-70: the attributes of `MemoryNetwork`. -/
structure MemPorts where (mod input output recall ready : ℕ)

/-- memory/memory.py:10-70 `MemoryNetwork.__init__`. -/
def memoryNetwork (enc : Encoder K) (name : Option String) : Build K MemPorts := do
  let m ← newModule .plain name
  let input ← addStd m "input"
  let first ← addStd m "first"
  let last ← addStd m "last"
  let acc ← addStd m "acc"
  let acc2 ← addStd m "acc2"
  let recall ← addStd m "recall"
  let ready ← addStd m "ready"
  let output ← addStd m "output"
  connect input first .V cwe cTsyn
  connect input last .V (1 / 2 * cwe) cTsyn
  connect first first .V cwi cTsyn
  connect first acc .ge enc.wacc cTsyn
  connect last acc2 .ge enc.wacc (2 * cTsyn)
  connect acc acc2 .ge (-enc.wacc) cTsyn
  connect recall acc2 .ge enc.wacc cTsyn
  connect recall output .V cwe (2 * cTsyn)
  connect acc2 output .V cwe cTsyn
  connect acc ready .V cwe cTsyn
  return ⟨m, input, output, recall, ready⟩

/-- signed_memory.py:67-72: the attributes of `SignedMemoryNetwork`. -/
structure SMemPorts where (mod inputPos inputNeg recall outputPos outputNeg ready : ℕ)

/-- memory/signed_memory.py:10-72 `SignedMemoryNetwork.__init__`. -/
def signedMemoryNetwork (enc : Encoder K) (name : Option String) : Build K SMemPorts := do
  let m ← newModule .plain name
  let inputPos ← addStd m "input+"
  let inputNeg ← addStd m "input-"
  let readyPos ← addStd m "ready+"
  let readyNeg ← addStd m "ready-"
  let recall ← addStd m "recall"
  let outputPos ← addStd m "output+"
  let outputNeg ← addStd m "output-"
  let readyOut ← addStd m "ready"
  let mem ← memoryNetwork enc none
  addSubnetwork m mem.mod
  connect inputPos readyPos .V cwe cTsyn
  connect inputNeg readyNeg .V cwe cTsyn
  connect inputPos readyNeg .V (1 / 4 * cwe) cTsyn
  connect inputNeg readyPos .V (1 / 4 * cwe) cTsyn
  connect readyPos readyNeg .V (1 / 2 * cwi) cTsyn
  connect readyNeg readyPos .V (1 / 2 * cwi) cTsyn
  connect recall readyPos .V (1 / 2 * cwe) cTsyn
  connect recall readyNeg .V (1 / 2 * cwe) cTsyn
  connect inputPos mem.input .V cwe cTsyn
  connect inputNeg mem.input .V cwe cTsyn
  connect recall mem.recall .V cwe cTsyn
  connect mem.output outputPos .V cwe cTsyn
  connect mem.output outputNeg .V cwe cTsyn
  connect readyPos outputNeg .V (2 * cwi) cTsyn
  connect readyNeg outputPos .V (2 * cwi) cTsyn
  connect mem.output readyOut .V cwe cTsyn
  return ⟨m, inputPos, inputNeg, recall, outputPos, outputNeg, readyOut⟩

/-! ## axon_sdk/networks/connecting -/

/-- synchronizer.py:20-24: the attributes of `SynchronizerNetwork`. -/
structure SyncPorts where
  mod : ℕ
  sync : ℕ
  inputs : List ℕ
  outputs : List ℕ
  blocks : List MemPorts

/-- connecting/synchronizer.py:26-52: the body of the loop; returns the input and output neurons and
the memory block of round `i`. -/
def synchronizerRound (enc : Encoder K) (N m sync i : ℕ) : Build K (ℕ × ℕ × MemPorts) := do
  let input ← addStd m ("input_" ++ toString i)
  let output ← addStd m ("output_" ++ toString i)
  let mem ← memoryNetwork enc (some ("mem_" ++ toString i))
  addSubnetwork m mem.mod
  connect input mem.input .V cwe cTsyn
  connect mem.output output .V cwe cTsyn
  connect mem.ready sync .V (cwe / (N : K) + 1 / 10000) cTsyn
  connect sync mem.recall .V cwe cTsyn
  return (input, output, mem)

/-- connecting/synchronizer.py:26: rounds `i, …, i + k - 1`. -/
def synchronizerLoop (enc : Encoder K) (N m sync : ℕ) : ℕ → ℕ → Build K (List (ℕ × ℕ × MemPorts))
  | _, 0 => return []
  | i, k + 1 => do
    let r ← synchronizerRound enc N m sync i
    let rs ← synchronizerLoop enc N m sync (i + 1) k
    return r :: rs

/-- connecting/synchronizer.py:8-52 `SynchronizerNetwork.__init__`. -/
def synchronizerNetwork (enc : Encoder K) (N : ℕ) (name : Option String) : Build K SyncPorts := do
  let m ← newModule .plain name
  let sync ← addStd m "sync"
  let rs ← synchronizerLoop enc N m sync 0 N
  return ⟨m, sync, rs.map (·.1), rs.map (·.2.1), rs.map (·.2.2)⟩

/-! ## axon_sdk/networks/functional -/

/-- signflip.py:26-29: the attributes of `SignFlipperNetwork`. -/
structure FlipPorts where (mod inpPlus inpMinus outpPlus outpMinus : ℕ)

/-- functional/signflip.py:7-32 `SignFlipperNetwork.__init__`. -/
def signFlipperNetwork (name : Option String) : Build K FlipPorts := do
  let m ← newModule .signFlipper name
  let inpPlus ← addStd m "inp_plus"
  let inpMinus ← addStd m "inp_minus"
  let outpPlus ← addStd m "outp_plus"
  let outpMinus ← addStd m "outp_minus"
  connect inpPlus outpMinus .V (cwe : K) cTsyn
  connect inpMinus outpPlus .V (cwe : K) cTsyn
  return ⟨m, inpPlus, inpMinus, outpPlus, outpMinus⟩

/-- subtractor.py:21-33,85-86: the attributes of `SubtractorNetwork`. -/
structure SubPorts where (mod input1 input2 outputPlus outputMinus : ℕ)

/-- functional/subtractor.py:5-86 `SubtractorNetwork.__init__`. -/
def subtractorNetwork (enc : Encoder K) (name : Option String) : Build K SubPorts := do
  let m ← newModule .plain name
  let input1 ← addStd m "input1"
  let input2 ← addStd m "input2"
  let sync1 ← addStd m "sync1"
  let sync2 ← addStd m "sync2"
  let inb1 ← addStd m "inb1"
  let inb2 ← addStd m "inb2"
  let outputPlus ← addStd m "output_plus"
  let outputMinus ← addStd m "output_minus"
  let zero ← addStd m "zero"
  connect input1 sync1 .V (1 / 2 * cwe) cTsyn
  connect input2 sync2 .V (1 / 2 * cwe) cTsyn
  connect sync1 inb1 .V cwe cTsyn
  connect sync2 inb2 .V cwe cTsyn
  connect sync1 inb2 .V cwi cTsyn
  connect sync2 inb1 .V cwi cTsyn
  connect sync1 outputPlus .V cwe (enc.Tmin + (3 * cTsyn + 2 * cTneu))
  connect sync2 outputMinus .V cwe (enc.Tmin + (3 * cTsyn + 2 * cTneu))
  connect sync2 outputPlus .V cwe (3 * cTsyn + 2 * cTneu)
  connect sync1 outputMinus .V cwe (3 * cTsyn + 2 * cTneu)
  connect inb2 outputMinus .V (2 * cwi) cTsyn
  connect inb1 outputPlus .V (2 * cwi) cTsyn
  connect outputPlus inb2 .V (1 / 2 * cwe) cTsyn
  connect outputMinus inb1 .V (1 / 2 * cwe) cTsyn
  connect zero zero .V cwe cTneu
  connect sync1 zero .V (1 / 2 * cwi) (2 * cTneu)
  connect sync2 zero .V (1 / 2 * cwi) (2 * cTneu)
  connect sync1 zero .V (1 / 2 * cwe) cTneu
  connect sync2 zero .V (1 / 2 * cwe) cTneu
  connect zero outputMinus .V (2 * cwi) cTneu
  connect zero inb2 .V cwi cTneu
  return ⟨m, input1, input2, outputPlus, outputMinus⟩

/-- natural_log.py:29-33, exponential.py:25-29: the attributes of `LogNetwork` and `ExponentialNetwork`. -/
structure UnaryPorts where (mod input output : ℕ)

/-- functional/natural_log.py:12-50 `LogNetwork.__init__`. -/
def logNetwork (enc : Encoder K) (name : Option String) : Build K UnaryPorts := do
  let m ← newModule .plain name
  let input ← addStd m "input"
  let first ← addStd m "first"
  let last ← addStd m "last"
  let acc ← addStd m "acc"
  let output ← addStd m "output"
  connect input first .V cwe cTsyn
  connect input last .V (1 / 2 * cwe) cTsyn
  connect first first .V cwi cTsyn
  connect first acc .ge enc.waccBar (cTsyn + enc.Tmin)
  connect last acc .gate 1 cTsyn
  connect last acc .ge (-enc.waccBar) cTsyn
  connect last acc .gf cgmult cTsyn
  connect acc output .V cwe (cTsyn + enc.Tmin)
  connect last output .V cwe (2 * cTsyn)
  return ⟨m, input, output⟩

/-- functional/exponential.py:8-50 `ExponentialNetwork.__init__`. -/
def exponentialNetwork (enc : Encoder K) (name : Option String) : Build K UnaryPorts := do
  let m ← newModule .plain name
  let input ← addStd m "input"
  let first ← addStd m "first"
  let last ← addStd m "last"
  let acc ← addStd m "acc"
  let output ← addStd m "output"
  connect input first .V cwe cTsyn
  connect input last .V (1 / 2 * cwe) cTsyn
  connect first first .V cwi cTsyn
  connect first acc .gf cgmult (cTsyn + enc.Tmin)
  connect first acc .gate 1 (cTsyn + enc.Tmin)
  connect last acc .gate (-1) cTsyn
  connect last acc .ge enc.waccBar cTsyn
  connect acc output .V cwe (cTsyn + enc.Tmin)
  connect last output .V cwe (2 * cTsyn)
  return ⟨m, input, output⟩

/-- multiplier.py:24-37: the attributes of `MultiplierNetwork`. -/
structure MulPorts where (mod input1 input2 output : ℕ)

/-- functional/multiplier.py:7-76 `MultiplierNetwork.__init__`. -/
def multiplierNetwork (enc : Encoder K) (name : Option String) : Build K MulPorts := do
  let m ← newModule .plain name
  let input1 ← addStd m "input1"
  let input2 ← addStd m "input2"
  let first1 ← addStd m "first1"
  let last1 ← addStd m "last1"
  let accLog1 ← addStd m "acc_log1"
  let zero ← addStd m "zero"
  let first2 ← addStd m "first2"
  let last2 ← addStd m "last2"
  let accLog2 ← addStd m "acc_log2"
  let sync ← addStd m "sync"
  let accExp ← addStd m "acc_exp"
  let output ← addStd m "output"
  connect input1 first1 .V cwe cTsyn
  connect input1 last1 .V (1 / 2 * cwe) cTsyn
  connect first1 first1 .V cwi cTsyn
  connect first1 accLog1 .ge enc.waccBar (cTsyn + enc.Tmin)
  connect last1 accLog1 .ge (-enc.waccBar) cTsyn
  connect last1 sync .V (1 / 2 * cwe) cTsyn
  connect input2 first2 .V cwe cTsyn
  connect input2 last2 .V (1 / 2 * cwe) cTsyn
  connect first2 first2 .V cwi cTsyn
  connect first2 accLog2 .ge enc.waccBar (cTsyn + enc.Tmin)
  connect last2 accLog2 .ge (-enc.waccBar) cTsyn
  connect last2 sync .V (1 / 2 * cwe) cTsyn
  connect accLog1 accLog2 .gf cgmult cTsyn
  connect accLog1 accLog2 .gate 1 cTsyn
  connect accLog2 accExp .gate (-1) cTsyn
  connect accLog2 accExp .ge enc.waccBar cTsyn
  connect accLog2 output .V cwe (2 * cTsyn)
  connect sync accLog1 .gf cgmult cTsyn
  connect sync accLog1 .gate 1 cTsyn
  connect sync accExp .gate 1 (3 * cTsyn)
  connect sync accExp .gf cgmult (3 * cTsyn)
  connect accExp output .V cwe (enc.Tmin + cTsyn)
  connect input1 zero .V (cVt / 4) 350
  connect input2 zero .V (cVt / 4) 350
  connect output zero .V (-cVt / 2) cTsyn
  connect zero output .V cVt cTsyn
  connect zero output .V cVt (cTsyn + enc.Tmin)
  return ⟨m, input1, input2, output⟩

/-- functional/scalar_multiplier.py:16-60 `ScalarMultiplierNetwork.__init__`. -/
def scalarMultiplierNetwork (factor : K) (enc : Encoder K) (name : Option String) : Build K UnaryPorts := do
  let m ← newModule .plain name
  let input ← addStd m "input"
  let first ← addStd m "first"
  let last ← addStd m "last"
  let acc ← addStd m "acc"
  let acc2 ← addStd m "acc"
  let output ← addStd m "output"
  connect input first .V cwe cTsyn
  connect input last .V (1 / 2 * cwe) cTsyn
  connect first first .V cwi cTsyn
  connect first acc .ge (factor * enc.wacc) (cTsyn + enc.Tmin)
  connect last acc2 .ge (factor * enc.wacc) (2 * cTsyn)
  connect acc acc2 .ge (-(factor * enc.wacc)) cTsyn
  connect acc2 output .V cwe (cTsyn + enc.Tmin)
  connect acc acc2 .ge enc.wacc cTsyn
  connect acc output .V cwe (2 * cTsyn)
  return ⟨m, input, output⟩

/-- signed_multiplier.py:28-41, signed_multipler_norm.py:58-69: the attributes of the signed multipliers. -/
structure SMulPorts where (mod input1Plus input1Minus input2Plus input2Minus outputPlus outputMinus : ℕ)

/-- functional/signed_multiplier.py:10-101 `SignedMultiplierNetwork.__init__`. -/
def signedMultiplierNetwork (enc : Encoder K) (name : Option String) : Build K SMulPorts := do
  let m ← newModule .plain name
  let mn ← multiplierNetwork enc (some "mul_net")
  addSubnetwork m mn.mod
  let input1Plus ← addStd m "input1_plus"
  let input1Minus ← addStd m "input1_minus"
  let input2Plus ← addStd m "input2_plus"
  let input2Minus ← addStd m "input2_minus"
  let outputPlus ← addStd m "output_plus"
  let outputMinus ← addStd m "output_minus"
  let zero ← addStd m "zero"
  let sign1 ← addStd m "sign1"
  let sign2 ← addStd m "sign2"
  let sign3 ← addStd m "sign3"
  let sign4 ← addStd m "sign4"
  connect input1Plus mn.input1 .V cwe cTsyn
  connect input1Minus mn.input1 .V cwe cTsyn
  connect input2Plus mn.input2 .V cwe cTsyn
  connect input2Minus mn.input2 .V cwe cTsyn
  connect input1Plus sign1 .V (1 / 4 * cwe) cTsyn
  connect input1Plus sign3 .V (1 / 4 * cwe) cTsyn
  connect input1Minus sign2 .V (1 / 4 * cwe) cTsyn
  connect input1Minus sign4 .V (1 / 4 * cwe) cTsyn
  connect input2Plus sign1 .V (1 / 4 * cwe) cTsyn
  connect input2Plus sign2 .V (1 / 4 * cwe) cTsyn
  connect input2Minus sign3 .V (1 / 4 * cwe) cTsyn
  connect input2Minus sign4 .V (1 / 4 * cwe) cTsyn
  connect sign1 sign2 .V (1 / 2 * cwi) cTsyn
  connect sign1 sign3 .V (1 / 2 * cwi) cTsyn
  connect sign2 sign1 .V (1 / 2 * cwi) cTsyn
  connect sign2 sign4 .V (1 / 2 * cwi) cTsyn
  connect sign3 sign1 .V (1 / 2 * cwi) cTsyn
  connect sign3 sign4 .V (1 / 2 * cwi) cTsyn
  connect sign4 sign2 .V (1 / 2 * cwi) cTsyn
  connect sign4 sign3 .V (1 / 2 * cwi) cTsyn
  connect mn.output outputPlus .V cwe cTsyn
  connect mn.output outputMinus .V cwe cTsyn
  connect sign1 outputMinus .V (2 * cwi) cTsyn
  connect sign2 outputPlus .V (2 * cwi) cTsyn
  connect sign3 outputPlus .V (2 * cwi) cTsyn
  connect sign4 outputMinus .V (2 * cwi) cTsyn
  connect input1Plus zero .V (cVt / 4) 350
  connect input1Minus zero .V (cVt / 4) 350
  connect input2Plus zero .V (cVt / 4) 350
  connect input2Minus zero .V (cVt / 4) 350
  connect outputPlus zero .V (-cVt / 2) cTsyn
  connect outputMinus zero .V (-cVt / 2) cTsyn
  connect zero outputPlus .V cVt cTsyn
  connect zero outputPlus .V cVt (cTsyn + enc.Tmin)
  return ⟨m, input1Plus, input1Minus, input2Plus, input2Minus, outputPlus, outputMinus⟩

/-- functional/signed_multipler_norm.py:33-108 `SignedMultiplierNormNetwork.__init__`. -/
def signedMultiplierNormNetwork (enc : Encoder K) (factor : K) (name : Option String) :
    Build K SMulPorts := do
  let m ← newModule .signedMulNorm name
  let mn ← multiplierNetwork enc (some "mul_net")
  addSubnetwork m mn.mod
  let scmn ← scalarMultiplierNetwork factor enc (some "scalar_mul")
  addSubnetwork m scmn.mod
  let input1Plus ← addStd m "input1_plus"
  let input1Minus ← addStd m "input1_minus"
  let input2Plus ← addStd m "input2_plus"
  let input2Minus ← addStd m "input2_minus"
  let outputPlus ← addStd m "output_plus"
  let outputMinus ← addStd m "output_minus"
  let sign1 ← addStd m "sign1"
  let sign2 ← addStd m "sign2"
  let sign3 ← addStd m "sign3"
  let sign4 ← addStd m "sign4"
  connect input1Plus mn.input1 .V cwe cTsyn
  connect input1Minus mn.input1 .V cwe cTsyn
  connect input2Plus mn.input2 .V cwe cTsyn
  connect input2Minus mn.input2 .V cwe cTsyn
  connect input1Plus sign1 .V (1 / 4 * cwe) cTsyn
  connect input1Plus sign3 .V (1 / 4 * cwe) cTsyn
  connect input1Minus sign2 .V (1 / 4 * cwe) cTsyn
  connect input1Minus sign4 .V (1 / 4 * cwe) cTsyn
  connect input2Plus sign1 .V (1 / 4 * cwe) cTsyn
  connect input2Plus sign2 .V (1 / 4 * cwe) cTsyn
  connect input2Minus sign3 .V (1 / 4 * cwe) cTsyn
  connect input2Minus sign4 .V (1 / 4 * cwe) cTsyn
  connect sign1 sign2 .V (1 / 2 * cwi) cTsyn
  connect sign1 sign3 .V (1 / 2 * cwi) cTsyn
  connect sign2 sign1 .V (1 / 2 * cwi) cTsyn
  connect sign2 sign4 .V (1 / 2 * cwi) cTsyn
  connect sign3 sign1 .V (1 / 2 * cwi) cTsyn
  connect sign3 sign4 .V (1 / 2 * cwi) cTsyn
  connect sign4 sign2 .V (1 / 2 * cwi) cTsyn
  connect sign4 sign3 .V (1 / 2 * cwi) cTsyn
  connect mn.output scmn.input .V cwe cTsyn
  connect scmn.output outputPlus .V cwe cTsyn
  connect scmn.output outputMinus .V cwe cTsyn
  connect sign1 outputMinus .V (2 * cwi) cTsyn
  connect sign2 outputPlus .V (2 * cwi) cTsyn
  connect sign3 outputPlus .V (2 * cwi) cTsyn
  connect sign4 outputMinus .V (2 * cwi) cTsyn
  return ⟨m, input1Plus, input1Minus, input2Plus, input2Minus, outputPlus, outputMinus⟩

/-- linear_combinator.py:30-48,112-113: the attributes of `LinearCombinatorNetwork`. -/
structure LinPorts where
  mod : ℕ
  outputPlus : ℕ
  outputMinus : ℕ
  start : ℕ
  inputPlus : List ℕ
  inputMinus : List ℕ

/-- functional/linear_combinator.py:115-174: the body of the loop for one coefficient `c`; returns the
two input neurons.  `acc1p`, `acc1m`, `sync` are the neurons created before the loop. -/
def linCombRound [LinearOrder K] (enc : Encoder K) (N m acc1p acc1m sync i : ℕ) (c : K) :
    Build K (ℕ × ℕ) := do
  let inputPlus ← addStd m ("input_plus_" ++ toString i)
  let inputMinus ← addStd m ("input_minus_" ++ toString i)
  let firstPlus ← addStd m ("first_plus_" ++ toString i)
  let firstMinus ← addStd m ("first_minus_" ++ toString i)
  let lastPlus ← addStd m ("last_plus_" ++ toString i)
  let lastMinus ← addStd m ("last_minus_" ++ toString i)
  connect inputPlus firstPlus .V cwe cTsyn
  connect inputPlus lastPlus .V (1 / 2 * cwe) cTsyn
  connect inputMinus firstMinus .V cwe cTsyn
  connect inputMinus lastMinus .V (1 / 2 * cwe) cTsyn
  connect firstPlus firstPlus .V cwi cTsyn
  connect firstMinus firstMinus .V cwi cTsyn
  connect lastPlus sync .V (cwe / (N : K)) cTsyn
  connect lastMinus sync .V (cwe / (N : K)) cTsyn
  let targetPlus := if 0 < c then acc1p else acc1m
  let targetMinus := if 0 < c then acc1m else acc1p
  connect firstPlus targetPlus .ge (|c| * enc.wacc) (cTsyn + enc.Tmin)
  connect lastPlus targetPlus .ge (-|c| * enc.wacc) cTsyn
  connect firstMinus targetMinus .ge (|c| * enc.wacc) (cTsyn + enc.Tmin)
  connect lastMinus targetMinus .ge (-|c| * enc.wacc) cTsyn
  return (inputPlus, inputMinus)

/-- functional/linear_combinator.py:115: rounds for the coefficients `coeff[i:]`. -/
def linCombLoop [LinearOrder K] (enc : Encoder K) (N m acc1p acc1m sync : ℕ) :
    ℕ → List K → Build K (List (ℕ × ℕ))
  | _, [] => return []
  | i, c :: cs => do
    let r ← linCombRound enc N m acc1p acc1m sync i c
    let rs ← linCombLoop enc N m acc1p acc1m sync (i + 1) cs
    return r :: rs

/-- functional/linear_combinator.py:8-174 `LinearCombinatorNetwork.__init__` with `N = len(coeff)`
(a shorter `coeff` raises IndexError in Python, a longer one is cut off; not modelled).
`kind` is the class (`AdderNetwork` inherits this constructor). -/
def linearCombinatorNetwork [LinearOrder K] (kind : ModKind) (enc : Encoder K) (coeff : List K)
    (name : Option String) : Build K LinPorts := do
  let m ← newModule kind name
  let acc1p ← addStd m "acc1_plus"
  let acc1m ← addStd m "acc1_minus"
  let acc2p ← addStd m "acc2_plus"
  let acc2m ← addStd m "acc2_minus"
  let interMinus ← addStd m "inter_minus"
  let interPlus ← addStd m "inter_plus"
  let outputPlus ← addStd m "output_plus"
  let outputMinus ← addStd m "output_minus"
  let start ← addStd m "start"
  let sync ← addStd m "sync"
  let syncNet ← synchronizerNetwork enc 2 (some "sync_net")
  let sub ← subtractorNetwork enc (some "sub_net")
  addSubnetwork m syncNet.mod
  addSubnetwork m sub.mod
  connect (syncNet.outputs.getD 0 0) sub.input1 .V cwe cTsyn
  connect (syncNet.outputs.getD 1 0) sub.input2 .V cwe cTsyn
  connect sub.outputPlus start .V cwe cTsyn
  connect sub.outputMinus start .V cwe cTsyn
  connect sub.outputPlus outputPlus .V cwe cTsyn
  connect sub.outputMinus outputMinus .V cwe cTsyn
  connect start start .V cwi cTsyn
  connect interPlus (syncNet.inputs.getD 0 0) .V cwe cTsyn
  connect interMinus (syncNet.inputs.getD 1 0) .V cwe cTsyn
  connect sync acc1p .ge enc.wacc cTsyn
  connect sync acc1m .ge enc.wacc cTsyn
  connect sync acc2p .ge enc.wacc cTsyn
  connect sync acc2m .ge enc.wacc cTsyn
  connect acc1p interPlus .V cwe cTsyn
  connect acc1m interMinus .V cwe cTsyn
  connect acc2p interPlus .V cwe (cTsyn + enc.Tmin)
  connect acc2m interMinus .V cwe (cTsyn + enc.Tmin)
  let rs ← linCombLoop enc coeff.length m acc1p acc1m sync 0 coeff
  return ⟨m, outputPlus, outputMinus, start, rs.map (·.1), rs.map (·.2)⟩

/-- functional/adder.py:12-19 `AdderNetwork.__init__`. -/
def adderNetwork [LinearOrder K] (enc : Encoder K) (name : Option String) : Build K LinPorts :=
  linearCombinatorNetwork .adder enc [1, 1] name

/-- divider.py:39-66: the attributes of `LogAndSyncNetwork`. -/
structure LogSyncPorts where (mod input1 input2 output1 output2 : ℕ)

/-- functional/divider.py:20-81 `LogAndSyncNetwork.__init__`. -/
def logAndSyncNetwork (enc : Encoder K) (name : Option String) : Build K LogSyncPorts := do
  let m ← newModule .plain name
  let input1 ← addStd m "input1"
  let first1 ← addStd m "first1"
  let last1 ← addStd m "last1"
  let acc1 ← addStd m "acc1"
  let output1 ← addStd m "output1"
  connect input1 first1 .V cwe cTsyn
  connect first1 first1 .V cwi cTsyn
  connect input1 last1 .V (1 / 2 * cwe) cTsyn
  connect first1 acc1 .ge enc.waccBar (cTsyn + enc.Tmin)
  connect last1 acc1 .ge (-enc.waccBar) cTsyn
  let input2 ← addStd m "input2"
  let first2 ← addStd m "first2"
  let last2 ← addStd m "last2"
  let acc2 ← addStd m "acc2"
  let output2 ← addStd m "output2"
  connect input2 first2 .V cwe cTsyn
  connect first2 first2 .V cwi cTsyn
  connect input2 last2 .V (1 / 2 * cwe) cTsyn
  connect first2 acc2 .ge enc.waccBar (cTsyn + enc.Tmin)
  connect last2 acc2 .ge (-enc.waccBar) cTsyn
  let sync ← addStd m "sync"
  connect last1 sync .V (1 / 2 * cwe) cTsyn
  connect last2 sync .V (1 / 2 * cwe) cTsyn
  connect sync output1 .V cwe (2 * cTsyn)
  connect sync output2 .V cwe (2 * cTsyn)
  connect sync acc1 .gf cgmult cTsyn
  connect sync acc1 .gate 1 cTsyn
  connect acc1 output1 .V cwe (cTsyn + enc.Tmin)
  connect sync acc2 .gf cgmult cTsyn
  connect sync acc2 .gate 1 cTsyn
  connect acc2 output2 .V cwe (cTsyn + enc.Tmin)
  return ⟨m, input1, input2, output1, output2⟩

/-- functional/divider.py:99-133 `DivNetwork.__init__`. -/
def divNetwork (enc : Encoder K) (name : Option String) : Build K MulPorts := do
  let m ← newModule .div name
  let logsync ← logAndSyncNetwork enc (some "log_and_sync_net")
  let sub ← subtractorNetwork enc (some "sub_net")
  let exp ← exponentialNetwork enc (some "exp_net")
  addSubnetwork m logsync.mod
  addSubnetwork m sub.mod
  addSubnetwork m exp.mod
  connect logsync.output1 sub.input1 .V cwe cTsyn
  connect logsync.output2 sub.input2 .V cwe cTsyn
  connect sub.outputPlus exp.input .V cwe cTsyn
  return ⟨m, logsync.input1, logsync.input2, exp.output⟩

end Axon
