import Verif.Model.Simulator
import Verif.Model.Networks
import Verif.Proofs.Gadgets
import Verif.Props.Queue
import Verif.Props.Encoder
import Verif.Props.Neuron
import Verif.Props.Simulator
import Verif.Props.Modules
import Verif.Props.Predictive
import Verif.Props.Scalar
import Verif.Props.Compiler
import Verif.Props.Report
import Verif.Props.Vis
import Verif.Props.Matmul
import Verif.Props.Networks
import Verif.Props.Memory
import Verif.Props.Sync
import Verif.Props.Subtractor
import Verif.Props.ScalarMul
import Verif.Props.LogExp
import Verif.Props.Multiplier
import Verif.Props.Signed
import Verif.Props.LinComb
import Verif.Props.Divider
import Verif.Proofs.DivZero
import Verif.Props.DivZero
import Verif.Props.EndToEnd
import Verif.Props.Heapq
import Verif.Props.SpikeCount
import Verif.Props.Rounded
import Verif.Props.PredReplay
import Verif.Props.PredNets
import Verif.Props.PredNets2
import Verif.Props.PredSub
import Verif.Props.PredLog
import Verif.Props.PredMul
import Verif.Props.PredSigned
import Verif.Proofs.PredSubBlock
import Verif.Props.SynCount
import Verif.Props.PredDiv
import Verif.Proofs.PredMem
import Verif.Props.PredSync
import Verif.Proofs.PredRamp
import Verif.Proofs.PredLin
import Verif.Props.PredLin
import Verif.Spec.Reuse
import Verif.Proofs.PredRest
import Verif.Props.PredReuse
import Verif.Props.PredStream
import Verif.Props.PredZero
import Verif.Props.PredStream2
import Verif.Proofs.PredMachine
import Verif.Props.PredSMem
import Verif.Proofs.StepRest
import Verif.Props.StepReuse
import Verif.Props.StepStream
import Verif.Model.GraphData
import Verif.Props.GraphData
import Verif.Model.ReportText
import Verif.Spec.Text
import Verif.Props.ReportText
import Verif.Spec.PredProgram
import Verif.Proofs.PredNorm
import Verif.Proofs.PredAdd
import Verif.Proofs.PredProgram
import Verif.Props.PredProgram
import Verif.Model.FloatNets
import Verif.Spec.FloatSession
import Verif.Proofs.FloatNet
import Verif.Proofs.FloatSeg
import Verif.Proofs.FloatGates
import Verif.Proofs.FloatRamp
import Verif.Proofs.FloatSession
import Verif.Props.FloatMem
import Verif.Spec.Excitation
import Verif.Proofs.Excitation
import Verif.Props.Excitation
import Verif.Spec.Agree
import Verif.Proofs.Agree
import Verif.Props.Agree
import Verif.Proofs.FloatV
import Verif.Props.FloatSub
import Verif.Props.FloatSub2
import Verif.Props.AgreeProgram
import Verif.Proofs.FloatGf
import Verif.Proofs.FloatLog
import Verif.Props.FloatLogExp
import Verif.Props.FloatLogExp2
import Verif.Props.FloatMul
import Verif.Props.FloatMul2
import Verif.Props.FloatMul3
import Verif.Props.FloatScale
import Verif.Props.FloatDiv3
import Verif.Props.FloatSMem
import Verif.Props.FloatSync
import Verif.Model.FloatLin
import Verif.Proofs.FloatLinBuild
import Verif.Proofs.FloatClosed
import Verif.Proofs.FloatLin
import Verif.Props.FloatLin
import Verif.Model.Labels
import Verif.Spec.Labels
import Verif.Props.Labels
import Verif.Model.Print
import Verif.Spec.Print
import Verif.Props.Print
