import Verif.Model.Py
import Verif.Model.Metrics
import Verif.Spec.Metrics
import Verif.Lemmas.Metrics
import Verif.Lemmas.Calc
import Verif.Props.Metrics
import Verif.Model.Progress
import Verif.Lemmas.Progress
import Verif.Props.Progress
import Verif.Model.Timer
import Verif.Model.Logger
import Verif.Props.Utils
import Verif.Model.Csa
import Verif.Spec.Matching
import Verif.Lemmas.CsaScan
import Verif.Lemmas.CsaPush
import Verif.Lemmas.CsaMain
import Verif.Props.Csa
import Verif.Model.Kofn
import Verif.Props.Kofn
import Verif.Model.Match
import Verif.Lemmas.Match
import Verif.Lemmas.MatchGraph
import Verif.Lemmas.MatchMain
import Verif.Lemmas.MatchCost
import Verif.Props.Match
import Verif.Lemmas.MatchQuality
import Verif.Props.MatchQuality
import Verif.Model.Img
import Verif.Model.Thin
import Verif.Spec.Topology
import Verif.Lemmas.ThinBits
import Verif.Lemmas.ThinTopo
import Verif.Lemmas.Thin
import Verif.Lemmas.ThinLoop
import Verif.Props.Thin
import Verif.Model.Evaluate
import Verif.Lemmas.Evaluate
import Verif.Props.Evaluate
import Verif.Props.Kill
import Verif.Model.Codec
import Verif.Model.Mask2Edge
import Verif.Spec.Labels
import Verif.Lemmas.Digits
import Verif.Props.Codec
import Verif.Props.Labels
import Verif.Props.Inst
import Verif.Spec.Boundary
import Verif.Spec.Rounding
import Verif.Lemmas.Rounding
import Verif.Lemmas.Boundary
import Verif.Props.Mask2Edge
import Verif.Props.Mask2EdgeFloat
import Verif.Model.Nms
import Verif.Spec.Nms
import Verif.Lemmas.Nms
import Verif.Lemmas.ConvTri
import Verif.Props.Nms
import Verif.Model.Evaluators
import Verif.Spec.Protocol
import Verif.Lemmas.Evaluators
import Verif.Props.Evaluators
import Verif.Model.Text
import Verif.Model.Io
import Verif.Model.Cli
import Verif.Model.ColorMap
import Verif.Spec.Files
import Verif.Lemmas.Text
import Verif.Lemmas.Io
import Verif.Lemmas.Cli
import Verif.Props.Io
import Verif.Props.ColorMap
import Verif.Props.Cli
import Verif.Props.Orientation
import Verif.Model.Samples
import Verif.Spec.Samples
import Verif.Props.SampleNames
import Verif.Props.SampleData
import Verif.Model.Datasets
import Verif.Spec.Datasets
import Verif.Props.Datasets
import Verif.Props.Otf
import Verif.Model.EndToEnd
import Verif.Spec.EndToEnd
import Verif.Props.EndToEnd
import Verif.Lemmas.Augment
import Verif.Model.Path
import Verif.Spec.Path
import Verif.Props.Path
import Verif.Model.Convert
import Verif.Props.Convert
import Verif.Props.ConvertOtf
import Verif.Lemmas.Replace
import Verif.Props.ConvertCity
import Verif.Props.ConvertRun
import Verif.Props.ConvertDone
import Verif.Props.ConvertFail
import Verif.Model.ConvertSbd
import Verif.Props.ConvertSbd
import Verif.Props.ConvertSbdRun
import Verif.Props.ConvertSbdReanno
import Verif.Props.ConvertSbdDone
import Verif.Props.ConvertSbdTruth
import Verif.Props.ConvertSbdEx
import Verif.Spec.Float
import Verif.Model.MetricsFloat
import Verif.Lemmas.Float
import Verif.Lemmas.MetricsFloat
import Verif.Lemmas.CalcFloat
import Verif.Lemmas.FloatError
import Verif.Lemmas.AucFloat
import Verif.Lemmas.FloatClose
import Verif.Props.Float
import Verif.Model.CsaFloat
import Verif.Lemmas.CsaFloat
import Verif.Lemmas.CsaFloatPrice
import Verif.Lemmas.CsaFloatTotal
import Verif.Lemmas.CsaFloatMain
import Verif.Props.CsaFloat
import Verif.Model.MatchFloat
import Verif.Spec.FloatSqrt
import Verif.Lemmas.FloatSqrt
import Verif.Lemmas.MatchFloat
import Verif.Lemmas.MatchFloatTol
import Verif.Lemmas.MatchFloatCost
import Verif.Props.MatchFloat
import Verif.Spec.Int32
import Verif.Model.MatchInts
import Verif.Lemmas.MatchInts
import Verif.Props.MatchInts
import Verif.Spec.Draws
import Verif.Model.Random
import Verif.Lemmas.KofnFloat
import Verif.Lemmas.KofnOnto
import Verif.Props.Random
import Verif.Model.NmsBatch
import Verif.Props.NmsBatch
import Verif.Model.Plot
import Verif.Props.Plot
import Verif.Spec.KofnUniform
import Verif.Lemmas.KofnUniform
import Verif.Props.KofnUniform
import Verif.Model.CsaMem
import Verif.Lemmas.CsaMem
import Verif.Lemmas.CsaMemPush
import Verif.Lemmas.CsaMemLoop
import Verif.Lemmas.CsaMemParse
import Verif.Lemmas.CsaMemSolve
import Verif.Props.CsaMem
import Verif.Props.Tighten
import Verif.Model.MatchMem
import Verif.Lemmas.MatchMem
import Verif.Lemmas.MatchMemNodes
import Verif.Lemmas.MatchMemKofn
import Verif.Lemmas.MatchMemGraph
import Verif.Lemmas.MatchMemFinish
import Verif.Props.MatchMem
import Verif.Model.MatrixMem
import Verif.Spec.MatrixMem
import Verif.Model.MatrixProg
import Verif.Lemmas.MatrixMem
import Verif.Lemmas.MatrixMemOps
import Verif.Lemmas.MatrixProg
import Verif.Props.MatrixMem
import Verif.Spec.Float32
import Verif.Model.NmsFloat
import Verif.Lemmas.NmsFloat
import Verif.Lemmas.NmsFloatMain
import Verif.Lemmas.NmsFloatReal
import Verif.Lemmas.Float32
import Verif.Lemmas.NmsFloatConv
import Verif.Props.NmsFloat
import Verif.Props.NmsFloatFast
import Verif.Props.Tighten2
import Verif.Model.Sort
import Verif.Spec.Sort
import Verif.Lemmas.Sort
import Verif.Lemmas.SortSel
import Verif.Lemmas.SortFuel
import Verif.Props.Sort
import Verif.Model.MatrixOps
import Verif.Spec.MatrixOps
import Verif.Lemmas.MatrixOps
import Verif.Lemmas.MatrixShape
import Verif.Lemmas.MatrixShape2
import Verif.Lemmas.MatrixIndex
import Verif.Lemmas.MatrixReduce
import Verif.Lemmas.MatrixReduce2
import Verif.Props.MatrixOps
import Verif.Model.MatrixFun
import Verif.Props.MatrixFun
import Verif.Model.ArrayHH
import Verif.Spec.ArrayHH
import Verif.Lemmas.ArrayHH
import Verif.Lemmas.ArrayMem
import Verif.Props.ArrayHH
import Verif.Model.ConvTriInt
import Verif.Props.ConvTriInt
import Verif.Model.KofnInts
import Verif.Props.KofnInts
import Verif.Props.MatchStream
import Verif.Props.Tighten3
import Verif.Model.CTimer
import Verif.Props.CTimer
import Verif.Model.CString
import Verif.Spec.CString
import Verif.Lemmas.CString
import Verif.Lemmas.CStringProg
import Verif.Props.CString
import Verif.Model.MatrixMsg
import Verif.Props.MatrixMsg
import Verif.Props.Tighten4
import Verif.Model.CsaLife
import Verif.Lemmas.CsaLife
import Verif.Props.CsaLife
import Verif.Model.Workers
import Verif.Spec.Workers
import Verif.Lemmas.Workers
import Verif.Model.WorkersEval
import Verif.Props.Workers
import Verif.Props.Tighten5
import Verif.Model.MatlabTest
import Verif.Spec.MatlabTest
import Verif.Props.MatlabTest
import Verif.Model.MatFile
import Verif.Spec.MatFile
import Verif.Props.MatFile
import Verif.Props.Tighten6
import Verif.Model.SbdFiles
import Verif.Props.SbdFiles
import Verif.Model.BsdsFiles
import Verif.Props.BsdsFiles
import Verif.Model.Argparse
import Verif.Spec.Argparse
import Verif.Lemmas.Argparse
import Verif.Props.Argparse
import Verif.Model.Commands
import Verif.Spec.Commands
import Verif.Props.Commands
import Verif.Spec.Paths
import Verif.Props.Paths
import Verif.Props.CommandsMissing
import Verif.Model.ConvertCommands
import Verif.Props.ConvertCommands
import Verif.Props.ConvertSbdOnce
import Verif.Props.ConvertThenEvaluate
import Verif.Props.ConvertMismatch
