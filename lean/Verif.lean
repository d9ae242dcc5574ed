import Verif.Basic
import Verif.Spec
import Verif.Model.Aeu
import Verif.SpecText
import Verif.SpecInt
import Verif.Model.Builtin
import Verif.Model.Text
import Verif.Model.BinIO
import Verif.Model.Aesi
import Verif.Props.Arith
import Verif.Props.Access
import Verif.Props.NumTheory
import Verif.Props.Algebra
import Verif.Props.Program
import Verif.Props.Text
import Verif.Props.BinIO
import Verif.Props.Signed
import Verif.Props.SignedText
import Verif.Props.SignedProgram
import Verif.Model.Alias
import Verif.Model.Gmp
import Verif.Model.Init
import Verif.Model.Cuda
import Verif.Props.Alias
import Verif.Props.Gmp
import Verif.Props.Cuda
import Verif.Lemmas.SignedWrap
import Verif.Lemmas.PowmTotal
import Verif.Props.Mixed
import Verif.Props.SignedTotal
import Verif.Props.Powm
import Verif.Lemmas.StreamWidth
import Verif.Props.Compare
import Verif.Props.StreamExact
import Verif.Props.TextExact
import Verif.Props.SignedExact
import Verif.Model.Client
import Verif.Props.Safety
import Verif.Props.Flags
import Verif.SpecClient
import Verif.Props.RefineU
import Verif.Props.RefineS
import Verif.Props.RefineQ
import Verif.Props.Bezout
import Verif.Props.Complete
import Verif.Props.PowmBound
import Verif.Props.AliasSigned
import Verif.Props.AliasOutputs
import Verif.Props.Refine
import Verif.Props.Steps
import Verif.Props.BinCross
import Verif.Props.Laws
import Verif.Props.Protocols
import Verif.Validation
import Verif.Props.SignedLaws
import Verif.Props.Interchange
import Verif.Props.CastLaws
import Verif.Props.SafetyExact
import Verif.Props.Outputs
import Verif.Props.Init
import Verif.Model.Programs
import Verif.Model.PollardMain
import Verif.Props.Pollard
import Verif.Lemmas.Pratt
import Verif.Props.PollardShipped
import Verif.Props.Euclid
import Verif.Props.Smoke
import Verif.Model.Tests
import Verif.Props.TestsArith
import Verif.Props.TestsSigned
import Verif.Props.TestsBits
import Verif.Props.TestsMisc
import Verif.Model.TestsText
import Verif.Lemmas.ByteText
import Verif.Props.TestsText
import Verif.Props.TestsOutput
import Verif.Model.File
import Verif.Props.File
import Verif.Model.Primes
import Verif.Props.Primes
import Verif.Props.SignedCastLaws
import Verif.Model.FailingStream
import Verif.Props.FailingStream
import Verif.Model.LocaleStream
import Verif.Props.LocaleStream
import Verif.Model.Wide128
import Verif.Props.Wide128
import Verif.Model.CudaShared
import Verif.Props.CudaShared
import Verif.Props.CudaSharedIff
import Verif.Model.ThrowingStream
import Verif.Props.ThrowingStream
import Verif.Model.Threads
import Verif.Props.Threads
import Verif.Model.Rest
import Verif.Props.Rest
import Verif.Model.SignedLeft
import Verif.Props.SignedLeft
import Verif.Model.CudaRelaxed
import Verif.Props.CudaRelaxed
import Verif.Model.GmpMemory
import Verif.Props.GmpMemory
import Verif.Model.CudaSharedRelaxed
import Verif.Props.CudaSharedRelaxed
import Verif.Model.Ordered
import Verif.Props.Ordered
import Verif.Model.Transfer
import Verif.Props.Transfer
import Verif.Props.SignedRoundTrip
import Verif.Model.ReadBack
import Verif.Props.ReadBack
import Verif.Props.ExactMore
import Verif.Model.Benchmarks
import Verif.Props.Benchmarks
import Verif.Props.HiddenZero
import Verif.Model.Double
import Verif.Props.StreamBuffer
import Verif.Model.InitText
import Verif.Props.InitText
import Verif.Model.Constexpr
import Verif.Props.Constexpr
import Verif.Props.OneOutput
import Verif.Model.Work
import Verif.Props.Work
import Verif.Model.WorkText
import Verif.Props.WorkText
import Verif.Props.Trace
import Verif.Props.TraceDivision
import Verif.Props.TracePower
import Verif.Props.TraceGcd
import Verif.Props.TracePowerWide
import Verif.Props.TracePrint
import Verif.Props.TraceParse
import Verif.Props.TraceSigned
