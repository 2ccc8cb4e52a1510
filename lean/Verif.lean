import Verif.Model.Agm
import Verif.Model.Alias
import Verif.Model.Boost
import Verif.Model.Const
import Verif.Model.Convert
import Verif.Model.Crc
import Verif.Model.DW
import Verif.Model.Elem
import Verif.Model.Exp2
import Verif.Model.ExpW
import Verif.Model.Fft
import Verif.Model.FftT
import Verif.Model.FftTail
import Verif.Model.Float
import Verif.Model.FloatConv
import Verif.Model.FloatOut
import Verif.Model.Frexp
import Verif.Model.Kara
import Verif.Model.Limb
import Verif.Model.Mixed
import Verif.Model.MixedCmp
import Verif.Model.Object
import Verif.Model.ParFor
import Verif.Model.Parse
import Verif.Model.PiControl
import Verif.Model.Pow
import Verif.Model.Print
import Verif.Model.Prog
import Verif.Model.Rootn
import Verif.Model.Sqrt
import Verif.Model.Tables
import Verif.Model.Thread
import Verif.Model.Util
import Verif.Model.Wrap
import Verif.Proofs.Add
import Verif.Proofs.Add2
import Verif.Proofs.Add3
import Verif.Proofs.Add4
import Verif.Proofs.Add5
import Verif.Proofs.Add6
import Verif.Proofs.Agm1
import Verif.Proofs.Agm2
import Verif.Proofs.Agm3
import Verif.Proofs.AgmEnd
import Verif.Proofs.AgmLog
import Verif.Proofs.AgmQuot
import Verif.Proofs.AgmRun
import Verif.Proofs.Alias
import Verif.Proofs.Boost
import Verif.Proofs.Closure
import Verif.Proofs.Closure2
import Verif.Proofs.Const
import Verif.Proofs.Dft
import Verif.Proofs.Dft2
import Verif.Proofs.Div
import Verif.Proofs.DivNear
import Verif.Proofs.DynArray
import Verif.Proofs.Exp2
import Verif.Proofs.Exp2Arg
import Verif.Proofs.Exp2Main
import Verif.Proofs.ExpArg
import Verif.Proofs.ExpLoop
import Verif.Proofs.ExpMain
import Verif.Proofs.Extract
import Verif.Proofs.Extract2
import Verif.Proofs.Fft
import Verif.Proofs.Fft2
import Verif.Proofs.FftConf
import Verif.Proofs.FftDbl
import Verif.Proofs.FftErr1
import Verif.Proofs.FftErr2
import Verif.Proofs.FftErr3
import Verif.Proofs.FftErr4
import Verif.Proofs.FftErr5
import Verif.Proofs.FftErr6
import Verif.Proofs.FftErr7
import Verif.Proofs.FftErr8
import Verif.Proofs.FftErr9
import Verif.Proofs.FftErrA
import Verif.Proofs.FftFill
import Verif.Proofs.FftInt
import Verif.Proofs.FftMem
import Verif.Proofs.FftReal
import Verif.Proofs.FftRev
import Verif.Proofs.FftRnd
import Verif.Proofs.FftTabA
import Verif.Proofs.FftTabB
import Verif.Proofs.FftTabC
import Verif.Proofs.FftTabD
import Verif.Proofs.FftTw
import Verif.Proofs.Float
import Verif.Proofs.FloatConv
import Verif.Proofs.FloatConv2
import Verif.Proofs.FloatOut
import Verif.Proofs.Floor
import Verif.Proofs.Frexp
import Verif.Proofs.Fuel
import Verif.Proofs.Hyp
import Verif.Proofs.Int
import Verif.Proofs.IntPart
import Verif.Proofs.Inv
import Verif.Proofs.Kara
import Verif.Proofs.KaraAgr
import Verif.Proofs.KaraMal
import Verif.Proofs.Ldexp
import Verif.Proofs.Limb
import Verif.Proofs.LnTwo
import Verif.Proofs.LogAgm
import Verif.Proofs.LogLoop
import Verif.Proofs.LogMain
import Verif.Proofs.LogMal
import Verif.Proofs.MalAdd
import Verif.Proofs.Mono
import Verif.Proofs.Mul
import Verif.Proofs.Mul2
import Verif.Proofs.Mul3
import Verif.Proofs.Near
import Verif.Proofs.Num
import Verif.Proofs.Ops
import Verif.Proofs.Parse
import Verif.Proofs.Parse2
import Verif.Proofs.Parse3
import Verif.Proofs.PiLoop
import Verif.Proofs.PiMain
import Verif.Proofs.PiOps
import Verif.Proofs.PiReal
import Verif.Proofs.PiRound
import Verif.Proofs.Pow
import Verif.Proofs.Print
import Verif.Proofs.Print2
import Verif.Proofs.Print3
import Verif.Proofs.Radix
import Verif.Proofs.Radix2
import Verif.Proofs.Radix3
import Verif.Proofs.Rootn
import Verif.Proofs.Rootn2
import Verif.Proofs.RootnNum
import Verif.Proofs.RootnStart
import Verif.Proofs.Round
import Verif.Proofs.Round2
import Verif.Proofs.RoundEven
import Verif.Proofs.School
import Verif.Proofs.SinTab
import Verif.Proofs.Sqrt
import Verif.Proofs.Sqrt2
import Verif.Proofs.SqrtNum
import Verif.Proofs.SqrtStart
import Verif.Proofs.Start
import Verif.Proofs.Start2
import Verif.Proofs.Start3
import Verif.Proofs.Thread
import Verif.Proofs.ThreadAdd
import Verif.Proofs.ThreadInt
import Verif.Proofs.ThreadKara
import Verif.Proofs.ThreadMul
import Verif.Proofs.ThreadOps
import Verif.Proofs.ThreadSchool
import Verif.Proofs.ThreadWp
import Verif.Props.AgmBad
import Verif.Props.AgmBad2
import Verif.Props.AgmBad3
import Verif.Props.AgmHuge
import Verif.Props.Alias
import Verif.Props.Arith
import Verif.Props.Boost
import Verif.Props.Const
import Verif.Props.Convert
import Verif.Props.Corners
import Verif.Props.Crc
import Verif.Props.Div
import Verif.Props.DynArray
import Verif.Props.Exp
import Verif.Props.Exp2
import Verif.Props.Exp2Ex
import Verif.Props.ExpW
import Verif.Props.Fft
import Verif.Props.FftBounds
import Verif.Props.FftDouble
import Verif.Props.FftErr
import Verif.Props.FftT
import Verif.Props.FloatConv
import Verif.Props.FloatK
import Verif.Props.FloatOut
import Verif.Props.Fmod
import Verif.Props.Frexp
import Verif.Props.Hyp
import Verif.Props.Inv
import Verif.Props.Inv2
import Verif.Props.InvInv
import Verif.Props.Ldexp
import Verif.Props.Limb
import Verif.Props.LnTwo
import Verif.Props.Log
import Verif.Props.LogAgm
import Verif.Props.Misc
import Verif.Props.MixedCmp
import Verif.Props.Mono
import Verif.Props.Mul
import Verif.Props.Object
import Verif.Props.ParFor
import Verif.Props.Parts
import Verif.Props.Pi
import Verif.Props.PiControl
import Verif.Props.Pow
import Verif.Props.PowReal
import Verif.Props.Print
import Verif.Props.Prog
import Verif.Props.Prog2
import Verif.Props.Radix
import Verif.Props.Rootn
import Verif.Props.Rootn2
import Verif.Props.Round
import Verif.Props.Sqrt
import Verif.Props.SqrtK
import Verif.Props.SqrtStart
import Verif.Props.Start
import Verif.Props.Sums
import Verif.Props.Tables
import Verif.Props.Text
import Verif.Props.Thread
import Verif.Props.Tight
import Verif.Props.Util
import Verif.Props.Wrap
import Verif.Spec
import Verif.Spec.Bounds
import Verif.Spec.Cmp
import Verif.Spec.Convert
import Verif.Spec.ConvertSat
import Verif.Spec.Crc
import Verif.Spec.Exp
import Verif.Spec.Fft
import Verif.Spec.Float
import Verif.Spec.FloatOk
import Verif.Spec.Num
import Verif.Spec.Object
import Verif.Spec.ParFor
import Verif.Spec.Round
import Verif.Spec.RoundEven
import Verif.Spec.Text
import Verif.Spec.Thread
