import Verif.Model.Alloc
import Verif.Model.ArchSel
import Verif.Model.Arith
import Verif.Model.ArrRed
import Verif.Model.Array
import Verif.Model.BigEnd
import Verif.Model.Bitwise
import Verif.Model.Blend
import Verif.Model.Bytes16
import Verif.Model.CInt
import Verif.Model.CIntLemmas
import Verif.Model.CMake
import Verif.Model.Carry
import Verif.Model.Cast
import Verif.Model.Cfg
import Verif.Model.Compare
import Verif.Model.Conv
import Verif.Model.Detect
import Verif.Model.Dispatch
import Verif.Model.DivP
import Verif.Model.Expr
import Verif.Model.ExtractBits
import Verif.Model.FConv
import Verif.Model.FConvVsx
import Verif.Model.FDiv
import Verif.Model.FMul
import Verif.Model.FProg
import Verif.Model.FReduce
import Verif.Model.FRound
import Verif.Model.FltOps
import Verif.Model.ForEach
import Verif.Model.Ftz
import Verif.Model.FtzDiv
import Verif.Model.FtzReduce
import Verif.Model.Gather
import Verif.Model.Gemm
import Verif.Model.Intrin
import Verif.Model.Lanes
import Verif.Model.Log2
import Verif.Model.MProg
import Verif.Model.MakeConst
import Verif.Model.Mask
import Verif.Model.Mem
import Verif.Model.MemPack
import Verif.Model.MinMax
import Verif.Model.Move
import Verif.Model.Mul
import Verif.Model.MultiArch
import Verif.Model.Null
import Verif.Model.NullLemmas
import Verif.Model.NullShuffle
import Verif.Model.PackProg
import Verif.Model.Popcnt
import Verif.Model.Prog
import Verif.Model.Reduce
import Verif.Model.ReduceAdd
import Verif.Model.ReduceMul
import Verif.Model.ReducePopcnt
import Verif.Model.SProg
import Verif.Model.ScalarBits
import Verif.Model.Search
import Verif.Model.Shift
import Verif.Model.ShiftV
import Verif.Model.ShufIntrin
import Verif.Model.ShufMask
import Verif.Model.ShufProg
import Verif.Model.Shuffle32
import Verif.Model.Shuffle64
import Verif.Model.Sort
import Verif.Model.SortLib
import Verif.Model.Table
import Verif.Model.Threads
import Verif.Model.Tiles
import Verif.Model.Transpose
import Verif.Model.UProg
import Verif.Model.Vec
import Verif.Model.Workaround
import Verif.Model.Zip
import Verif.Props.Alloc
import Verif.Props.ArchSel
import Verif.Props.Arith
import Verif.Props.ArrRed
import Verif.Props.BigEnd
import Verif.Props.BigEnd2
import Verif.Props.BigEndLemmas
import Verif.Props.Bitwise
import Verif.Props.BitwiseLemmas
import Verif.Props.Blend
import Verif.Props.BlendLemmas
import Verif.Props.ByteSel
import Verif.Props.Bytes16
import Verif.Props.CMake
import Verif.Props.Carry
import Verif.Props.CarryExact
import Verif.Props.CarryFir
import Verif.Props.CarryFlt
import Verif.Props.CarrySum
import Verif.Props.Cast
import Verif.Props.Compare
import Verif.Props.CompareExact
import Verif.Props.CompareLemmas
import Verif.Props.Conv
import Verif.Props.ConvArr
import Verif.Props.ConvExt
import Verif.Props.ConvTrunc
import Verif.Props.Detect
import Verif.Props.Dispatch
import Verif.Props.DivP
import Verif.Props.DivPLemmas
import Verif.Props.Expr
import Verif.Props.ExtractBits
import Verif.Props.FConv
import Verif.Props.FConvInt
import Verif.Props.FConvKern
import Verif.Props.FConvLane
import Verif.Props.FConvSpec
import Verif.Props.FConvU32
import Verif.Props.FConvVsx
import Verif.Props.FDiv
import Verif.Props.FMul
import Verif.Props.FNewton
import Verif.Props.FNewtonSqrt
import Verif.Props.FProg
import Verif.Props.FReduce
import Verif.Props.FReduceLemmas
import Verif.Props.FRound32
import Verif.Props.FRound64
import Verif.Props.FRound64Exact
import Verif.Props.FRoundLane
import Verif.Props.FSum
import Verif.Props.FltOps
import Verif.Props.ForEach
import Verif.Props.FpDiv
import Verif.Props.FpLemmas
import Verif.Props.FpNearest
import Verif.Props.FpRel
import Verif.Props.FpRelW
import Verif.Props.Ftz
import Verif.Props.FtzDiv
import Verif.Props.FtzMore
import Verif.Props.FtzReduce
import Verif.Props.FtzSame
import Verif.Props.Gemm
import Verif.Props.Kernel
import Verif.Props.Lanes
import Verif.Props.Log2
import Verif.Props.Log2Real
import Verif.Props.MConv
import Verif.Props.MProg
import Verif.Props.MakeConst
import Verif.Props.MaskLemmas
import Verif.Props.Mem
import Verif.Props.MemLemmas
import Verif.Props.MemPack
import Verif.Props.MemPack24
import Verif.Props.MemPack3
import Verif.Props.MemPack3B
import Verif.Props.MemPack4
import Verif.Props.MemPackSel
import Verif.Props.MemPart
import Verif.Props.MemReg
import Verif.Props.MinMax
import Verif.Props.MinMaxLemmas
import Verif.Props.Move
import Verif.Props.Mul
import Verif.Props.MulLemmas
import Verif.Props.MulPub
import Verif.Props.Mull
import Verif.Props.MultiArch
import Verif.Props.NoUB
import Verif.Props.PackProg
import Verif.Props.PairLemmas
import Verif.Props.Popcnt
import Verif.Props.PopcntLemmas
import Verif.Props.PopcntPub
import Verif.Props.Prog
import Verif.Props.Reduce
import Verif.Props.ReduceAdd
import Verif.Props.ReduceAddLemmas
import Verif.Props.ReduceLemmas
import Verif.Props.ReduceMul
import Verif.Props.ReduceMulLemmas
import Verif.Props.ReducePopcnt
import Verif.Props.SProg
import Verif.Props.Samples
import Verif.Props.ScalarBits
import Verif.Props.Search
import Verif.Props.SetSplat
import Verif.Props.Shift
import Verif.Props.ShiftLemmas
import Verif.Props.ShiftV
import Verif.Props.ShiftV16
import Verif.Props.ShiftV32
import Verif.Props.ShiftVAll
import Verif.Props.ShiftVLemmas
import Verif.Props.ShufMask
import Verif.Props.Shuffle32
import Verif.Props.Shuffle32CheckF
import Verif.Props.Shuffle32CheckI
import Verif.Props.Shuffle32CheckJ
import Verif.Props.Shuffle32Lemmas
import Verif.Props.Shuffle64
import Verif.Props.Shuffle64Check
import Verif.Props.Sort
import Verif.Props.SortLib
import Verif.Props.Splat
import Verif.Props.Split
import Verif.Props.Swar
import Verif.Props.Table
import Verif.Props.Threads
import Verif.Props.ThreadsDemo
import Verif.Props.ThreadsExact
import Verif.Props.ThreadsFor
import Verif.Props.ThreadsMem
import Verif.Props.ThreadsPub
import Verif.Props.ThreadsRace
import Verif.Props.Tiles
import Verif.Props.Transpose
import Verif.Props.UProg
import Verif.Props.Workaround
import Verif.Props.Zip
import Verif.Spec.Carry
import Verif.Spec.FProg
import Verif.Spec.Flt
import Verif.Spec.Fp
import Verif.Spec.FpDiv
import Verif.Spec.FpMul
import Verif.Spec.FpRange
import Verif.Spec.FpReal
import Verif.Spec.Ftz
import Verif.Spec.Gemm
import Verif.Spec.Int
import Verif.Spec.MProg
import Verif.Spec.Mem
import Verif.Spec.Prog
import Verif.Spec.Rel
import Verif.Spec.SProg
import Verif.Spec.Search
import Verif.Spec.Shuffle
import Verif.Spec.Table
import Verif.Spec.Threads
import Verif.Spec.Transpose
import Verif.Spec.Tree
