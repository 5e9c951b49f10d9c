import Verif.Base.Fault
import Verif.Base.Side
import Verif.SizeUtil.NatLevel
import Verif.SizeUtil.Props
import Verif.BlockMap.Props
import Verif.Mat.Props
import Verif.Multiplier.Props
import Verif.Mul.PackLemmas
import Verif.Mul.Value
import Verif.Mul.Total
import Verif.Mul.Props
import Verif.TrMul.Props
import Verif.Front.Props
import Verif.Float.Props
import Verif.Pool.Props
import Verif.Alloc.Props
import Verif.Cache.Props
import Verif.Cache.MulProps
import Verif.TrMul.TopProps
import Verif.Front.TopProps
import Verif.Cache.TopProps
import Verif.Ctx.Props
import Verif.Ctx.MulProps
import Verif.Params.Props
import Verif.Tune.Props
import Verif.CpuInfo.Props
import Verif.Fpu.Props
import Verif.Simd.MultProps
import Verif.Simd.PackProps
import Verif.Simd.RowProps
import Verif.Simd.KernProps
import Verif.Simd.FlowProps
import Verif.Simd.ThreadsProps
import Verif.Simd.Calls
import Verif.Neon.Props
import Verif.Neon.PackCode
import Verif.Neon.PackJob
import Verif.Neon.PackAsm
import Verif.Neon.PackRun
import Verif.Neon.PackVariants
import Verif.Neon.PackCall
import Verif.Neon.PackLoop
import Verif.Neon.PackProps
import Verif.Neon.RowCall
import Verif.Neon.RowLemmas
import Verif.Neon.RowLoop
import Verif.Neon.RowProps
import Verif.Neon.A55Code
import Verif.Neon.Sim
import Verif.Neon.Reorder
import Verif.Neon.A55Sim
import Verif.Neon.A55Blocks
import Verif.Neon.A55Props
import Verif.Neon.ColCode
import Verif.Neon.ColDepth
import Verif.Neon.ColQuant
import Verif.Neon.ColStore
import Verif.Neon.ColWhole
import Verif.Neon.ColProps
import Verif.Neon.Flow
import Verif.Neon.FlowSteps
import Verif.Neon.FlowKernel
import Verif.Neon.FlowRun
import Verif.Neon.FlowProps
import Verif.Neon.Threads
import Verif.Neon.ThreadsInv
import Verif.Neon.ThreadsProps
import Verif.XFloat.Model
import Verif.XFloat.Part
import Verif.XFloat.PackLemmas
import Verif.XFloat.PackRun
import Verif.XFloat.KernLemmas
import Verif.XFloat.Run
import Verif.XFloat.Threads
import Verif.XFloat.ThreadsInv
import Verif.XFloat.Props
import Verif.FloatErr.Lemmas
import Verif.FloatErr.Binary32
import Verif.FloatErr.Ref
import Verif.FloatErr.Props
import Verif.Neon.DotCode
import Verif.Neon.DotJob
import Verif.Neon.DotAccum
import Verif.Neon.DotBlock
import Verif.Neon.DotQuant
import Verif.Neon.DotCopy
import Verif.Neon.DotStore
import Verif.Neon.DotTypes
import Verif.Neon.DotHeads
import Verif.Neon.DotWhole
import Verif.Neon.DotSpec
import Verif.Neon.DotFinal
import Verif.Neon.DotValue
import Verif.Neon.DotProps
import Verif.Neon.DotX1Code
import Verif.Neon.DotX1
import Verif.Neon.DotA55Code
import Verif.Neon.DotA55Sim
import Verif.Neon.DotA55Blocks
import Verif.Neon.DotA55Rest
import Verif.Neon.DotTuning
import Verif.Neon.Dot1ColCode
import Verif.Neon.DotColDepth
import Verif.Neon.DotColQuant
import Verif.Neon.DotColStore
import Verif.Neon.DotColWhole
import Verif.Neon.DotColProps
import Verif.Neon.DPackCode
import Verif.Neon.DPackJob
import Verif.Neon.DPackAsm
import Verif.Neon.DPackRun
import Verif.Neon.DPackVariants
import Verif.Neon.DPackCall
import Verif.Neon.DPackLoop
import Verif.Neon.DPackProps
import Verif.Neon.DRowJob
import Verif.Neon.DRowAsm
import Verif.Neon.DRowRun
import Verif.Neon.DRowCall
import Verif.Neon.DRowLoop
import Verif.Neon.DRowProps
import Verif.Neon.DFlow
import Verif.Neon.DFlowSteps
import Verif.Neon.DFlowKernel
import Verif.Neon.DFlowRun
import Verif.Neon.DFlowProps
import Verif.Neon.DThreads
import Verif.Neon.DThreadsInv
import Verif.Neon.DThreadsProps
import Verif.NeonF.Isa
import Verif.NeonF.Code
import Verif.NeonF.CodeA55
import Verif.NeonF.Job
import Verif.NeonF.Basic
import Verif.NeonF.Accum
import Verif.NeonF.AccumFlt
import Verif.NeonF.AccumA55
import Verif.NeonF.Block
import Verif.NeonF.Store
import Verif.NeonF.Whole
import Verif.NeonF.Props
import Verif.NeonF.Error
import Verif.NeonF.PackCode
import Verif.NeonF.PackJob
import Verif.NeonF.PackAsm
import Verif.NeonF.PackRun
import Verif.NeonF.PackCall
import Verif.NeonF.PackLoop
import Verif.NeonF.PackProps
import Verif.NeonF.Flow
import Verif.NeonF.FlowSteps
import Verif.NeonF.FlowRun
import Verif.NeonF.FlowProps
import Verif.NeonF.Threads
import Verif.NeonF.ThreadsProps
import Verif.Race.Cpp
import Verif.Race.Task
import Verif.Race.Local
import Verif.Race.Global
import Verif.Race.Facts
import Verif.Race.Interleave
import Verif.Race.Advance
import Verif.Race.Props
import Verif.Race.Pool
import Verif.Race.PoolLocal
import Verif.Race.PoolMain
import Verif.Race.PoolGlobal
import Verif.Race.PoolRounds
import Verif.Race.PoolFacts
import Verif.Race.PoolRuns
import Verif.Race.PoolAdvance
import Verif.Race.PoolProps
import Verif.Race.Project
import Verif.Race.Mul
import Verif.Race.MulProps
import Verif.Prof.Model
import Verif.Prof.Spec
import Verif.Prof.Lemmas
import Verif.Prof.Tree
import Verif.Prof.View
import Verif.Prof.Props
import Verif.Neon.Clobber
import Verif.Neon.ClobberProps
import Verif.Arm32.Isa
import Verif.Arm32.Code
import Verif.Arm32.Job
import Verif.Arm32.Block
import Verif.Arm32.Store
import Verif.Arm32.Whole
import Verif.Arm32.Clobber
import Verif.Arm32.Props
import Verif.Arm32.PackCode
import Verif.Arm32.PackJob
import Verif.Arm32.PackRun
import Verif.Arm32.PackLoop
import Verif.Arm32.PackProps
import Verif.Arm8.Isa
import Verif.Arm8.Code
import Verif.Arm8.Job
import Verif.Arm8.Depth
import Verif.Arm8.Aim
import Verif.Arm8.Quant
import Verif.Arm8.Copy
import Verif.Arm8.Store
import Verif.Arm8.Stored
import Verif.Arm8.Whole
import Verif.Arm8.Clobber
import Verif.Arm8.Props
import Verif.Arm8.PackCode
import Verif.Arm8.PackJob
import Verif.Arm8.PackRun
import Verif.Arm8.PackTail
import Verif.Arm8.PackCall
import Verif.Arm8.PackLoop
import Verif.Arm8.PackProps
import Verif.Arm8.ColCode
import Verif.Arm8.ColDepth
import Verif.Arm8.ColAim
import Verif.Arm8.ColQuant
import Verif.Arm8.ColStore
import Verif.Arm8.ColWhole
import Verif.Arm8.ColProps
import Verif.Arm8.RowCall
import Verif.Arm8.RowLoop
import Verif.Arm8.RowProps
import Verif.Arm8.Flow
import Verif.Arm8.FlowSteps
import Verif.Arm8.FlowKernel
import Verif.Arm8.FlowRun
import Verif.Arm8.FlowProps
import Verif.Arm8.Threads
import Verif.Arm8.ThreadsInv
import Verif.Arm8.ThreadsProps
import Verif.Race.PathProps
import Verif.Race.Path16Props
import Verif.Arm32.Flow
import Verif.Arm32.FlowSteps
import Verif.Arm32.FlowRun
import Verif.Arm32.FlowValues
import Verif.Arm32.FlowProps
import Verif.Arm32.Flush
import Verif.Arm32.FlushProps
import Verif.Arm32.Threads
import Verif.Arm32.ThreadsInv
import Verif.Arm32.ThreadsProps
import Verif.Simd.Pack16
import Verif.Simd.Pack16Loop
import Verif.Simd.Pack16Run
import Verif.Simd.Pack16Props
import Verif.Simd.Flow16
import Verif.Simd.Flow16Run
import Verif.Simd.Flow16Props
import Verif.Simd.Flow16Threads
import Verif.Simd.Flow16ThreadsProps
import Verif.Simd.Top
import Verif.Simd.TopProps
import Verif.Simd.Top16
import Verif.Simd.Top16Props
import Verif.XFloat.Top
import Verif.XFloat.TopProps
import Verif.FloatErr.TopProps
import Verif.NeonF.Top
import Verif.NeonF.TopProps
import Verif.Arm32.Top
import Verif.Arm32.TopProps
import Verif.Arm32.CrossProps
