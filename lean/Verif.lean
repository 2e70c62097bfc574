import Verif.Bits
import Verif.BitsLemmas
import Verif.BitsProps
import Verif.Mmap
import Verif.MmapProps
import Verif.Mem
import Verif.MemFrame
import Verif.Mempool
import Verif.MempoolSpec
import Verif.MempoolFill
import Verif.MempoolInv
import Verif.MempoolStep
import Verif.MempoolAlloc
import Verif.MempoolOps
import Verif.MempoolReach
import Verif.MempoolDestroy
import Verif.MempoolCreate
import Verif.MempoolCreateProps
import Verif.MempoolCapacity
import Verif.MempoolProps
import Verif.MempoolCheckProps
import Verif.MempoolMulti
import Verif.MempoolMultiProps
import Verif.LinkedList
import Verif.LinkedListProps
import Verif.LinkedListIter
import Verif.PoolConc
import Verif.PoolConcProg
import Verif.PoolConcInv
import Verif.PoolConcStep
import Verif.PoolConcWeak
import Verif.PoolConcLin
import Verif.PoolConcWeakStep
import Verif.PoolConcProps
import Verif.PoolConcRace
import Verif.PoolSet
import Verif.PoolSetSpec
import Verif.PoolSetLemmas
import Verif.PoolSetProps
import Verif.Smp
import Verif.SmpSpec
import Verif.SmpLemmas
import Verif.SmpProps
import Verif.SmpConc
import Verif.Register
import Verif.RegisterInv
import Verif.RegisterProps
import Verif.RegInit
import Verif.RegInitProps
import Verif.Numa
import Verif.NumaProps
import Verif.RseqMachine
import Verif.RseqPseudo
import Verif.RseqArch
import Verif.RseqAttr
import Verif.RseqTac
import Verif.RseqStraight
import Verif.RseqCopy
import Verif.RseqMemcpy
import Verif.RseqArchProps
import Verif.RseqExec
import Verif.RseqZone
import Verif.RseqFoot
import Verif.RseqFootStraight
import Verif.RseqFootCopy
import Verif.RseqFootAll
import Verif.RseqConc
import Verif.RseqInv
import Verif.RseqCut
import Verif.RseqCall
import Verif.RseqConcProps
import Verif.RseqConcEx
import Verif.RseqOwn
import Verif.RseqWord
import Verif.RseqCounter
import Verif.RseqSolo
import Verif.RseqCounterEx
import Verif.RseqDispatch
import Verif.RseqDispatchProps
import Verif.RseqClient
import Verif.RseqLock
import Verif.RseqLockEx
import Verif.RseqStack
import Verif.RseqStackProps
import Verif.RseqStackEx
import Verif.RseqOrder
import Verif.RseqOrderProps
import Verif.RseqRegs
import Verif.RseqRegsProps
import Verif.RseqTaint
import Verif.RseqCtl
import Verif.RseqRace
import Verif.RseqRaceVal
import Verif.RseqRaceCall
import Verif.RseqRaceProps
import Verif.RseqFence
import Verif.RseqFenceProps
import Verif.RseqFenceEx
import Verif.RseqFenceCount
import Verif.RseqFenceCountProps
import Verif.RseqFenceCountEx
import Verif.RseqBuf
import Verif.RseqBufInv
import Verif.RseqBufProps
import Verif.RseqBufEx
import Verif.AsmTable
import Verif.AsmTableSpec
import Verif.AsmTableLemmas
import Verif.AsmTableCore
import Verif.AsmTableImage
import Verif.AsmTableAddr
import Verif.AsmTableProps
import Verif.AsmTableEx
import Verif.Barriers
import Verif.BarriersSpec
import Verif.BarriersLemmas
import Verif.BarriersMb
import Verif.BarriersLock
import Verif.BarriersSc
import Verif.BarriersProps
import Verif.BarriersEx
import Verif.BarriersDrf
import Verif.BarriersDrfProps
import Verif.RangeSys
import Verif.RangeSysSpec
import Verif.RangeSysLemmas
import Verif.RangeSysProps
import Verif.RangeSysFail
import Verif.RangeSysPool
import Verif.RangeSysPoolInv
import Verif.RangeSysPoolStep
import Verif.RangeSysPoolProps
import Verif.RseqTwice
import Verif.RseqTwiceStatic
import Verif.RseqTwiceTear
import Verif.RseqTwiceBlock
import Verif.RseqTwiceRun
import Verif.RseqTwiceLocal
import Verif.RseqTwiceSim
import Verif.RseqTwiceStep
import Verif.RseqTwiceCall
import Verif.RseqTwiceImpl
import Verif.RseqTwiceProps
import Verif.RseqTwiceEx
import Verif.RseqInject
import Verif.RseqInjectCode
import Verif.RseqInjectLocal
import Verif.RseqInjectStatic
import Verif.RseqInjectSim
import Verif.RseqInjectCall
import Verif.RseqInjectRun
import Verif.RseqInjectProps
import Verif.RseqInjectEx
import Verif.RseqBound
import Verif.RseqBoundLocal
import Verif.RseqBoundCall
import Verif.RseqBoundProps
import Verif.RseqUnload
import Verif.RseqUnloadProps
import Verif.RseqArea
import Verif.RseqAreaInv
import Verif.RseqAreaProps
import Verif.RseqAreaEx
import Verif.MempoolGlobal
import Verif.MempoolRetry
import Verif.MempoolMisfree
import Verif.MempoolTests
import Verif.MempoolTestsProps
import Verif.SyscallProps
import Verif.PoolSetConcEx
import Verif.RseqPool
import Verif.RseqPoolProps
import Verif.RseqCauseProps
import Verif.RseqTree
import Verif.RseqSym
import Verif.RseqSymStep
import Verif.RseqSymSound
import Verif.RseqSymAll
import Verif.RseqSymGood
import Verif.RseqTraceCall
import Verif.RseqTraceProps
import Verif.RseqTraceEx
import Verif.RseqWitness
import Verif.RseqClientWitness
import Verif.RseqSpin
import Verif.RseqSpinProps
import Verif.RseqSpinEx
import Verif.RseqListTest
import Verif.RseqListTestProps
import Verif.RseqListTestEx
import Verif.ParamTest
import Verif.PoolConcBoundProps
import Verif.CowTest
import Verif.CowTestInv
import Verif.CowTestProps
import Verif.CowTestEnd
import Verif.RseqBufTest
import Verif.RseqBufTestInv
import Verif.RseqBufTestLoop
import Verif.RseqBufTestProps
import Verif.RseqBufTestEx
import Verif.RseqBufInit
import Verif.RseqBufInitLemmas
import Verif.RseqBufInitProps
import Verif.RseqBufInitEx
import Verif.RseqListInit
import Verif.RseqListInitProps
import Verif.RseqListInitEx
import Verif.Acquire
import Verif.AcquireLemmas
import Verif.AcquireProps
import Verif.MempoolInst
import Verif.MempoolInstMore
import Verif.UtilInst
import Verif.PoolConcInst
import Verif.RegisterInst
import Verif.RangeSysInst
import Verif.RseqInst
import Verif.Tap
import Verif.TapLemmas
import Verif.TapProps
import Verif.TapTests
import Verif.TapDriver
import Verif.ParamArgs
import Verif.TapSh
import Verif.TapShLemmas
import Verif.TapShProps
import Verif.ParamArgsLemmas
import Verif.ParamArgsProps
import Verif.Bench
import Verif.BenchLemmas
import Verif.BenchProps
import Verif.PoolConcLinLemmas
import Verif.PoolConcLinProps
import Verif.MempoolCmp
import Verif.MempoolCmpLemmas
import Verif.MempoolCmpProps
import Verif.RseqInc
import Verif.RseqPoolTest
import Verif.RseqPoolTestProps
import Verif.RseqPoolTestEx
import Verif.RseqPoolList
import Verif.RseqPoolListProps
import Verif.RseqPoolListEx
import Verif.RseqBufField
import Verif.RseqBufFieldLemmas
import Verif.RseqPoolBuf
import Verif.RseqPoolBufProps
import Verif.RseqPoolBufEx
import Verif.RseqDrain
import Verif.RseqBufDrain
import Verif.RseqIncDrain
import Verif.RseqPoolDrain
import Verif.RseqPoolDrainProps
import Verif.RseqLockTaken
import Verif.RseqSpinDrain
import Verif.RseqPoolSpinDrain
import Verif.RseqPoolSpinDrainProps
import Verif.RseqListDrain
import Verif.RseqPoolListDrain
import Verif.RseqPoolListDrainProps
import Verif.RseqPoolListDrainEx
import Verif.RseqPoolDrainEx
import Verif.PoolLocks
import Verif.PoolLocksLemmas
import Verif.PoolLocksProps
import Verif.PoolLocksForkProps
import Verif.PoolLocksSigProps
import Verif.PoolConcFork
import Verif.PoolConcForkProps
import Verif.MempoolForkTests
import Verif.MempoolForkTestsProps
import Verif.TapMempoolProps
import Verif.MempoolTestRuns
import Verif.MempoolTestWhole
import Verif.MempoolTestWholeProps
import Verif.MmapWrapProps
import Verif.RangeSysWrapProps
import Verif.PoolName
import Verif.PoolNameProps
import Verif.MacroArgs
import Verif.MacroArgsProps
