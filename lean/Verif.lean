import Verif.Basic
import Verif.Spec.Csa
import Verif.Model.Tables
import Verif.Model.Prog
import Verif.Model.Scalar
import Verif.Proof.Packet
import Verif.Proof.Inverse
import Verif.Proof.SpecRel
import Verif.Proof.Access
import Verif.Proof.Large
import Verif.Props.Defs
import Verif.Props.Scalar
import Verif.Model.BsAlgo
import Verif.Proof.BsStream
import Verif.Proof.BsBatch
import Verif.Proof.BsCall
import Verif.Proof.BsKey
import Verif.Proof.WriteAll
import Verif.Props.BatchDefs
import Verif.Props.Batch
import Verif.Proof.BsAccess
import Verif.Model.Exec
import Verif.Proof.Exec
import Verif.Proof.BsOrder
import Verif.Props.BatchOrder
import Verif.Props.Calls
import Verif.Props.Conc
import Verif.Model.Alloc
import Verif.Spec.Machine
import Verif.Props.History
import Verif.Props.Builds
import Verif.Proof.BsFrame
import Verif.Proof.BsOver
import Verif.Props.OverLong
import Verif.Props.OverAny
import Verif.Proof.BadSbox
import Verif.Proof.BadTrace
import Verif.Proof.BadBatch
import Verif.Proof.BadDec
import Verif.Props.BadBuild
import Verif.Props.SingleStop
import Verif.Model.BsMem
import Verif.Proof.Known
import Verif.Proof.DescArray
import Verif.Proof.DescOverlap
import Verif.Props.DescArray
import Verif.Props.Vectors
import Verif.Model.BsChecked
import Verif.Model.ScalarChecked
import Verif.Proof.CheckedTr
import Verif.Proof.CheckedKernel
import Verif.Proof.CheckedStream
import Verif.Proof.CheckedBlock
import Verif.Proof.CheckedPad
import Verif.Proof.CheckedScalar
import Verif.Props.Checked
import Verif.Proof.CheckedMaxlen
import Verif.Props.Maxlen
import Verif.Model.Trace
import Verif.Proof.Trace
import Verif.Props.Trace
import Verif.Props.ConcArrays
import Verif.Props.WeakMem
import Verif.Proof.SpecDiff
import Verif.Props.Malleable
import Verif.Props.Bijective
import Verif.Proof.KeyAlias
import Verif.Props.KeyAlias
import Verif.Spec.Stages
import Verif.Model.Stages
import Verif.Proof.Stages
import Verif.Props.Stages
import Verif.Model.SelfTest
import Verif.Props.SelfTest
import Verif.Model.TestProgs
import Verif.Props.TestProgs
import Verif.Model.Debug
import Verif.Props.Debug
import Verif.Proof.CheckedOver
import Verif.Proof.OverLong
import Verif.Props.Over
import Verif.Model.OpsTest
import Verif.Props.OpsTest
import Verif.Model.Heap
import Verif.Props.Heap
import Verif.Proof.Rekey
import Verif.Props.Rekey
import Verif.Model.Aligned
import Verif.Proof.Aligned
import Verif.Props.Aligned
import Verif.Model.Configure
import Verif.Props.Configure
import Verif.Model.TabMem
import Verif.Proof.TabMem
import Verif.Proof.TabLeak
import Verif.Props.TabLeak
import Verif.Model.TabBs
import Verif.Proof.TabBs
import Verif.Proof.TabBsLeak
import Verif.Props.TabLeakBs
import Verif.Model.TabRows
import Verif.Proof.TabSame
import Verif.Props.TabSame
import Verif.Spec.AnyKey
import Verif.Proof.AnyKey
import Verif.Proof.AnyKeyBs
import Verif.Proof.AnyKeyCall
import Verif.Props.AnyKey
import Verif.Props.Interrupt
import Verif.Spec.Threads
import Verif.Props.Threads
import Verif.Model.Loops
import Verif.Proof.Loops
import Verif.Proof.LoopsFun
import Verif.Proof.LoopsBs
import Verif.Proof.LoopsBatch
import Verif.Proof.LoopsTop
import Verif.Proof.LoopsHang
import Verif.Props.Loops
import Verif.Model.Ptr
import Verif.Proof.Ptr
import Verif.Proof.PtrTop
import Verif.Props.Ptr
import Verif.Model.Sync
import Verif.Spec.Handover
import Verif.Proof.Sync
import Verif.Props.Handover
import Verif.Model.Work
import Verif.Proof.Work
import Verif.Props.Work
import Verif.Model.Foot
import Verif.Proof.Foot
import Verif.Props.Foot
import Verif.Model.Fetch
import Verif.Spec.Fetch
import Verif.Proof.Fetch
import Verif.Props.Fetch
import Verif.Model.Whole
import Verif.Proof.Whole
import Verif.Proof.WholeTr
import Verif.Proof.WholeBatch
import Verif.Proof.WholeTop
import Verif.Proof.WholeFun
import Verif.Proof.WholeUb
import Verif.Props.Whole
import Verif.Spec.Receiver
import Verif.Props.Receiver
import Verif.Props.Erase
import Verif.Spec.Program
import Verif.Proof.WholeAcc
import Verif.Props.Program
import Verif.Props.Large
import Verif.Cases.Setup
import Verif.Cases.Single
import Verif.Cases.Batch
import Verif.Cases.Batch2
import Verif.Cases.More
import Verif.Spec.ThreadProg
import Verif.Props.ThreadProg
import Verif.Cases.Threads
import Verif.Props.Realise
import Verif.Cases.Realise
import Verif.Spec.LateStores
import Verif.Props.LateStores
import Verif.Props.LateRealise
import Verif.Proof.TabLines
import Verif.Props.TabLines
import Verif.Cases.Late
import Verif.Cases.Rest
import Verif.Model.Flags
import Verif.Props.Flags
import Verif.Model.Stray
import Verif.Proof.Stray
import Verif.Props.Stray
