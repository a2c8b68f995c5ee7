import Verif.Props.Hex
import Verif.Props.Base64
import Verif.Props.Forgiving
import Verif.Props.Parallel
import Verif.Props.Base32
import Verif.Props.Uuid
import Verif.Props.Unicode
import Verif.Props.Alsw
import Verif.Props.Dispatch
import Verif.Props.Vsimd
import Verif.Props.VsimdMove
import Verif.Props.VsimdMask
import Verif.Props.VsimdAvail
import Verif.Props.VsimdSim
import Verif.Props.Native
import Verif.Props.HexRaw
import Verif.Lemmas.RawApi
import Verif.Props.Anywhere
import Verif.Props.AnywhereText
import Verif.Props.AnywhereExt
import Verif.Props.AnywhereHeap
import Verif.Props.AnywherePar
import Verif.Props.Footprint
import Verif.Props.Order
import Verif.Props.Chunks
import Verif.Lemmas.Oblivious
import Verif.Lemmas.ObliviousHex
import Verif.Lemmas.ObliviousBase
import Verif.Lemmas.ObliviousUnicode
import Verif.Spec.Oblivious
import Verif.Props.Oblivious
import Verif.Spec.Aligned
import Verif.Lemmas.Aligned
import Verif.Props.Aligned
import Verif.Model.Endian
import Verif.Spec.Endian
import Verif.Lemmas.Endian
import Verif.Props.Endian
import Verif.Model.AlswScalar
import Verif.Props.AlswScalar
import Verif.Spec.Variants
import Verif.Lemmas.Variants
import Verif.Props.Variants
import Verif.Props.Scalable
import Verif.Props.Work
import Verif.Props.Appends
import Verif.Props.Interop
import Verif.Props.Owned
import Verif.Props.Concurrent
import Verif.Props.ConcurrentAlloc
import Verif.Model.Fmt
import Verif.Spec.Fmt
import Verif.Lemmas.Fmt
import Verif.Props.Fmt
import Verif.Spec.Vectors
import Verif.Props.UuidOrder
import Verif.Model.Scripts
import Verif.Props.Scripts
import Verif.Model.Allocs
import Verif.Spec.Allocs
import Verif.Lemmas.Allocs
import Verif.Props.Allocs
import Verif.Props.Panics
import Verif.Props.Tools
import Verif.Props.Borrows
import Verif.Props.Targets
import Verif.Props.BorrowHeap
import Verif.Model.Unwind
import Verif.Lemmas.Unwind
import Verif.Props.Unwind
import Verif.Model.Client
import Verif.Spec.Client
import Verif.Spec.Means
import Verif.Lemmas.RunAfter
import Verif.Lemmas.ClientHeap
import Verif.Lemmas.ClientSteps
import Verif.Lemmas.ClientValue
import Verif.Props.Client
import Verif.Spec.CallMeans
import Verif.Lemmas.CallMeans
import Verif.Props.CallMeans
import Verif.Spec.Store
import Verif.Lemmas.Store
import Verif.Props.Store
import Verif.Model.BorrowPar
import Verif.Spec.BorrowPar
import Verif.Lemmas.BorrowPar
import Verif.Lemmas.BorrowThreads
import Verif.Lemmas.BorrowJobs
import Verif.Lemmas.BorrowSection
import Verif.Lemmas.BorrowParCall
import Verif.Props.BorrowPar
import Verif.Model.Lend
import Verif.Spec.Lend
import Verif.Lemmas.RefStack
import Verif.Lemmas.Lend
import Verif.Lemmas.LendSteps
import Verif.Lemmas.LendExt
import Verif.Lemmas.LendCalls
import Verif.Lemmas.LendValue
import Verif.Props.Lend
import Verif.Model.TreeBorrows
import Verif.Model.TreeCalls
import Verif.Spec.TreeBorrows
import Verif.Lemmas.TreeBorrows
import Verif.Lemmas.TreeOps
import Verif.Lemmas.TreeFrame
import Verif.Lemmas.TreeKern
import Verif.Lemmas.TreeFns
import Verif.Lemmas.TreeFns2
import Verif.Lemmas.TreeUuid
import Verif.Lemmas.TreeForgiving
import Verif.Props.TreeBorrows
import Verif.Model.TreeHeap
import Verif.Spec.TreeHeap
import Verif.Lemmas.TreeOwn
import Verif.Lemmas.TreeBox
import Verif.Lemmas.TreeBoxFns
import Verif.Lemmas.TreeBoxes
import Verif.Lemmas.TreeVec
import Verif.Lemmas.TreeAppend
import Verif.Lemmas.TreeAppends
import Verif.Lemmas.TreeForgivingVec
import Verif.Props.TreeHeap
import Verif.Model.TreeUse
import Verif.Spec.TreeUse
import Verif.Lemmas.TreeUse
import Verif.Lemmas.TreeUseSteps
import Verif.Lemmas.TreeUseCalls
import Verif.Lemmas.TreeUseValue
import Verif.Lemmas.TreeUseExt
import Verif.Props.TreeUse
import Verif.Model.TreePar
import Verif.Spec.TreePar
import Verif.Lemmas.TreePar
import Verif.Lemmas.TreeThreads
import Verif.Lemmas.TreeJobs
import Verif.Lemmas.TreeSection
import Verif.Lemmas.TreeParCall
import Verif.Props.TreePar
import Verif.Model.TreeExt
import Verif.Spec.TreeExt
import Verif.Lemmas.TreeExt
import Verif.Props.TreeExt
import Verif.Model.BorrowExt
import Verif.Spec.BorrowExt
import Verif.Lemmas.BorrowExt
import Verif.Props.BorrowExt
import Verif.Spec.LendPlain
import Verif.Lemmas.LendPlain
import Verif.Props.LendPlain
import Verif.Spec.TreeUsePlain
import Verif.Lemmas.TreeUsePlain
import Verif.Lemmas.Agree
import Verif.Props.Agree
import Verif.Spec.LendTwin
import Verif.Lemmas.LendTwin
import Verif.Lemmas.LendTwinSteps
import Verif.Lemmas.LendTwinAll
import Verif.Props.LendTwin
import Verif.Spec.TreeTwin
import Verif.Props.TreeTwin
