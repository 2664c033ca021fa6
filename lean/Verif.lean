import Verif.Lemmas.ArenaTree
import Verif.Lemmas.BigBase
import Verif.Lemmas.BigInt
import Verif.Lemmas.BigIntDiv
import Verif.Lemmas.BigIntOps
import Verif.Lemmas.BigIntText
import Verif.Lemmas.BigMath
import Verif.Lemmas.BigNumber
import Verif.Lemmas.BigPrime
import Verif.Lemmas.BigRandom
import Verif.Lemmas.BigRead
import Verif.Lemmas.BigText
import Verif.Lemmas.CallFrames
import Verif.Lemmas.Changing
import Verif.Lemmas.Frames
import Verif.Lemmas.InternalGas
import Verif.Lemmas.Items
import Verif.Lemmas.JsJson
import Verif.Lemmas.JsJsonFuel
import Verif.Lemmas.JsJsonTree
import Verif.Lemmas.Layout
import Verif.Lemmas.LevelOrder
import Verif.Lemmas.Logged
import Verif.Lemmas.Miller
import Verif.Lemmas.Mux
import Verif.Lemmas.Options
import Verif.Lemmas.Parity
import Verif.Lemmas.Paths
import Verif.Lemmas.Populate
import Verif.Lemmas.ReadBack
import Verif.Lemmas.ReadBackLines
import Verif.Lemmas.ReadBackText
import Verif.Lemmas.ReadBackTrees
import Verif.Lemmas.Refine
import Verif.Lemmas.Rounding
import Verif.Lemmas.State
import Verif.Lemmas.StepTree
import Verif.Lemmas.Steps
import Verif.Lemmas.Stored
import Verif.Lemmas.StoredAny
import Verif.Lemmas.StructLogs
import Verif.Lemmas.TextLines
import Verif.Lemmas.UnfusedFrames
import Verif.Lemmas.UnfusedLogs
import Verif.Lemmas.UnfusedSelfdestructs
import Verif.Lemmas.UnfusedTraces
import Verif.Lemmas.UnfusedVm
import Verif.Lemmas.Vm
import Verif.Lemmas.VmTree
import Verif.Lemmas.Writer
import Verif.Lemmas.WriterAny
import Verif.Lemmas.WriterArena
import Verif.Lemmas.WriterColors
import Verif.Lemmas.WriterErrors
import Verif.Lemmas.WriterJoined
import Verif.Lemmas.WriterPanics
import Verif.Model.AMap
import Verif.Model.BigArray
import Verif.Model.BigBase
import Verif.Model.BigCompare
import Verif.Model.BigInt
import Verif.Model.BigMath
import Verif.Model.BigOperators
import Verif.Model.BigPrime
import Verif.Model.BigRandom
import Verif.Model.BigRead
import Verif.Model.BigText
import Verif.Model.Changing
import Verif.Model.Config
import Verif.Model.ConfigChain
import Verif.Model.Geth
import Verif.Model.Inspector
import Verif.Model.JsDb
import Verif.Model.JsGuards
import Verif.Model.JsInspector
import Verif.Model.JsJson
import Verif.Model.JsObjects
import Verif.Model.JsResult
import Verif.Model.JsValues
import Verif.Model.Mux
import Verif.Model.OMap
import Verif.Model.Opcode
import Verif.Model.Parity
import Verif.Model.Replies
import Verif.Model.RevertReason
import Verif.Model.Standalone
import Verif.Model.State
import Verif.Model.Stored
import Verif.Model.Types
import Verif.Model.Writer
import Verif.Props.AccessListLaws
import Verif.Props.Accesses
import Verif.Props.Accounts
import Verif.Props.Apply
import Verif.Props.ApplyExamples
import Verif.Props.Arena
import Verif.Props.ArenaExact
import Verif.Props.BigArray
import Verif.Props.BigBase
import Verif.Props.BigCompare
import Verif.Props.BigInt
import Verif.Props.BigMath
import Verif.Props.BigNumber
import Verif.Props.BigOperators
import Verif.Props.BigPrefix
import Verif.Props.BigPrime
import Verif.Props.BigRandom
import Verif.Props.BigRead
import Verif.Props.BigTen
import Verif.Props.BigText
import Verif.Props.BigValue
import Verif.Props.Builders
import Verif.Props.CallFrames
import Verif.Props.Changing
import Verif.Props.Config
import Verif.Props.ConfigChain
import Verif.Props.Cross
import Verif.Props.CrossCounts
import Verif.Props.CrossTransfers
import Verif.Props.Eof
import Verif.Props.EofExact
import Verif.Props.ExtCalls
import Verif.Props.Failed
import Verif.Props.FlatTree
import Verif.Props.Followed
import Verif.Props.FourByteKey
import Verif.Props.Gas
import Verif.Props.Growing
import Verif.Props.Hashes
import Verif.Props.Held
import Verif.Props.InternalGas
import Verif.Props.JsContract
import Verif.Props.JsDb
import Verif.Props.JsExact
import Verif.Props.JsFrames
import Verif.Props.JsGuards
import Verif.Props.JsIndices
import Verif.Props.JsInspector
import Verif.Props.JsJson
import Verif.Props.JsNumbers
import Verif.Props.JsObjects
import Verif.Props.JsObjectsExact
import Verif.Props.JsResult
import Verif.Props.JsSeveral
import Verif.Props.JsSteps
import Verif.Props.JsTracer
import Verif.Props.JsValues
import Verif.Props.Ledger
import Verif.Props.Leftovers
import Verif.Props.Legal
import Verif.Props.Limit
import Verif.Props.Links
import Verif.Props.Memory
import Verif.Props.Moved
import Verif.Props.Mux
import Verif.Props.MuxExamples
import Verif.Props.ObjectPushes
import Verif.Props.OpcodeGasExact
import Verif.Props.OpcodeTotal
import Verif.Props.Options
import Verif.Props.Ordering
import Verif.Props.Parity
import Verif.Props.Precompile
import Verif.Props.Prestate
import Verif.Props.ReadBack
import Verif.Props.Receipt
import Verif.Props.ReceiptGas
import Verif.Props.Refund
import Verif.Props.Responses
import Verif.Props.RevertReason
import Verif.Props.Selectors
import Verif.Props.SelfdestructExact
import Verif.Props.Several
import Verif.Props.StackReplay
import Verif.Props.Standalone
import Verif.Props.StandaloneExact
import Verif.Props.StandaloneExamples
import Verif.Props.State
import Verif.Props.StateAgree
import Verif.Props.StateExamples
import Verif.Props.StepTree
import Verif.Props.Steps
import Verif.Props.StepsExact
import Verif.Props.Stored
import Verif.Props.StoredAny
import Verif.Props.StructLogs
import Verif.Props.StructLogsExact
import Verif.Props.Suffices
import Verif.Props.TextLines
import Verif.Props.Unfused
import Verif.Props.UnfusedFrames
import Verif.Props.UnfusedLogs
import Verif.Props.UnfusedMux
import Verif.Props.UnfusedSelfdestructs
import Verif.Props.UnfusedTraces
import Verif.Props.UnfusedVm
import Verif.Props.Unreliable
import Verif.Props.Vm
import Verif.Props.VmCodes
import Verif.Props.VmEntries
import Verif.Props.VmExact
import Verif.Props.VmExamples
import Verif.Props.VmListed
import Verif.Props.Walk
import Verif.Props.Writer
import Verif.Props.WriterAny
import Verif.Props.WriterErrors
import Verif.Revm
import Verif.Spec.Accesses
import Verif.Spec.Accounts
import Verif.Spec.Apply
import Verif.Spec.BigArray
import Verif.Spec.BigBase
import Verif.Spec.BigCompare
import Verif.Spec.BigInt
import Verif.Spec.BigMath
import Verif.Spec.BigNumber
import Verif.Spec.BigOperators
import Verif.Spec.BigPrefix
import Verif.Spec.BigPrime
import Verif.Spec.BigRandom
import Verif.Spec.BigRead
import Verif.Spec.BigText
import Verif.Spec.CallFrames
import Verif.Spec.Calls
import Verif.Spec.Changes
import Verif.Spec.Changing
import Verif.Spec.ConfigChain
import Verif.Spec.Eof
import Verif.Spec.EofPlaces
import Verif.Spec.Example
import Verif.Spec.Exec
import Verif.Spec.ExtCalls
import Verif.Spec.Failed
import Verif.Spec.FlatTree
import Verif.Spec.Followed
import Verif.Spec.Frames
import Verif.Spec.Gas
import Verif.Spec.Growing
import Verif.Spec.Held
import Verif.Spec.InternalGas
import Verif.Spec.JsContract
import Verif.Spec.JsDb
import Verif.Spec.JsFrames
import Verif.Spec.JsGuards
import Verif.Spec.JsInspector
import Verif.Spec.JsJson
import Verif.Spec.JsObjects
import Verif.Spec.JsResult
import Verif.Spec.JsValues
import Verif.Spec.Keccak
import Verif.Spec.Ledger
import Verif.Spec.Legal
import Verif.Spec.Logged
import Verif.Spec.Moved
import Verif.Spec.Mux
import Verif.Spec.Observe
import Verif.Spec.Options
import Verif.Spec.Parity
import Verif.Spec.ReadBack
import Verif.Spec.Receipt
import Verif.Spec.ReceiptGas
import Verif.Spec.Refund
import Verif.Spec.RevertReason
import Verif.Spec.Selectors
import Verif.Spec.StackReplay
import Verif.Spec.Standalone
import Verif.Spec.State
import Verif.Spec.StepTree
import Verif.Spec.Stored
import Verif.Spec.Suffices
import Verif.Spec.TextLines
import Verif.Spec.Unfused
import Verif.Spec.UnfusedFrames
import Verif.Spec.UnfusedSelfdestructs
import Verif.Spec.UnfusedTraces
import Verif.Spec.Unreliable
import Verif.Spec.Vm
import Verif.Spec.VmEntries
import Verif.Spec.VmListed
import Verif.Spec.Writer
import Verif.Spec.WriterAny
import Verif.Spec.WriterErrors
