import Verif.Model.Config
/-! Model of the recording part of /repo/src/tracing/types.rs and of /repo/src/tracing/utils.rs. -/
namespace Verif

/-- /repo/src/tracing/types.rs:413-429 `CallKind`. -/
inductive CallKind where
  | Call | StaticCall | CallCode | DelegateCall | AuthCall | Create | Create2
  deriving DecidableEq, Repr, Inhabited

namespace CallKind
/-- /repo/src/tracing/types.rs:433-443 `to_str`. -/
def toStr : CallKind → String
  | Call => "CALL" | StaticCall => "STATICCALL" | CallCode => "CALLCODE"
  | DelegateCall => "DELEGATECALL" | AuthCall => "AUTHCALL" | Create => "CREATE"
  | Create2 => "CREATE2"
/-- /repo/src/tracing/types.rs:447-449. -/
def isAnyCreate : CallKind → Bool
  | Create | Create2 => true
  | _ => false
/-- /repo/src/tracing/types.rs:453-455. -/
def isDelegate : CallKind → Bool
  | DelegateCall | CallCode => true
  | _ => false
/-- /repo/src/tracing/types.rs:459-461. -/
def isStaticCall : CallKind → Bool
  | StaticCall => true
  | _ => false
/-- /repo/src/tracing/types.rs:476-485 `From<CallScheme>`. -/
def ofCallScheme : CallScheme → CallKind
  | .Call => Call | .StaticCall => StaticCall | .CallCode => CallCode
  | .DelegateCall => DelegateCall
/-- /repo/src/tracing/types.rs:487-494 `From<CreateScheme>`. -/
def ofCreateScheme : CreateScheme → CallKind
  | .Create => Create
  | .Create2 _ => Create2
end CallKind

/-- /repo/src/tracing/types.rs:19-24. -/
structure DecodedCallData where
  signature : String
  args : List String
  deriving DecidableEq, Repr, Inhabited

/-- /repo/src/tracing/types.rs:29-36. -/
structure DecodedCallTrace where
  label : Option String := none
  returnData : Option String := none
  callData : Option DecodedCallData := none
  deriving DecidableEq, Repr, Inhabited

/-- /repo/src/tracing/types.rs:151-157. -/
structure DecodedCallLog where
  name : Option String := none
  params : Option (List (String × String)) := none
  deriving DecidableEq, Repr, Inhabited

/-- /repo/src/tracing/types.rs:162-167 `CallLog`. -/
structure CallLog where
  rawLog : LogData
  decoded : DecodedCallLog := {}
  deriving DecidableEq, Repr, Inhabited

/-- /repo/src/tracing/types.rs:169-174 `From<Log> for CallLog` (the emitter address is dropped). -/
def CallLog.ofLog (l : Log) : CallLog := { rawLog := l.data, decoded := { name := none, params := none } }

/-- /repo/src/tracing/types.rs:547-554. -/
structure DecodedInternalCall where
  funcName : String
  args : Option (List String)
  returnData : Option (List String)
  deriving DecidableEq, Repr, Inhabited

/-- /repo/src/tracing/types.rs:559-567. -/
inductive DecodedTraceStep where
  | internalCall (call : DecodedInternalCall) (endIdx : Nat)
  | line (s : String)
  deriving DecidableEq, Repr

/-- /repo/src/tracing/types.rs:689-694. -/
inductive StorageChangeReason where
  | SLOAD | SSTORE
  deriving DecidableEq, Repr

/-- /repo/src/tracing/types.rs:705-714. -/
structure StorageChange where
  key : U256
  value : U256
  hadValue : Option U256
  reason : StorageChangeReason
  deriving DecidableEq, Repr

/-- /repo/src/tracing/types.rs:572-610 `CallTraceStep`. `RecordedMemory` (721-731) is its bytes:
`RecordedMemory::new` copies the slice (the empty case is not distinguishable). -/
structure CallTraceStep where
  depth : Nat
  pc : Nat
  op : OpCode
  contract : Address
  stack : Option (List U256)
  pushStack : Option (List U256)
  memory : Option Bytes
  returndata : Bytes
  gasRemaining : Nat
  gasRefundCounter : Nat
  gasUsed : Nat
  gasCost : Nat
  storageChange : Option StorageChange
  status : InstructionResult
  decoded : Option DecodedTraceStep
  deriving DecidableEq, Repr

/-- /repo/src/tracing/types.rs:41-91 `CallTrace`, with the derived `Default`. -/
structure CallTrace where
  depth : Nat := 0
  success : Bool := false
  caller : Address := 0
  address : Address := 0
  maybePrecompile : Option Bool := none
  selfdestructRefundTarget : Option Address := none
  selfdestructTransferredValue : Option U256 := none
  kind : CallKind := .Call
  value : U256 := 0
  data : Bytes := []
  output : Bytes := []
  gasUsed : Nat := 0
  gasLimit : Nat := 0
  status : InstructionResult := .Continue
  steps : List CallTraceStep := []
  decoded : DecodedCallTrace := {}
  deriving DecidableEq, Repr, Inhabited

/-- /repo/src/tracing/types.rs:535-542 `TraceMemberOrder`. -/
inductive TraceMemberOrder where
  | log (i : Nat)
  | call (i : Nat)
  | step (i : Nat)
  deriving DecidableEq, Repr

/-- /repo/src/tracing/types.rs:179-192 `CallTraceNode`, with the derived `Default`. -/
structure Node where
  parent : Option Nat := none
  children : List Nat := []
  idx : Nat := 0
  trace : CallTrace := {}
  logs : List CallLog := []
  ordering : List TraceMemberOrder := []
  deriving DecidableEq, Repr, Inhabited

namespace CallTrace
/-- /repo/src/tracing/types.rs:96-98. -/
def isError (t : CallTrace) : Bool := !t.status.isOk
/-- /repo/src/tracing/types.rs:102-104. -/
def isRevert (t : CallTrace) : Bool := decide (t.status = .Revert)
/-- /repo/src/tracing/types.rs:117-120. -/
def isSelfdestruct (t : CallTrace) : Bool :=
  decide (t.status = .SelfDestruct) || t.selfdestructRefundTarget.isSome

/-- /repo/src/tracing/types.rs:123-145 `as_error_msg`. -/
def asErrorMsg (t : CallTrace) (style : TraceStyle) : Option String :=
  if t.isError then
    some (match t.status with
      | .Revert => match style with | .Parity => "Reverted" | .Geth => "execution reverted"
      | .OutOfGas | .MemoryOOG =>
        match style with | .Parity => "Out of gas" | .Geth => "out of gas"
      | .OpcodeNotFound =>
        match style with | .Parity => "Bad instruction" | .Geth => "invalid opcode"
      | .StackOverflow => "Out of stack"
      | .InvalidJump =>
        match style with | .Parity => "Bad jump destination" | .Geth => "invalid jump destination"
      | .PrecompileError =>
        match style with | .Parity => "Built-in failed" | .Geth => "precompiled failed"
      | status => status.debug)
  else none
end CallTrace

namespace Node
/-- /repo/src/tracing/types.rs:198-204 `execution_address`. -/
def executionAddress (n : Node) : Address :=
  if n.trace.kind.isDelegate then n.trace.caller else n.trace.address

/-- /repo/src/tracing/types.rs:240-242 `is_precompile`. -/
def isPrecompile (n : Node) : Bool := n.trace.maybePrecompile.getD false

/-- /repo/src/tracing/types.rs:260-262. -/
def isSelfdestruct (n : Node) : Bool := n.trace.isSelfdestruct
end Node

namespace CallTraceStep
/-- /repo/src/tracing/types.rs:652-654. -/
def isStop (s : CallTraceStep) : Bool := s.op == Op.STOP
/-- /repo/src/tracing/types.rs:659-669. -/
def isCalllikeOp (s : CallTraceStep) : Bool := Op.isCalllike s.op
/-- /repo/src/tracing/types.rs:673-675 `is_error` (compares the raw `u8` codes). -/
def isError (s : CallTraceStep) : Bool := decide (InstructionResult.Revert.toU8 ≤ s.status.toU8)
/-- /repo/src/tracing/types.rs:679-681 `as_error`. -/
def asError (s : CallTraceStep) : Option String := if s.isError then some s.status.debug else none
end CallTraceStep

/-- /repo/src/tracing/utils.rs:30-33 `gas_used`, for `u64` arguments. The subtraction cannot
underflow because `min(_, spent / q) ≤ spent`. -/
def gasUsed (spec : SpecId) (spent refunded : Nat) : Nat :=
  let q := if spec.enabled LONDON then 5 else 2
  spent - min refunded (spent / q)

end Verif
