import Verif.Model.Inspector
import Verif.Model.OMap
/-! Model of the geth part of /repo/src/tracing/types.rs, of /repo/src/tracing/utils.rs and of
/repo/src/tracing/builder/geth.rs (prestate in `Model/State.lean`). -/
namespace Verif

/-! ### Hex and memory chunks -/

/-- `alloy_primitives::hex::encode` of one byte: two lower-case digits. Strings that only come from
`hex::encode` are lists of characters in the model. -/
def hexDigit (n : Nat) : Char := if n < 10 then Char.ofNat (48 + n) else Char.ofNat (87 + n)

/-- `alloy_primitives::hex::encode`. -/
def hexEncode (bs : Bytes) : List Char :=
  bs.flatMap fun b => [hexDigit (b.toNat / 16), hexDigit (b.toNat % 16)]

/-- /repo/src/tracing/utils.rs:13-26 `convert_memory`. `chunks_exact(32)` yields the `len / 32`
slices `data[32k .. 32k+32]`, its `remainder` is the rest. -/
def convertMemory (data : Bytes) : List (List Char) :=
  let chunks := (List.range (data.length / 32)).map fun k => (data.drop (32 * k)).take 32
  let remainder := data.drop (32 * (data.length / 32))
  let memory := chunks.map hexEncode
  if !remainder.isEmpty then
    memory ++ [hexEncode (remainder ++ List.replicate (32 - remainder.length) 0)]
  else memory

/-! ### Opcode serialization -/

/-- /repo/src/tracing/types.rs:777-782 `opcode_serde::serialize`. -/
def serializeOp (op : OpCode) : UInt8 := op

/-- /repo/src/tracing/types.rs:784-791 `opcode_serde::deserialize`; `known b` tells whether
`OpCode::new(b)` is `Some` (a table of revm). The inner `unwrap` needs `INVALID` to be known. -/
def deserializeOp (known : UInt8 → Bool) (b : UInt8) : R OpCode :=
  if known b then .ok b
  else if known Op.INVALID then .ok Op.INVALID else .error (.expect "unwrap")

/-! ### Struct logs -/

/-- alloy `StructLog`. `op` is the opcode whose `Display` text the Rust field holds. -/
structure StructLog where
  depth : Nat
  error : Option String
  gas : Nat
  gasCost : Nat
  op : OpCode
  pc : Nat
  refundCounter : Option Nat
  stack : Option (List U256)
  returnData : Option Bytes
  storage : Option (OMap U256 U256)
  memory : Option (List (List Char))
  memorySize : Option Nat
  deriving DecidableEq

/-- /repo/src/tracing/types.rs:618-648 `convert_to_geth_struct_log`. -/
def CallTraceStep.toStructLog (s : CallTraceStep) (opts : GethOptions) : StructLog where
  depth := s.depth
  error := s.asError
  gas := s.gasRemaining
  gasCost := s.gasCost
  op := s.op
  pc := s.pc
  refundCounter := if s.gasRefundCounter > 0 then some s.gasRefundCounter else none
  stack := if opts.isStackEnabled then s.stack else none
  returnData := none
  storage := none
  memory := if opts.isMemoryEnabled then s.memory.map convertMemory else none
  memorySize := none

/-- /repo/src/tracing/types.rs:523-530 `CallTraceStepStackItem`. -/
structure StackItem where
  node : Node
  step : CallTraceStep
  callChildId : Option Nat
  deriving DecidableEq

/-- /repo/src/tracing/types.rs:218-236 `call_step_stack`: the loop over the steps with the running
`child_id`. -/
def Node.callStepStackFrom (n : Node) (childId : Nat) : List CallTraceStep → List StackItem
  | [] => []
  | step :: steps =>
    if step.isCalllikeOp then
      match n.children[childId]? with
      | some callId => ⟨n, step, some callId⟩ :: n.callStepStackFrom (childId + 1) steps
      | none => ⟨n, step, none⟩ :: n.callStepStackFrom childId steps
    else ⟨n, step, none⟩ :: n.callStepStackFrom childId steps

/-- /repo/src/tracing/types.rs:218-236 `call_step_stack`. -/
def Node.callStepStack (n : Node) : List StackItem := n.callStepStackFrom 0 n.trace.steps

/-- /repo/src/tracing/types.rs:208-213 `push_steps_on_stack`. The `VecDeque` is a list with the back
(the next element to pop) first, so pushing the reversed steps prepends them. -/
def Node.pushStepsOnStack (n : Node) (stack : List StackItem) : List StackItem :=
  n.callStepStack ++ stack

/-- The mutable arguments of `fill_geth_trace`: `storage` and `struct_logs`.
/repo/src/tracing/builder/geth.rs:33-40. -/
structure FillState where
  storage : OMap Address (OMap U256 U256) := []
  logs : List StructLog := []

/-- /repo/src/tracing/builder/geth.rs:53-69: the body of the loop of `fill_geth_trace` before the
child is pushed. -/
def FillState.process (opts : GethOptions) (st : FillState) (node : Node) (step : CallTraceStep) :
    FillState :=
  let log := step.toStructLog opts
  let r : OMap Address (OMap U256 U256) × StructLog :=
    if opts.isStorageEnabled then
      -- `storage.entry(step.contract).or_default()`
      let cs := (OMap.get? st.storage step.contract).getD []
      match step.storageChange with
      | some change =>
        let cs := OMap.insert cs change.key change.value
        (OMap.insert st.storage step.contract cs, { log with storage := some cs })
      | none => (OMap.insert st.storage step.contract cs, log)
    else (st.storage, log)
  let log := if opts.isReturnDataEnabled then { r.2 with returnData := some node.trace.output }
    else r.2
  { storage := r.1, logs := st.logs ++ [log] }

/-- /repo/src/tracing/builder/geth.rs:50-78: the `while` loop of `fill_geth_trace`, one unit of fuel
per iteration. -/
def fillLoop (nodes : List Node) (opts : GethOptions) : Nat → List StackItem → FillState → R FillState
  | _, [], st => .ok st
  | 0, _ :: _, _ => .error .diverge
  | fuel + 1, item :: stack, st =>
    let st := st.process opts item.node item.step
    match item.callChildId with
    | none => fillLoop nodes opts fuel stack st
    | some id =>
      match nodes[id]? with
      | none => .error .index
      | some child => fillLoop nodes opts fuel (child.pushStepsOnStack stack) st

/-- Number of recorded steps of all nodes: fuel for `fillLoop`.
No part of the code; for /repo/src/tracing/builder/geth.rs:33-82. -/
def totalSteps (nodes : List Node) : Nat := (nodes.map (·.trace.steps.length)).sum

/-- /repo/src/tracing/builder/geth.rs:33-79 `fill_geth_trace`. -/
def fillGethTrace (nodes : List Node) (main : Node) (opts : GethOptions) (st : FillState) :
    R FillState :=
  fillLoop nodes opts (totalSteps nodes) (main.pushStepsOnStack []) st

/-- alloy `DefaultFrame`. -/
structure DefaultFrame where
  failed : Bool := false
  gas : Nat := 0
  returnValue : Bytes := []
  structLogs : List StructLog := []
  deriving DecidableEq

/-- /repo/src/tracing/builder/geth.rs:85-109 `geth_traces`. -/
def gethTraces (nodes : List Node) (receiptGasUsed : Nat) (returnValue : Bytes) (opts : GethOptions) :
    R DefaultFrame :=
  match nodes with
  | [] => .ok {}
  | main :: _ =>
    match fillGethTrace nodes main opts {} with
    | .error e => .error e
    | .ok st => .ok { failed := !main.trace.success, gas := receiptGasUsed,
                      returnValue := returnValue, structLogs := st.logs }

/-! ### Call frames -/

/-- alloy `CallLogFrame`. -/
structure CallLogFrame where
  address : Option Address
  topics : Option (List U256)
  data : Option Bytes
  deriving DecidableEq

/-- alloy `CallFrame`, with its `Default`. `gas` and `gas_used` are `U256::from(u64)`. -/
structure CallFrame where
  typ : String := ""
  from_ : Address := 0
  to : Option Address := none
  value : Option U256 := none
  gas : Nat := 0
  gasUsed : Nat := 0
  input : Bytes := []
  output : Option Bytes := none
  error : Option String := none
  revertReason : Option String := none
  calls : List CallFrame := []
  logs : List CallLogFrame := []

/-- /repo/src/tracing/types.rs:310-322 `geth_selfdestruct_call_trace`. -/
def Node.gethSelfdestructCallTrace (n : Node) : Option CallFrame :=
  if n.isSelfdestruct then
    some { typ := "SELFDESTRUCT", from_ := n.trace.caller, to := n.trace.selfdestructRefundTarget,
           value := n.trace.selfdestructTransferredValue }
  else none

/-- `ContractError<Infallible>` of alloy-sol-types, the errors of `GenericRevertReason`
(/repo/src/tracing/utils.rs:62-66): `Error(string)` and `Panic(uint256)`; a custom error cannot occur. -/
inductive ContractError
  | revert (reason : String)
  | panic (code : U256)
deriving DecidableEq, Repr

/-- `GenericRevertReason` of alloy-sol-types (/repo/src/tracing/utils.rs:61-69). -/
inductive RevertReason
  | contractError (e : ContractError)
  | rawString (s : String)
deriving DecidableEq, Repr

/-- What alloy-sol-types does for `maybe_revert_reason`: `GenericRevertReason::decode` and the `Display`
of a contract error. Both are parameters of the model. -/
structure RevertDecoder where
  decode : Bytes → Option RevertReason
  display : ContractError → String

/-- /repo/src/tracing/utils.rs:59-75 `maybe_revert_reason`. -/
def maybeRevertReason (d : RevertDecoder) (output : Bytes) : Option String :=
  match d.decode output with
  | none => none
  | some r =>
    let reason := match r with
      | .contractError err =>
        match err with
        | .revert reason => reason
        | err => d.display err
      | .rawString err => err
    if reason.isEmpty then none else some reason

/-- /repo/src/tracing/types.rs:364-406 `geth_empty_call_frame`. -/
def Node.gethEmptyCallFrame (decode : RevertDecoder) (n : Node) (includeLogs : Bool) :
    CallFrame :=
  let f : CallFrame :=
    { typ := n.trace.kind.toStr, from_ := n.trace.caller, to := some n.trace.address,
      value := some n.trace.value, gas := n.trace.gasLimit, gasUsed := n.trace.gasUsed,
      input := n.trace.data,
      output := if !n.trace.output.isEmpty then some n.trace.output else none }
  let f := if n.trace.kind.isStaticCall then { f with value := none } else f
  let f := if !n.trace.success then
    { f with revertReason := maybeRevertReason decode n.trace.output
             error := n.trace.asErrorMsg .Parity } else f
  if includeLogs && !n.logs.isEmpty then
    { f with logs := n.logs.map fun log =>
        { address := some n.executionAddress, topics := some log.rawLog.topics,
          data := some log.rawLog.data } }
  else f

/-- /repo/src/tracing/builder/geth.rs:181-189: the loop of `call_or_parent_failed`, one unit of fuel
per iteration. -/
def parentFailedLoop (nodes : List Node) : Nat → Option Nat → R Bool
  | _, none => .ok false
  | 0, some _ => .error .diverge
  | fuel + 1, some idx =>
    match nodes[idx]? with
    | none => .error .index
    | some next => if next.trace.isError then .ok true else parentFailedLoop nodes fuel next.parent

/-- /repo/src/tracing/builder/geth.rs:176-191 `call_or_parent_failed`. -/
def callOrParentFailed (nodes : List Node) (n : Node) : R Bool :=
  if n.trace.isError then .ok true else parentFailedLoop nodes nodes.length n.parent

/-- `call_frames.last_mut().expect("not empty").1.calls.push(selfdestruct)`, geth.rs:147. The vector
is a list with its last element first. /repo/src/tracing/builder/geth.rs:147. -/
def pushToLast (callFrames : List (Nat × CallFrame)) (f : CallFrame) : R (List (Nat × CallFrame)) :=
  match callFrames with
  | [] => .error (.expect "not empty")
  | (i, g) :: rest => .ok ((i, { g with calls := g.calls ++ [f] }) :: rest)

/-- /repo/src/tracing/builder/geth.rs:143-153: the loop that makes the frames of the nodes from
`idx` on. `call_frames` has its last element first. -/
def makeFrames (decode : RevertDecoder) (nodes : List Node) (includeLogs : Bool) :
    Nat → List Node → List (Nat × CallFrame) → R (List (Nat × CallFrame))
  | _, [], acc => .ok acc
  | idx, n :: rest, acc =>
    let acc := match n.gethSelfdestructCallTrace with
      | some sd => pushToLast acc sd
      | none => .ok acc
    match acc with
    | .error e => .error e
    | .ok acc =>
      -- `include_logs && !self.call_or_parent_failed(trace)`
      let incl : R Bool := if includeLogs then
          match callOrParentFailed nodes n with
          | .error e => .error e
          | .ok failed => .ok (!failed)
        else .ok false
      match incl with
      | .error e => .error e
      | .ok incl =>
        makeFrames decode nodes includeLogs (idx + 1) rest
          ((idx, n.gethEmptyCallFrame decode incl) :: acc)

/-- /repo/src/tracing/builder/geth.rs:158-172: the roll-up loop, one unit of fuel per iteration (each
pops one frame). `call_frames` has its last element first, so position `parent` of the vector is
position `len - 1 - parent` of the list. -/
def rollUp (nodes : List Node) : Nat → List (Nat × CallFrame) → R CallFrame
  | _, [] => .error (.expect "call frames not empty")
  | 0, _ :: _ => .error .diverge
  | fuel + 1, (idx, call) :: frames =>
    match nodes[idx]? with
    | none => .error .index
    | some node =>
      match node.parent with
      | none =>
        -- `debug_assert!(call_frames.is_empty(), ..)`
        if frames.isEmpty then .ok call else .error (.expect "only one root node has no parent")
      | some parent =>
        if parent < frames.length then
          rollUp nodes fuel (frames.modify (frames.length - 1 - parent)
            (fun e => (e.1, { e.2 with calls := call :: e.2.calls })))
        else .error .index

/-- /repo/src/tracing/builder/geth.rs:123-132: the root call frame with its own selfdestruct. -/
def gethRootFrame (decode : RevertDecoder) (main : Node) (includeLogs : Bool)
    (gasUsed : Nat) : CallFrame :=
  let root := { main.gethEmptyCallFrame decode includeLogs with gasUsed := gasUsed }
  match main.gethSelfdestructCallTrace with
  | some sd => { root with calls := root.calls ++ [sd] }
  | none => root

/-- /repo/src/tracing/builder/geth.rs:117-173 `geth_call_traces`. -/
def gethCallTraces (decode : RevertDecoder) (nodes : List Node) (opts : CallConfig)
    (gasUsed : Nat) : R CallFrame :=
  match nodes with
  | [] => .ok {}
  | main :: rest =>
    let includeLogs := opts.withLog.getD false
    let root := gethRootFrame decode main includeLogs gasUsed
    if opts.onlyTopCall.getD false then .ok root
    else
      match makeFrames decode nodes includeLogs 1 rest [(0, root)] with
      | .error e => .error e
      | .ok frames => rollUp nodes frames.length frames

end Verif
