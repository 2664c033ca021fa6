import Verif.Model.Inspector
import Verif.Model.State
/-! Model of /repo/src/tracing/builder/parity.rs, of /repo/src/tracing/builder/walker.rs and of the
parity part of /repo/src/tracing/types.rs. -/
namespace Verif

/-- alloy `CallType`. -/
inductive CallType where
  | none | call | callCode | delegateCall | staticCall | authCall
  deriving DecidableEq, Repr, Inhabited

/-- /repo/src/tracing/types.rs:510-521 `From<CallKind> for CallType`. -/
def CallType.ofKind : CallKind → CallType
  | .Call => .call | .StaticCall => .staticCall | .CallCode => .callCode
  | .DelegateCall => .delegateCall | .Create => .none | .Create2 => .none | .AuthCall => .authCall

/-- alloy `Action` (without `Reward`, which the code never builds). -/
inductive Action where
  | call (from_ to : Address) (value : U256) (gas : Nat) (input : Bytes) (callType : CallType)
  | create (from_ : Address) (value : U256) (gas : Nat) (init : Bytes)
  | selfdestruct (address refundAddress : Address) (balance : U256)
  deriving DecidableEq, Repr, Inhabited

/-- alloy `TraceOutput`. -/
inductive TraceOutput where
  | call (gasUsed : Nat) (output : Bytes)
  | create (gasUsed : Nat) (code : Bytes) (address : Address)
  deriving DecidableEq, Repr, Inhabited

/-- alloy `TransactionTrace`. -/
structure TransactionTrace where
  action : Action
  error : Option String
  result : Option TraceOutput
  traceAddress : List Nat
  subtraces : Nat
  deriving DecidableEq, Repr, Inhabited

namespace Node
/-- /repo/src/tracing/types.rs:340-361 `parity_action`. -/
def parityAction (n : Node) : Action :=
  match n.trace.kind with
  | .Create | .Create2 => .create n.trace.caller n.trace.value n.trace.gasLimit n.trace.data
  | k => .call n.trace.caller n.trace.address n.trace.value n.trace.gasLimit n.trace.data
      (CallType.ofKind k)

/-- /repo/src/tracing/types.rs:278-294 `parity_trace_output`. -/
def parityTraceOutput (n : Node) : TraceOutput :=
  match n.trace.kind with
  | .Create | .Create2 => .create n.trace.gasUsed n.trace.output n.trace.address
  | _ => .call n.trace.gasUsed n.trace.output

/-- /repo/src/tracing/types.rs:265-275 `parity_transaction_trace`. -/
def parityTransactionTrace (n : Node) (traceAddress : List Nat) : TransactionTrace where
  action := n.parityAction
  error := n.trace.asErrorMsg .Parity
  result := if n.trace.isError && !n.trace.isRevert then none else some n.parityTraceOutput
  traceAddress := traceAddress
  subtraces := n.children.length

/-- /repo/src/tracing/types.rs:297-307 `parity_selfdestruct_action`. -/
def paritySelfdestructAction (n : Node) : Option Action :=
  if n.isSelfdestruct then
    some (.selfdestruct n.trace.address (n.trace.selfdestructRefundTarget.getD 0)
      (n.trace.selfdestructTransferredValue.getD 0))
  else none

/-- /repo/src/tracing/types.rs:325-334 `parity_selfdestruct_trace`. -/
def paritySelfdestructTrace (n : Node) (traceAddress : List Nat) : Option TransactionTrace :=
  n.paritySelfdestructAction.map fun a =>
    { action := a, error := none, result := none, traceAddress := traceAddress, subtraces := 0 }
end Node

namespace Parity

/-- /repo/src/tracing/builder/parity.rs:36-38 `callers`: the list of which the code makes a set. -/
def callers (nodes : List Node) : List Address := nodes.map (·.trace.caller)

/-- /repo/src/tracing/builder/parity.rs:46-50 `set_transaction_gas_used`. -/
def setTransactionGasUsed (nodes : List Node) (g : Nat) : List Node :=
  match nodes with
  | [] => []
  | n :: rest => { n with trace := { n.trace with gasUsed := g } } :: rest

/-- /repo/src/tracing/builder/parity.rs:94-105: the loop of `trace_address`, one unit of fuel per
iteration. -/
def traceAddressLoop (nodes : List Node) : Nat → Node → List Nat → R (List Nat)
  | fuel, node, graph =>
    match node.parent with
    | none => .ok graph
    | some parent =>
      match fuel with
      | 0 => .error .diverge
      | fuel + 1 =>
        match nodes[parent]? with
        | none => .error .index
        | some next =>
          match next.children.idxOf? node.idx with
          | none => .error (.expect "non precompile child call exists in parent")
          | some callIdx => traceAddressLoop nodes fuel next (graph ++ [callIdx])

/-- /repo/src/tracing/builder/parity.rs:84-108 `trace_address`. -/
def traceAddress (nodes : List Node) (idx : Nat) : R (List Nat) :=
  if idx = 0 then .ok []
  else
    match nodes[idx]? with
    | none => .error .index
    | some node =>
      if node.isPrecompile then .ok []
      else
        match traceAddressLoop nodes nodes.length node [] with
        | .error e => .error e
        | .ok graph => .ok graph.reverse

/-- /repo/src/tracing/builder/parity.rs:66-72 `trace_addresses`: for `idx` in the given list. -/
def traceAddressesOf (nodes : List Node) : List Nat → R (List (List Nat))
  | [] => .ok []
  | idx :: rest =>
    match traceAddress nodes idx with
    | .error e => .error e
    | .ok a =>
      match traceAddressesOf nodes rest with
      | .error e => .error e
      | .ok as => .ok (a :: as)

/-- /repo/src/tracing/builder/parity.rs:66-72 `trace_addresses`. -/
def traceAddresses (nodes : List Node) : R (List (List Nat)) :=
  traceAddressesOf nodes (List.range nodes.length)

/-- /repo/src/tracing/builder/parity.rs:403-424 `TransactionTraceIter::next`, run until the
underlying iterator is exhausted: the trace, then the pending selfdestruct trace. -/
def traceIter : List (TransactionTrace × Node) → List TransactionTrace
  | [] => []
  | (trace, node) :: rest =>
    if node.isSelfdestruct then
      let addr := trace.traceAddress ++ [trace.subtraces]
      { trace with subtraces := trace.subtraces + 1 } ::
        ((node.paritySelfdestructTrace addr).toList ++ traceIter rest)
    else trace :: traceIter rest

/-- /repo/src/tracing/builder/parity.rs:266-282 `into_transaction_traces_iter` collected,
`into_transaction_traces`. -/
def intoTransactionTraces (nodes : List Node) : R (List TransactionTrace) :=
  match traceAddresses nodes with
  | .error e => .error e
  | .ok as =>
    .ok (traceIter (((nodes.zip as).filter (fun p => !p.1.isPrecompile)).map
      (fun p => (p.1.parityTransactionTrace p.2, p.1))))

/-- alloy `TransactionInfo`, as far as used. -/
structure TxInfo where
  hash : Option U256
  index : Option Nat
  blockHash : Option U256
  blockNumber : Option Nat
  deriving DecidableEq, Repr

/-- alloy `LocalizedTransactionTrace`. -/
structure Localized where
  trace : TransactionTrace
  transactionPosition : Option Nat
  transactionHash : Option U256
  blockNumber : Option Nat
  blockHash : Option U256
  deriving DecidableEq, Repr

/-- /repo/src/tracing/builder/parity.rs:118-140 `into_localized_transaction_traces`. -/
def intoLocalizedTransactionTraces (nodes : List Node) (info : TxInfo) : R (List Localized) :=
  match intoTransactionTraces nodes with
  | .error e => .error e
  | .ok ts => .ok (ts.map fun t =>
      { trace := t, transactionPosition := info.index, transactionHash := info.hash,
        blockNumber := info.blockNumber, blockHash := info.blockHash })

/-- /repo/src/tracing/builder/parity.rs:231-257: the loop of `into_trace_type_traces` over the
traceable nodes; `traces` is the vector filled so far. -/
def traceLoop (all : List Node) (withTraces : Bool) :
    List Node → List TransactionTrace → R (List TransactionTrace)
  | [], traces => .ok traces
  | node :: rest, traces =>
    match traceAddress all node.idx with
    | .error e => .error e
    | .ok addr =>
      if withTraces then
        let trace := node.parityTransactionTrace addr
        if node.isSelfdestruct then
          -- `traces.last_mut()` is the trace just pushed
          let a := trace.traceAddress ++ [trace.subtraces]
          let traces := traces ++ [{ trace with subtraces := trace.subtraces + 1 }]
          match node.paritySelfdestructTrace a with
          | some sd => traceLoop all withTraces rest (traces ++ [sd])
          | none => traceLoop all withTraces rest traces
        else traceLoop all withTraces rest (traces ++ [trace])
      else traceLoop all withTraces rest traces

/-! ### vmTrace -/

/-- alloy `VmExecutedOperation`, with `MemoryDelta` and `StorageDelta` as pairs. -/
structure VmExec where
  used : Nat
  push : List U256
  mem : Option (Nat × Bytes)
  store : Option (U256 × U256)
  deriving DecidableEq, Repr, Inhabited

mutual
/-- alloy `VmTrace`. -/
inductive VmTrace where
  | mk (code : Bytes) (ops : List VmInstruction)
/-- alloy `VmInstruction`. `op` is the opcode whose name the code stores; `idx` is always `None`. -/
inductive VmInstruction where
  | mk (pc : Nat) (cost : Nat) (ex : VmExec) (sub : Option VmTrace) (op : OpCode)
end

/-- Field access. alloy `VmTrace`. -/
def VmTrace.ops : VmTrace → List VmInstruction | .mk _ ops => ops
/-- Field access. alloy `VmTrace`. -/
def VmTrace.code : VmTrace → Bytes | .mk code _ => code
/-- Field access. alloy `VmInstruction`. -/
def VmInstruction.sub : VmInstruction → Option VmTrace | .mk _ _ _ sub _ => sub

/-- /repo/src/tracing/builder/parity.rs:364-394 `make_instruction`. -/
def makeInstruction (step : CallTraceStep) (sub : Option VmTrace) : VmInstruction :=
  .mk step.pc step.gasCost
    { used := step.gasRemaining
      push := step.pushStack.getD []
      mem := step.memory.map (fun m => (m.length, m))
      store := step.storageChange.map (fun c => (c.key, c.value)) }
    sub step.op

/-- /repo/src/tracing/builder/parity.rs:286-294 `is_last_step_stop_op`. -/
def isLastStepStopOp (nodes : List Node) : Bool :=
  match nodes.getLast? with
  | none => false
  | some n => match n.trace.steps.getLast? with
    | none => false
    | some s => s.isStop

/-- /repo/src/tracing/builder/parity.rs:325-340: the loop over the steps of a node. `sub_stack` is a
queue, front first (its entries are always `Some`). The first component of the result tells whether
`break 'outer` was taken. -/
def instrLoop (lastStop : Bool) : List CallTraceStep → List VmTrace → List VmInstruction →
    Bool × List VmTrace × List VmInstruction
  | [], q, ins => (false, q, ins)
  | step :: steps, q, ins =>
    let sub : Option VmTrace := if step.isCalllikeOp then q.head? else none
    let q := if step.isCalllikeOp then q.tail else q
    if step.isStop && ins.isEmpty && lastStop then (true, q, ins)
    else instrLoop lastStop steps q (ins ++ [makeInstruction step sub])

/-- /repo/src/tracing/builder/parity.rs:314-357: the outer loop of `make_vm_trace`, one unit of fuel
per iteration. `stack` is `child_idx_stack`, top first. -/
def vmLoop (nodes : List Node) : Nat → List Nat → List VmTrace → Node → Nat →
    R (List VmInstruction)
  | 0, _, _, _, _ => .error .diverge
  | fuel + 1, stack, q, current, childIdx =>
    match current.children[childIdx]? with
    | some child =>
      match nodes[child]? with
      | none => .error (.expect "there should be a child")
      | some next => vmLoop nodes fuel ((childIdx + 1) :: stack) q next 0
    | none =>
      match instrLoop (isLastStepStopOp nodes) current.trace.steps q [] with
      | (true, _, ins) => .ok ins
      | (false, q, ins) =>
        match current.parent with
        | none => .ok ins
        | some parent =>
          match stack with
          | [] => .error (.expect "there should be a child idx")
          | ci :: stack =>
            match nodes[parent]? with
            | none => .error (.expect "there should be a parent")
            | some next => vmLoop nodes fuel stack (q ++ [.mk [] ins]) next ci

/-- Fuel for `vmLoop`: every node is left once and entered once per child.
No part of the code; for /repo/src/tracing/builder/parity.rs:306-362. -/
def vmFuel (nodes : List Node) : Nat := (nodes.map (fun n => n.children.length + 1)).sum

/-- /repo/src/tracing/builder/parity.rs:299-301 and 306-360 `vm_trace`, `make_vm_trace`. -/
def vmTrace (nodes : List Node) : R VmTrace :=
  match nodes with
  | [] => .ok (.mk [] [])
  | start :: _ =>
    match vmLoop nodes (vmFuel nodes) [] [] start 0 with
    | .error e => .error e
    | .ok ins => .ok (.mk [] ins)

/-! ### Trace types -/

/-- The result of `into_trace_type_traces`. /repo/src/tracing/builder/parity.rs:215-262. -/
structure TypeTraces where
  traces : Option (List TransactionTrace) := none
  vmTrace : Option VmTrace := none
  stateDiff : Option StateDiff := none

/-- /repo/src/tracing/builder/parity.rs:215-263 `into_trace_type_traces`. The set of trace types is
a list of which only membership is used. -/
def intoTraceTypeTraces (nodes : List Node) (types : List TraceType) : R TypeTraces :=
  if types.isEmpty || nodes.isEmpty then .ok {}
  else
    let withTraces := types.contains .Trace
    let withDiff := types.contains .StateDiff
    let vm : R (Option VmTrace) :=
      if types.contains .VmTrace then
        match vmTrace nodes with
        | .error e => .error e
        | .ok v => .ok (some v)
      else .ok none
    match vm with
    | .error e => .error e
    | .ok vm =>
      match traceLoop nodes withTraces (nodes.filter (fun n => !n.isPrecompile)) [] with
      | .error e => .error e
      | .ok traces =>
        .ok { traces := if withTraces then some traces else none
              vmTrace := vm
              stateDiff := if withDiff then some [] else none }

/-- alloy `TraceResults`. -/
structure TraceResults where
  output : Bytes
  trace : List TransactionTrace
  vmTrace : Option VmTrace
  stateDiff : Option StateDiff

/-- alloy `TraceOutput::set_gas_used`. -/
def TraceOutput.setGasUsed (g : Nat) : TraceOutput → TraceOutput
  | .call _ out => .call g out
  | .create _ code a => .create g code a

/-- alloy `TraceResults::set_root_trace_gas_used`, on the traces. -/
def setRootTraceGasUsed (g : Nat) : List TransactionTrace → List TransactionTrace
  | [] => []
  | t :: rest => { t with result := t.result.map (TraceOutput.setGasUsed g) } :: rest

/-- /repo/src/tracing/builder/parity.rs:149-167 `into_trace_results`; `gasUsed` and `output` are
those of the execution result (no output counts as empty). -/
def intoTraceResults (nodes : List Node) (gasUsed : Nat) (output : Option Bytes)
    (types : List TraceType) : R TraceResults :=
  match intoTraceTypeTraces nodes types with
  | .error e => .error e
  | .ok r => .ok { output := output.getD []
                   trace := setRootTraceGasUsed gasUsed (r.traces.getD [])
                   vmTrace := r.vmTrace
                   stateDiff := r.stateDiff }

/-! ### Breadth-first walks -/

/-- /repo/src/tracing/builder/walker.rs:24-31 `next`, run until the queue is empty, one unit of fuel
per call. -/
def walkLoop (nodes : List Node) : Nat → List Nat → R (List Node)
  | _, [] => .ok []
  | 0, idx :: _ => if idx < nodes.length then .error .diverge else .error .index
  | fuel + 1, idx :: queue =>
    match nodes[idx]? with
    | none => .error .index
    | some curr =>
      match walkLoop nodes fuel (queue ++ curr.children) with
      | .error e => .error e
      | .ok rest => .ok (curr :: rest)

/-- /repo/src/tracing/builder/walker.rs:16-20 `CallTraceNodeWalkerBF::new` and the walk. -/
def walkBF (nodes : List Node) : R (List Node) := walkLoop nodes nodes.length [0]

/-- The sub-trace at a path of operation indices: the `&mut VmTrace` references in the queue of
`populate_vm_trace_bytecodes` are modelled by such paths. /repo/src/tracing/builder/parity.rs:430-464. -/
def VmTrace.at : VmTrace → List Nat → Option VmTrace
  | v, [] => some v
  | .mk _ ops, i :: path =>
    match ops[i]? with
    | some (.mk _ _ _ (some sub) _) => sub.at path
    | _ => none

/-- Write the code of the sub-trace at a path. /repo/src/tracing/builder/parity.rs:430-464. -/
def VmTrace.setCode (code : Bytes) : VmTrace → List Nat → VmTrace
  | .mk _ ops, [] => .mk code ops
  | .mk c ops, i :: path =>
    .mk c (ops.modify i fun
      | .mk pc cost ex (some sub) op => .mk pc cost ex (some (sub.setCode code path)) op
      | ins => ins)

/-- parity.rs:445-449: the paths of the sub-traces of the operations. /repo/src/tracing/builder. -/
def subPaths (path : List Nat) (i : Nat) : List VmInstruction → List (List Nat)
  | [] => []
  | op :: ops =>
    (if op.sub.isSome then [path ++ [i]] else []) ++ subPaths path (i + 1) ops

/-- A panic or an error of the database. /repo/src/tracing/builder/parity.rs:430-464. -/
inductive Fail (ε : Type) where
  | panic (p : Panic)
  | db (e : ε)

/-- /repo/src/tracing/builder/parity.rs:444-458: the loop of `populate_vm_trace_bytecodes`, one unit
of fuel per iteration. -/
def populateLoop {ε : Type} (db : DB ε) : Nat → VmTrace → List (List Nat) → List Address →
    Except (Fail ε) VmTrace
  | _, root, [], _ => .ok root
  | 0, _, _ :: _, _ => .error (.panic .diverge)
  | fuel + 1, root, path :: queue, addrs =>
    match root.at path with
    | none => .error (.panic .unreachable)
    | some curr =>
      let queue := queue ++ subPaths path 0 curr.ops
      match addrs with
      | [] => .error (.panic (.expect "there should be an address"))
      | addr :: addrs =>
        match db.account addr with
        | .error e => .error (.db e)
        | .ok acc =>
          if acc.codeHash = KECCAK_EMPTY then populateLoop db fuel root queue addrs
          else
            match db.codeByHash acc.codeHash with
            | .error e => .error (.db e)
            | .ok code => populateLoop db fuel (root.setCode code path) queue addrs

mutual
/-- Number of sub-traces, itself included.
No part of the code; fuel for /repo/src/tracing/builder/parity.rs:430-464. -/
def VmTrace.count : VmTrace → Nat
  | .mk _ ops => 1 + countOps ops
/-- Sum over the operations. No part of the code; fuel for /repo/src/tracing/builder/parity.rs:430-464. -/
def countOps : List VmInstruction → Nat
  | [] => 0
  | op :: ops => countOp op + countOps ops
/-- The sub-trace of an operation. No part of the code; fuel for /repo/src/tracing/builder/parity.rs:430-464. -/
def countOp : VmInstruction → Nat
  | .mk _ _ _ none _ => 0
  | .mk _ _ _ (some v) _ => v.count
end

/-- /repo/src/tracing/builder/parity.rs:430-461 `populate_vm_trace_bytecodes`. -/
def populateVmTraceBytecodes {ε : Type} (db : DB ε) (trace : VmTrace) (addrs : List Address) :
    Except (Fail ε) VmTrace :=
  populateLoop db trace.count trace [[]] addrs

/-- /repo/src/tracing/builder/parity.rs:178-207 `into_trace_results_with_state`. -/
def intoTraceResultsWithState {ε : Type} (db : DB ε) (nodes : List Node) (gasUsed : Nat)
    (output : Option Bytes) (state : List (Address × Account)) (types : List TraceType) :
    Except (Fail ε) TraceResults :=
  let addrs : R (List Address) :=
    if types.contains .VmTrace then
      match walkBF nodes with
      | .error e => .error e
      | .ok ns => .ok (ns.map (·.trace.address))
    else .ok []
  match addrs with
  | .error e => .error (.panic e)
  | .ok addrs =>
    match intoTraceResults nodes gasUsed output types with
    | .error e => .error (.panic e)
    | .ok res =>
      let diff : Except (Fail ε) (Option StateDiff) :=
        match res.stateDiff with
        | none => .ok none
        | some d =>
          match populateStateDiff db d state with
          | .error e => .error (.db e)
          | .ok d => .ok (some d)
      match diff with
      | .error e => .error e
      | .ok diff =>
        let vm : Except (Fail ε) (Option VmTrace) :=
          match res.vmTrace with
          | none => .ok none
          | some v =>
            match populateVmTraceBytecodes db v addrs with
            | .error e => .error e
            | .ok v => .ok (some v)
        match vm with
        | .error e => .error e
        | .ok vm => .ok { res with stateDiff := diff, vmTrace := vm }

end Parity
end Verif
