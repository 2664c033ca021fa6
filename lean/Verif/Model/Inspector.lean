import Verif.Model.Types
/-! Model of /repo/src/tracing/arena.rs and of the `TracingInspector` of /repo/src/tracing/mod.rs.

`Vec`s are lists in the same order, except the two internal stacks `trace_stack` and `step_stack`
whose top is the head of the list. -/
namespace Verif

/-- /repo/src/tracing/arena.rs:94-100. -/
inductive PushTraceKind where
  | pushOnly | pushAndAttachToParent
  deriving DecidableEq, Repr

/-- /repo/src/tracing/arena.rs:13-18 `CallTraceArena::default`: one default node. -/
def Arena.default : List Node := [{}]

/-- /repo/src/tracing/arena.rs:75-80: attach child `id` to the parent node. -/
def Node.attach (n : Node) (id : Nat) : Node :=
  { n with ordering := n.ordering ++ [.call n.children.length], children := n.children ++ [id] }

/-- /repo/src/tracing/arena.rs:56-89, the loop of `push_trace`. The Rust loop has no bound; the
model spends one unit of fuel per iteration and reports `diverge` when it runs out, which the
theorems of `Props.C01` exclude on legal executions. -/
def pushTraceLoop (kind : PushTraceKind) (t : CallTrace) :
    Nat → List Node → Nat → R (List Node × Nat)
  | 0, _, _ => .error .diverge
  | fuel + 1, arena, entry =>
    if t.depth = 0 then
      match arena with
      | [] => .error .index
      | n :: rest => .ok ({ n with trace := t } :: rest, 0)
    else
      match arena[entry]? with
      | none => .error .index
      | some e =>
        if e.trace.depth = t.depth - 1 then
          let id := arena.length
          let node : Node := { parent := some entry, trace := t, idx := id }
          match kind with
          | .pushAndAttachToParent => .ok (arena.set entry (e.attach id) ++ [node], id)
          | .pushOnly => .ok (arena ++ [node], id)
        else
          match e.children.getLast? with
          | none => .error (.expect "Disconnected trace")
          | some c => pushTraceLoop kind t fuel arena c

/-- /repo/src/tracing/arena.rs:50-90 `push_trace`. -/
def pushTrace (arena : List Node) (entry : Nat) (kind : PushTraceKind) (t : CallTrace) :
    R (List Node × Nat) :=
  pushTraceLoop kind t (arena.length + 1) arena entry

/-- /repo/src/tracing/mod.rs:617-630 `StackStep`. -/
structure StackStep where
  record : Bool
  traceIdx : Nat
  stepIdx : Nat
  deriving DecidableEq, Repr

/-- /repo/src/tracing/mod.rs:64-79 `TracingInspector` (the configuration is a separate argument:
no hook changes it). -/
structure TI where
  arena : List Node := Arena.default
  /-- top first -/
  traceStack : List Nat := []
  /-- top first -/
  stepStack : List StackStep := []
  lastCallReturnData : Option Bytes := none
  specId : Option SpecId := none
  deriving DecidableEq, Repr

namespace TI

/-- /repo/src/tracing/mod.rs:85-87 `new`. -/
def new : TI := {}

/-- /repo/src/tracing/mod.rs:94-109 `fuse` (with `CallTraceArena::clear`, arena.rs:40-43). -/
def fuse (_s : TI) : TI :=
  { arena := [] ++ [{}], traceStack := [], stepStack := [], lastCallReturnData := none,
    specId := none }

/-- /repo/src/tracing/mod.rs:170-174 `set_transaction_gas_used`. -/
def setTransactionGasUsed (s : TI) (g : Nat) : TI :=
  { s with arena := match s.arena with
    | [] => []
    | n :: rest => { n with trace := { n.trace with gasUsed := g } } :: rest }

/-- /repo/src/tracing/mod.rs:197-200 `is_deep`. -/
def isDeep (s : TI) : Bool := !s.traceStack.isEmpty

/-- /repo/src/tracing/mod.rs:206-217 `is_precompile_call`. -/
def isPrecompileCall (s : TI) (c : Ctx) (to : Address) (value : U256) : Bool :=
  if c.precompiles.contains to then s.isDeep && value == 0 else false

/-- /repo/src/tracing/mod.rs:224-226 `active_trace`. -/
def activeTrace (s : TI) : R (Option Node) :=
  match s.traceStack with
  | [] => .ok none
  | idx :: _ =>
    match s.arena[idx]? with
    | none => .error .index
    | some n => .ok (some n)

/-- /repo/src/tracing/mod.rs:237-246 `last_trace_idx` / `last_trace`, followed by an update of the
node through the returned `&mut`. -/
def withLastTrace (s : TI) (f : Nat → Node → Node) : R TI :=
  match s.traceStack with
  | [] => .error (.expect "can't start step without starting a trace first")
  | idx :: _ =>
    match s.arena[idx]? with
    | none => .error .index
    | some n => .ok { s with arena := s.arena.set idx (f idx n) }

/-- /repo/src/tracing/mod.rs:263-311 `start_trace_on_call`. -/
def startTraceOnCall (s : TI) (c : Ctx) (address : Address) (inputData : Bytes) (value : U256)
    (kind : CallKind) (caller : Address) (gasLimit : Nat) (maybePrecompile : Option Bool) : R TI :=
  let pushKind := if maybePrecompile.getD false then PushTraceKind.pushOnly
    else PushTraceKind.pushAndAttachToParent
  let gasLimit := if s.traceStack.isEmpty then c.txGasLimit else gasLimit
  let specId := if s.traceStack.isEmpty then some c.specId else s.specId
  match pushTrace s.arena 0 pushKind
      { depth := c.depth, address := address, kind := kind, data := inputData, value := value,
        status := .Continue, caller := caller, maybePrecompile := maybePrecompile,
        gasLimit := gasLimit } with
  | .error e => .error e
  | .ok (arena, id) =>
    .ok { s with arena := arena, traceStack := id :: s.traceStack, specId := specId }

/-- /repo/src/tracing/mod.rs:329-348: the update of the popped trace. -/
def fillTrace (c : Ctx) (idx : Nat) (r : InterpreterResult) (created : Option Address)
    (t : CallTrace) : CallTrace :=
  let t := { t with gasUsed :=
    if idx = 0 then Verif.gasUsed c.specId r.gas.spent (i64AsU64 r.gas.refunded) else r.gas.spent }
  let t := { t with status := r.result }
  let t := { t with success := t.status.isOk }
  let t := { t with output := r.output }
  match created with
  | some a => { t with address := a }
  | none => t

/-- /repo/src/tracing/mod.rs:320-349 `fill_trace_on_call_end`. -/
def fillTraceOnCallEnd (s : TI) (c : Ctx) (r : InterpreterResult) (created : Option Address) :
    R TI :=
  match s.traceStack with
  | [] => .error (.expect "more traces were filled than started")
  | idx :: rest =>
    match s.arena[idx]? with
    | none => .error .index
    | some n =>
      .ok { s with
        arena := s.arena.set idx { n with trace := fillTrace c idx r created n.trace }
        traceStack := rest
        lastCallReturnData := some r.output }

/-- /repo/src/tracing/mod.rs:380-391: the memory snapshot of `start_step`. -/
def stepMemory (cfg : Config) (i : Interp) (prev : Option CallTraceStep) : Option Bytes :=
  if cfg.recordMemorySnapshots then
    some (
      let fresh := i.memory
      if cfg.recordOpcodesFilter.isNone then
        match prev with
        | some p =>
          if !Op.mayModifyMemory p.op then
            match p.memory with
            | some m => m
            | none => fresh
          else fresh
        | none => fresh
      else fresh)
  else none

/-- /repo/src/tracing/mod.rs:380-425: the step recorded by `start_step`; `prev` is the step
recorded before it in the same node. -/
def newStep (cfg : Config) (i : Interp) (c : Ctx) (prev : Option CallTraceStep) : CallTraceStep :=
  { depth := c.depth, pc := i.pc, op := i.op, contract := i.contract
    stack := if cfg.recordStackSnapshots.isFull then some i.stack else none
    pushStack := none
    memory := stepMemory cfg i prev
    returndata := if cfg.recordReturndataSnapshots then i.returnData else []
    gasRemaining := i.gas.remaining
    gasRefundCounter := i64AsU64 i.gas.refunded
    gasUsed := Verif.gasUsed c.specId i.gas.spent (i64AsU64 i.gas.refunded)
    gasCost := 0, storageChange := none, status := .Continue, decoded := none }

/-- /repo/src/tracing/mod.rs:407,427: append a step to a node. -/
def pushStep (step : CallTraceStep) (n : Node) : Node :=
  { n with
    trace := { n.trace with steps := n.trace.steps ++ [step] }
    ordering := n.ordering ++ [.step n.trace.steps.length] }

/-- /repo/src/tracing/mod.rs:377-427: the part of `start_step` after the filter check, as an update
of the active node. -/
def startStepNode (cfg : Config) (i : Interp) (c : Ctx) (n : Node) : Node :=
  pushStep (newStep cfg i c n.trace.steps.getLast?) n

/-- /repo/src/tracing/mod.rs:360-428 `start_step`. -/
def startStep (cfg : Config) (s : TI) (i : Interp) (c : Ctx) : R TI :=
  match s.traceStack with
  | [] => .error (.expect "can't start step without starting a trace first")
  | idx :: _ =>
    match s.arena[idx]? with
    | none => .error .index
    | some n =>
      let record := cfg.shouldRecordOpcode i.op
      let stepStack := { traceIdx := idx, stepIdx := n.trace.steps.length, record := record } ::
        s.stepStack
      if !record then .ok { s with stepStack := stepStack }
      else .ok { s with stepStack := stepStack, arena := s.arena.set idx (startStepNode cfg i c n) }

/-- /repo/src/tracing/mod.rs:454-484: the `storage_change` of a finished step. -/
def stepStorageChange (op : OpCode) (c : Ctx) : R (Option StorageChange) :=
  match c.journal.getLast? with
  | none => .error (.expect "exists; initialized with vec")
  | some entries =>
    if op = Op.SLOAD ∨ op = Op.SSTORE then
      match entries.getLast? with
      | some (.storageChanged address key hadValue) =>
        match c.storage address key with
        | none => .error .index
        | some value =>
          .ok (some { key := key, value := value, hadValue := some hadValue,
                      reason := if op = Op.SLOAD then .SLOAD else .SSTORE })
      | _ => .ok none
    else .ok none

/-- /repo/src/tracing/mod.rs:446-492: the update of the recorded step in `fill_step_on_step_end`. -/
def fillStep (cfg : Config) (i : Interp) (c : Ctx) (step : CallTraceStep) : R CallTraceStep :=
  let pushed : R (Option (List U256)) :=
    if cfg.recordStackSnapshots.isPushes then
      if i.stack.length < Op.stackPushCount step.op then .error .arith
      else .ok (some (i.stack.drop (i.stack.length - Op.stackPushCount step.op)))
    else .ok step.pushStack
  match pushed with
  | .error e => .error e
  | .ok pushStack =>
    let change : R (Option StorageChange) :=
      if cfg.recordStateDiff then stepStorageChange step.op c else .ok step.storageChange
    match change with
    | .error e => .error e
    | .ok storageChange =>
      .ok { step with
        pushStack := pushStack
        storageChange := storageChange
        gasCost := step.gasRemaining - i.gas.remaining
        status := i.result }

/-- /repo/src/tracing/mod.rs:434-493 `fill_step_on_step_end`. -/
def fillStepOnStepEnd (cfg : Config) (s : TI) (i : Interp) (c : Ctx) : R TI :=
  match s.stepStack with
  | [] => .error (.expect "can't fill step without starting a step first")
  | st :: rest =>
    if !st.record then .ok { s with stepStack := rest }
    else
      match s.arena[st.traceIdx]? with
      | none => .error .index
      | some n =>
        match n.trace.steps[st.stepIdx]? with
        | none => .error .index
        | some step =>
          match fillStep cfg i c step with
          | .error e => .error e
          | .ok step' =>
            .ok { s with
              stepStack := rest
              arena := s.arena.set st.traceIdx
                { n with trace := { n.trace with steps := n.trace.steps.set st.stepIdx step' } } }

/-- /repo/src/tracing/mod.rs:517-518: `log` on the active node. -/
def logNode (l : Log) (n : Node) : Node :=
  { n with ordering := n.ordering ++ [.log n.logs.length], logs := n.logs ++ [CallLog.ofLog l] }

/-- /repo/src/tracing/mod.rs:607-612: `selfdestruct` on the active node. -/
def selfdestructNode (contract target : Address) (value : U256) (n : Node) : Node :=
  { n with trace := { n.trace with
      address := contract
      selfdestructRefundTarget := some target
      selfdestructTransferredValue := some value } }

/-- /repo/src/tracing/mod.rs:522-564 `Inspector::call`. -/
def call (cfg : Config) (s : TI) (c : Ctx) (inp : CallInputs) : R TI :=
  let fromTo : Address × Address :=
    match inp.scheme with
    | .DelegateCall | .CallCode => (inp.targetAddress, inp.bytecodeAddress)
    | _ => (inp.caller, inp.targetAddress)
  let value : R U256 :=
    match inp.scheme with
    | .DelegateCall =>
      match s.activeTrace with
      | .error e => .error e
      | .ok (some parent) => .ok parent.trace.value
      | .ok none => .ok inp.callValue
    | _ => .ok inp.callValue
  match value with
  | .error e => .error e
  | .ok value =>
    let maybePrecompile :=
      if cfg.excludePrecompileCalls then some (s.isPrecompileCall c fromTo.2 value) else none
    s.startTraceOnCall c fromTo.2 inp.input value (CallKind.ofCallScheme inp.scheme) fromTo.1
      inp.gasLimit maybePrecompile

/-- /repo/src/tracing/mod.rs:576-595 `Inspector::create`. `load_account` is a database access with
no effect on the inspector. Simplification: `journaled_state.account` would panic if the caller's account
were not loaded (which needs `load_account` to fail); the model takes the account as loaded, as revm has it
for whoever creates a contract. -/
def create (s : TI) (c : Ctx) (inp : CreateInputs) : R TI :=
  s.startTraceOnCall c (inp.createdAddress (c.nonce inp.caller)) inp.initCode inp.value
    (CallKind.ofCreateScheme inp.scheme) inp.caller inp.gasLimit (some false)

/-- /repo/src/tracing/mod.rs:496-613 `impl Inspector for TracingInspector`, one hook call. -/
def hook (cfg : Config) (s : TI) : Event → R TI
  | .step i c => if cfg.recordSteps then startStep cfg s i c else .ok s
  | .stepEnd i c => if cfg.recordSteps then fillStepOnStepEnd cfg s i c else .ok s
  | .log _ l => if cfg.recordLogs then s.withLastTrace (fun _ n => logNode l n) else .ok s
  | .call c inp => call cfg s c inp
  | .callEnd c _ r => s.fillTraceOnCallEnd c r none
  | .create c inp => create s c inp
  | .createEnd c _ r address => s.fillTraceOnCallEnd c r address
  | .selfdestruct contract target value =>
    s.withLastTrace (fun _ n => selfdestructNode contract target value n)

/-- The hooks invoked in sequence; the first panic aborts.
The order of the calls is revm's; the hooks are /repo/src/tracing/mod.rs:501-620. -/
def run (cfg : Config) : TI → List Event → R TI
  | s, [] => .ok s
  | s, e :: es =>
    match hook cfg s e with
    | .error p => .error p
    | .ok s' => run cfg s' es

end TI
end Verif
