import Verif.Model.Types
import Verif.Model.Replies
import Verif.Model.JsValues
/-! Model of the JavaScript inspector: /repo/src/tracing/js/mod.rs.

The JavaScript engine and the tracer's program are not modelled. A program is known by which of the
optional functions it defines (`JsShape`) and by which of its callbacks throw: `JsFails` gives for the
n-th invocation of a callback the text of the exception, if it throws. As every such sequence is
allowed, this covers programs that decide on their own state and on all they read. Building the
argument objects (`into_js_object`) is taken not to throw. -/
namespace Verif

/-! ### The constructor -/

/-- What `obj.get("name")` gives: an exception of a getter, a value that is not an object
(`undefined` if the field is missing), an object that cannot be called, a function.
/repo/src/tracing/js/mod.rs:124-150. -/
inductive JsField where
  | throws
  | value
  | object
  | function
  deriving DecidableEq, Repr

/-- What `ctx.eval` of the code gives, and what the constructor meets afterwards.
/repo/src/tracing/js/mod.rs:100-172. -/
inductive JsProgram where
  | evalError
  | value
  | object (result fault enter exit step setup : JsField) (configOk setupOk : Bool)
  deriving DecidableEq, Repr

/-- /repo/src/tracing/js/mod.rs:621-655 `JsInspectorError`, without the messages. -/
inductive JsInspectorError where
  | jsError | evalCode | expectedJsObject | resultFunctionMissing | faultFunctionMissing
  | setupFunctionNotCallable | setupCallFailed | invalidJsonConfig
  deriving DecidableEq, Repr

/-- The callbacks of a tracer that may be missing; `hasFault` tells whether the object kept as
`fault_fn` can be called. /repo/src/tracing/js/mod.rs:58-70. -/
structure JsShape where
  hasEnter : Bool
  hasExit : Bool
  hasStep : Bool
  hasFault : Bool
  deriving DecidableEq, Repr

/-- `.as_object().cloned().ok_or(err)?`: is it callable? /repo/src/tracing/js/mod.rs:124-138. -/
def JsField.asObject (err : JsInspectorError) : JsField → Except JsInspectorError Bool
  | .throws => .error .jsError
  | .value => .error err
  | .object => .ok false
  | .function => .ok true

/-- `.as_object().cloned().filter(|o| o.is_callable())`: is there a function?
/repo/src/tracing/js/mod.rs:142-150. -/
def JsField.optional : JsField → Except JsInspectorError Bool
  | .throws => .error .jsError
  | .value => .ok false
  | .object => .ok false
  | .function => .ok true

/-- /repo/src/tracing/js/mod.rs:155-164: the `setup` function. -/
def jsSetup (setup : JsField) (setupOk : Bool) (shape : JsShape) :
    Except JsInspectorError JsShape :=
  match setup with
  | .throws => .error .jsError
  | .value => .ok shape
  | .object => .error .setupFunctionNotCallable
  | .function => if setupOk then .ok shape else .error .setupCallFailed

/-- /repo/src/tracing/js/mod.rs:100-180 `with_transaction_context`. `register_builtins` is taken not to
fail. The second check (line 138) looks at `result_fn` again. -/
def jsNew : JsProgram → Except JsInspectorError JsShape
  | .evalError => .error .evalCode
  | .value => .error .expectedJsObject
  | .object result fault enter exit step setup configOk setupOk =>
    match result.asObject .resultFunctionMissing with
    | .error e => .error e
    | .ok resultCallable =>
      if !resultCallable then .error .resultFunctionMissing
      else
        match fault.asObject .faultFunctionMissing with
        | .error e => .error e
        | .ok faultCallable =>
          if !resultCallable then .error .faultFunctionMissing
          else
            match enter.optional with
            | .error e => .error e
            | .ok hasEnter =>
              match exit.optional with
              | .error e => .error e
              | .ok hasExit =>
                match step.optional with
                | .error e => .error e
                | .ok hasStep =>
                  if !configOk then .error .invalidJsonConfig
                  else jsSetup setup setupOk ⟨hasEnter, hasExit, hasStep, faultCallable⟩

/-! ### The hooks -/

/-- /repo/src/tracing/js/bindings.rs:497-502 `Contract`. -/
structure JsContract where
  caller : Address
  contract : Address
  value : U256
  input : Bytes
  deriving DecidableEq, Repr

/-- /repo/src/tracing/js/mod.rs:613-619 `CallStackItem`; also the `CallFrame` (bindings.rs:593-597)
built of it. -/
structure JsFrameItem where
  contract : JsContract
  kind : CallKind
  gas : Nat
  deriving DecidableEq, Repr

/-- /repo/src/tracing/js/bindings.rs:156-180 `StepLog`, with the content of the stack and the memory at
the time of the callback. -/
structure JsStepLog where
  stack : List U256
  op : OpCode
  memory : Bytes
  pc : Nat
  gas : Nat
  cost : Nat
  depth : Nat
  refund : Nat
  error : Option String
  contract : JsContract
  deriving DecidableEq, Repr

/-- One invocation of a callback with its argument (the database object is left out).
/repo/src/tracing/js/mod.rs:285-315. -/
inductive JsCallback where
  | enter (frame : JsFrameItem)
  | exit (gasUsed : Nat) (output : Bytes) (error : Option String)
  | step (log : JsStepLog)
  | fault (log : JsStepLog)
  deriving DecidableEq, Repr

/-- The exception of the n-th invocation, if it throws.
The results of the calls in /repo/src/tracing/js/mod.rs:285-315. -/
abbrev JsFails := Nat → Option Bytes

/-- /repo/src/tracing/js/mod.rs:41-73 `JsInspector`: the call stack, the marker, and what JavaScript
knows: the invocations it got, and the set `isPrecompiled` was registered with. -/
structure JsInsp where
  callStack : List JsFrameItem := []
  precompilesRegistered : Bool := false
  isPrecompiled : Option (List Address) := none
  calls : List JsCallback := []
  deriving DecidableEq, Repr

/-- What a hook gives back: `step` may set the interpreter's result to `Revert`.
/repo/src/tracing/js/mod.rs:385-405. -/
structure JsReply where
  reply : Reply
  revert : Bool := false
  deriving DecidableEq, Repr

namespace JsInsp

/-- Invocation of a function of the tracer: it is recorded, and may throw.
/repo/src/tracing/js/mod.rs:285-315. -/
def invoke (fails : JsFails) (s : JsInsp) (cb : JsCallback) : JsInsp × Option Bytes :=
  ({ s with calls := s.calls ++ [cb] }, fails s.calls.length)

/-- /repo/src/tracing/js/mod.rs:301-307 `try_enter`. -/
def tryEnter (shape : JsShape) (fails : JsFails) (s : JsInsp) (f : JsFrameItem) :
    JsInsp × Option Bytes :=
  if shape.hasEnter then s.invoke fails (.enter f) else (s, none)

/-- /repo/src/tracing/js/mod.rs:309-315 `try_exit`. -/
def tryExit (shape : JsShape) (fails : JsFails) (s : JsInsp) (gasUsed : Nat) (output : Bytes)
    (error : Option String) : JsInsp × Option Bytes :=
  if shape.hasExit then s.invoke fails (.exit gasUsed output error) else (s, none)

/-- /repo/src/tracing/js/mod.rs:285-290 `try_fault`. Calling an object that is no function throws
without invoking anything; the caller ignores all exceptions. -/
def tryFault (shape : JsShape) (fails : JsFails) (s : JsInsp) (log : JsStepLog) : JsInsp :=
  if shape.hasFault then (s.invoke fails (.fault log)).1 else s

/-- /repo/src/tracing/js/mod.rs:320-323 `active_call`. -/
def activeCall (s : JsInsp) : R JsFrameItem :=
  match s.callStack.getLast? with
  | none => .error (.expect "call stack is empty")
  | some c => .ok c

/-- /repo/src/tracing/js/mod.rs:326-328 `pop_call`. -/
def popCall (s : JsInsp) : JsInsp := { s with callStack := s.callStack.dropLast }

/-- /repo/src/tracing/js/mod.rs:332-334 `is_root_call_active`. -/
def isRootCallActive (s : JsInsp) : Bool := s.callStack.length == 1

/-- /repo/src/tracing/js/mod.rs:338-340 `can_call_enter`. -/
def canCallEnter (shape : JsShape) (s : JsInsp) : Bool := shape.hasEnter && !s.isRootCallActive

/-- /repo/src/tracing/js/mod.rs:344-346 `can_call_exit`, which looks at `enter_fn`. -/
def canCallExit (shape : JsShape) (s : JsInsp) : Bool := shape.hasEnter && !s.isRootCallActive

/-- /repo/src/tracing/js/mod.rs:349-365 `push_call`. -/
def pushCall (s : JsInsp) (address : Address) (data : Bytes) (value : U256) (kind : CallKind)
    (caller : Address) (gasLimit : Nat) : JsInsp :=
  { s with callStack := s.callStack ++ [⟨⟨caller, address, value, data⟩, kind, gasLimit⟩] }

/-- /repo/src/tracing/js/mod.rs:368-377 `register_precompiles`. -/
def registerPrecompiles (s : JsInsp) (precompiles : List Address) : JsInsp :=
  if !s.precompilesRegistered then s
  else { s with isPrecompiled := some precompiles, precompilesRegistered := true }

/-- /repo/src/tracing/js/mod.rs:657-665 `js_error_to_revert`. -/
def errorToRevert (err : Bytes) : InterpreterResult := ⟨.Revert, err, ⟨0, 0, 0⟩⟩

/-- /repo/src/tracing/js/mod.rs:392-405, 420-433: the argument of `step` and `fault`. -/
def stepLog (i : Interp) (c : Ctx) (error : Option String) (contract : JsContract) : JsStepLog where
  stack := i.stack
  op := i.op
  memory := i.memory
  pc := i.pc
  gas := i.gas.remaining
  cost := i.gas.spent
  depth := c.depth
  refund := i64AsU64 i.gas.refunded
  error := error
  contract := contract

/-- /repo/src/tracing/js/mod.rs:385-410 `step`. -/
def step (shape : JsShape) (fails : JsFails) (s : JsInsp) (i : Interp) (c : Ctx) :
    R (JsInsp × JsReply) :=
  if !shape.hasStep then .ok (s, { reply := .unit })
  else
    match s.activeCall with
    | .error p => .error p
    | .ok call =>
      let (s, err) := s.invoke fails (.step (stepLog i c none call.contract))
      .ok (s, { reply := .unit, revert := err.isSome })

/-- /repo/src/tracing/js/mod.rs:412-437 `step_end`. -/
def stepEnd (shape : JsShape) (fails : JsFails) (s : JsInsp) (i : Interp) (c : Ctx) :
    R (JsInsp × JsReply) :=
  if !shape.hasStep then .ok (s, { reply := .unit })
  else if i.result.isRevertClass then
    match s.activeCall with
    | .error p => .error p
    | .ok call =>
      .ok (s.tryFault shape fails (stepLog i c (some i.result.debug) call.contract),
        { reply := .unit })
  else .ok (s, { reply := .unit })

/-- /repo/src/tracing/js/mod.rs:448-454: `from` and `to` of a call. -/
def callFromTo (inp : CallInputs) : Address × Address :=
  match inp.scheme with
  | .DelegateCall => (inp.targetAddress, inp.bytecodeAddress)
  | .CallCode => (inp.targetAddress, inp.bytecodeAddress)
  | _ => (inp.caller, inp.bytecodeAddress)

/-- /repo/src/tracing/js/mod.rs:441-480 `call`. -/
def call (shape : JsShape) (fails : JsFails) (s : JsInsp) (c : Ctx) (inp : CallInputs) :
    R (JsInsp × JsReply) :=
  let s := s.registerPrecompiles c.precompiles
  let value := inp.transferValue.getD 0
  let s := s.pushCall (callFromTo inp).2 inp.input value (CallKind.ofCallScheme inp.scheme)
    (callFromTo inp).1 inp.gasLimit
  if s.canCallEnter shape then
    match s.activeCall with
    | .error p => .error p
    | .ok call =>
      match s.tryEnter shape fails ⟨call.contract, call.kind, inp.gasLimit⟩ with
      | (_, some _) => .error .todo
      | (s, none) => .ok (s, { reply := .start none })
  else .ok (s, { reply := .start none })

/-- /repo/src/tracing/js/mod.rs:482-502 `call_end`, and 535-555 `create_end` (which keeps the
address). -/
def frameEnd (shape : JsShape) (fails : JsFails) (s : JsInsp) (r : InterpreterResult)
    (address : Option Address) : R (JsInsp × JsReply) :=
  if s.canCallExit shape then
    match s.tryExit shape fails r.gas.spent r.output none with
    | (s, some err) => .ok (s.popCall, { reply := .finish (errorToRevert err) address })
    | (s, none) => .ok (s.popCall, { reply := .finish r address })
  else .ok (s.popCall, { reply := .finish r address })

/-- /repo/src/tracing/js/mod.rs:504-533 `create`. Simplified: `journaled_state.account` would panic
if the caller's account could not be loaded. -/
def create (shape : JsShape) (fails : JsFails) (s : JsInsp) (c : Ctx) (inp : CreateInputs) :
    R (JsInsp × JsReply) :=
  let s := s.registerPrecompiles c.precompiles
  let address := inp.createdAddress (c.nonce inp.caller)
  let s := s.pushCall address inp.initCode inp.value (CallKind.ofCreateScheme inp.scheme) inp.caller
    inp.gasLimit
  if s.canCallEnter shape then
    match s.activeCall with
    | .error p => .error p
    | .ok call =>
      match s.tryEnter shape fails ⟨call.contract, call.kind, call.gas⟩ with
      | (s, some err) => .ok (s, { reply := .start (some (errorToRevert err, none)) })
      | (s, none) => .ok (s, { reply := .start none })
  else .ok (s, { reply := .start none })

/-- /repo/src/tracing/js/mod.rs:557-573 `selfdestruct`. -/
def selfdestruct (shape : JsShape) (fails : JsFails) (s : JsInsp) : R (JsInsp × JsReply) :=
  if shape.hasEnter then
    match s.activeCall with
    | .error p => .error p
    | .ok call =>
      let (s, _) := s.tryEnter shape fails ⟨call.contract, call.kind, call.gas⟩
      if shape.hasExit then
        let (s, _) := s.tryExit shape fails 0 [] none
        .ok (s, { reply := .unit })
      else .ok (s, { reply := .unit })
  else if shape.hasExit then
    let (s, _) := s.tryExit shape fails 0 [] none
    .ok (s, { reply := .unit })
  else .ok (s, { reply := .unit })

/-- /repo/src/tracing/js/mod.rs:380-573 the hooks; 439 `log` does nothing. -/
def respond (shape : JsShape) (fails : JsFails) (s : JsInsp) : Event → R (JsInsp × JsReply)
  | .step i c => s.step shape fails i c
  | .stepEnd i c => s.stepEnd shape fails i c
  | .log _ _ => .ok (s, { reply := .unit })
  | .call c inp => s.call shape fails c inp
  | .callEnd _ _ r => s.frameEnd shape fails r none
  | .create c inp => s.create shape fails c inp
  | .createEnd _ _ r a => s.frameEnd shape fails r a
  | .selfdestruct _ _ _ => s.selfdestruct shape fails

/-- The state after a hook. /repo/src/tracing/js/mod.rs:385-575. -/
def hook (shape : JsShape) (fails : JsFails) (s : JsInsp) (e : Event) : R JsInsp :=
  match s.respond shape fails e with
  | .error p => .error p
  | .ok (s, _) => .ok s

/-- The global function `isPrecompiled` as a callback sees it: calling it throws if it was never
registered (/repo/src/tracing/js/builtins.rs:303-324). -/
def callIsPrecompiled (s : JsInsp) (v : JsBuf) : R (Option Bool) :=
  match s.isPrecompiled with
  | none => .ok none
  | some ps => jsIsPrecompiled (ps.map (fun a => beBytes 20 a.toNat)) v

end JsInsp
end Verif
