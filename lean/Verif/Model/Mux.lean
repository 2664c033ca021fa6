import Verif.Model.Replies
import Verif.Model.Geth
import Verif.Model.State
/-! Model of /repo/src/tracing/mux.rs. -/
namespace Verif

/-- alloy `GethDebugBuiltInTracerType`. -/
inductive TracerType where
  | fourByte | call | preState | noop | mux
  deriving DecidableEq, Repr

mutual
/-- alloy `GethDebugTracerConfig`, a JSON value: what `into_call_config`, `into_pre_state_config` and
`into_mux_config` make of it (`none`/`invalid` when deserialization fails). -/
inductive TracerConfig where
  | mk (asCall : Option CallConfig) (asPre : Option PreStateConfig) (asMux : MuxParse)
/-- Result of `into_mux_config`. /repo/src/tracing/mux.rs:24-35. -/
inductive MuxParse where
  | invalid
  | config (c : MuxConfig)
/-- alloy `MuxConfig`, a `HashMap` from tracer types to optional configurations: its entries in
iteration order. -/
inductive MuxConfig where
  | nil
  | bare (t : TracerType) (rest : MuxConfig)
  | conf (t : TracerType) (c : TracerConfig) (rest : MuxConfig)
end

mutual
/-- /repo/src/tracing/mux.rs:166-174 `DelegatingInspector`; a `TracingInspector` is its configuration
and its state. -/
inductive Delegate where
  | fourByte (s : FourByte)
  | call (cc : CallConfig) (cfg : Config) (s : TI)
  | prestate (pc : PreStateConfig) (cfg : Config) (s : TI)
  | noop
  | mux (m : Mux)
/-- /repo/src/tracing/mux.rs:20 `MuxInspector`. -/
inductive Mux where
  | nil
  | cons (t : TracerType) (d : Delegate) (rest : Mux)
end

/-- /repo/src/tracing/mux.rs:384-395 `Error`. -/
inductive MuxError where
  | unexpectedConfig (t : TracerType)
  | missingConfig (t : TracerType)
  | invalidConfig
  deriving DecidableEq, Repr

mutual
/-- /repo/src/tracing/mux.rs:178-227 `DelegatingInspector::try_from_config` with a configuration. -/
def Delegate.ofConfig (t : TracerType) : TracerConfig → Except MuxError Delegate
  | .mk asCall asPre asMux =>
    match t with
    | .fourByte => .error (.unexpectedConfig .fourByte)
    | .call =>
      match asCall with
      | none => .error .invalidConfig
      | some cc => .ok (.call cc (Config.fromGethCallConfig cc) TI.new)
    | .preState =>
      match asPre with
      | none => .error .invalidConfig
      | some pc => .ok (.prestate pc (Config.fromGethPrestateConfig pc) TI.new)
    | .noop => .error (.unexpectedConfig .noop)
    | .mux =>
      match Mux.ofParse asMux with
      | .error e => .error e
      | .ok m => .ok (.mux m)
  termination_by structural c => c

/-- /repo/src/tracing/mux.rs:228-230: `into_mux_config()?` and `MuxInspector::try_from_config`. -/
def Mux.ofParse : MuxParse → Except MuxError Mux
  | .invalid => .error .invalidConfig
  | .config c => Mux.ofConfig c
  termination_by structural p => p

/-- /repo/src/tracing/mux.rs:24-34 `MuxInspector::try_from_config`: collecting stops at the first
error. Entries without configuration are those of `DelegatingInspector::try_from_config` with `None`
(lines 183-187, 189-191, 201-203, 213-217, 219-221). -/
def Mux.ofConfig : MuxConfig → Except MuxError Mux
  | .nil => .ok .nil
  | .bare t rest =>
    match t with
    | .call => .error (.missingConfig .call)
    | .preState => .error (.missingConfig .preState)
    | .mux => .error (.missingConfig .mux)
    | .fourByte =>
      match Mux.ofConfig rest with
      | .error e => .error e
      | .ok m => .ok (.cons .fourByte (.fourByte []) m)
    | .noop =>
      match Mux.ofConfig rest with
      | .error e => .error e
      | .ok m => .ok (.cons .noop .noop m)
  | .conf t c rest =>
    match Delegate.ofConfig t c with
    | .error e => .error e
    | .ok d =>
      match Mux.ofConfig rest with
      | .error e => .error e
      | .ok m => .ok (.cons t d m)
  termination_by structural c => c
end

/-- The hook call with another outcome (`outcome = inspector.call_end(context, inputs, outcome)`).
/repo/src/tracing/mux.rs:114-157. -/
def Event.withOutcome (e : Event) (r : InterpreterResult) (a : Option Address) : Event :=
  match e with
  | .callEnd c inp _ => .callEnd c inp r
  | .createEnd c inp _ _ => .createEnd c inp r a
  | e => e

/-- /repo/src/tracing/mux.rs:289, 326: the `call` and `create` of a `DelegatingInspector` return
`None` whatever the delegate returned. -/
def Reply.discardOverride : Reply → Reply
  | .start _ => .start none
  | r => r

mutual
/-- /repo/src/tracing/mux.rs:238-380: the hooks of `DelegatingInspector`. -/
def Delegate.respond : Delegate → Event → R (Delegate × Reply)
  | .fourByte s, e =>
    match fourByteRespond s e with
    | .error p => .error p
    | .ok (s', r) => .ok (.fourByte s', r.discardOverride)
  | .call cc cfg s, e =>
    match TI.respond cfg s e with
    | .error p => .error p
    | .ok (s', r) => .ok (.call cc cfg s', r.discardOverride)
  | .prestate pc cfg s, e =>
    match TI.respond cfg s e with
    | .error p => .error p
    | .ok (s', r) => .ok (.prestate pc cfg s', r.discardOverride)
  | .noop, e => .ok (.noop, Reply.default e)
  | .mux m, e =>
    match Mux.respond m e with
    | .error p => .error p
    | .ok (m', r) => .ok (.mux m', r.discardOverride)
  termination_by structural d => d

/-- /repo/src/tracing/mux.rs:69-163 `impl Inspector for MuxInspector`: the loops over the inspectors.
`call` and `create` return at the first override (lines 110-112, 140-142); `call_end` and
`create_end` pass on the outcome they got from the previous inspector (lines 126-129, 156-159). -/
def Mux.respond : Mux → Event → R (Mux × Reply)
  | .nil, e => .ok (.nil, Reply.default e)
  | .cons t d rest, e =>
    match Delegate.respond d e with
    | .error p => .error p
    | .ok (d', .start (some o)) => .ok (.cons t d' rest, .start (some o))
    | .ok (d', .finish r a) =>
      match Mux.respond rest (e.withOutcome r a) with
      | .error p => .error p
      | .ok (rest', r') => .ok (.cons t d' rest', r')
    | .ok (d', _) =>
      match Mux.respond rest e with
      | .error p => .error p
      | .ok (rest', r') => .ok (.cons t d' rest', r')
  termination_by structural m => m
end

/-- The hooks called in sequence by revm on an inspector that does not interfere. -/
def runReplies {σ : Type} (h : Hook σ) : σ → List Event → R σ
  | s, [] => .ok s
  | s, e :: es =>
    match h s e with
    | .error p => .error p
    | .ok (s', _) => runReplies h s' es

mutual
/-- alloy `GethTrace`, the variants a mux produces. -/
inductive GethTrace where
  | fourByte (f : AMap (List Char) Nat)
  | call (f : CallFrame)
  | preState (f : PreStateFrame)
  | noop
  | mux (f : MuxFrame)
/-- alloy `MuxFrame`, a `HashMap`: association list without a meaningful order. -/
inductive MuxFrame where
  | nil
  | cons (t : TracerType) (x : GethTrace) (rest : MuxFrame)
end

/-- `frame.insert(tracer_type, trace)`. /repo/src/tracing/mux.rs:37-63. -/
def MuxFrame.insert : MuxFrame → TracerType → GethTrace → MuxFrame
  | .nil, t, x => .cons t x .nil
  | .cons t' x' rest, t, x => if t = t' then .cons t x rest else .cons t' x' (rest.insert t x)

/-- `frame.get(&tracer_type)`. /repo/src/tracing/mux.rs:37-63. -/
def MuxFrame.get? : MuxFrame → TracerType → Option GethTrace
  | .nil, _ => none
  | .cons t' x' rest, t => if t = t' then some x' else rest.get? t

/-- Why no frame is produced: a panic, or an error of the database. /repo/src/tracing/mux.rs:37-63. -/
inductive Fail (ε : Type) where
  | panic (p : Panic)
  | db (e : ε)

/-- What `try_into_mux_frame` gets besides the inspector: the revert reason decoder used by the call
tracer, the gas used and the state of `ResultAndState`, the database. /repo/src/tracing/mux.rs:37-63. -/
structure MuxEnv (ε : Type) where
  decode : RevertDecoder
  gasUsed : Nat
  state : List (Address × Account)
  db : DB ε

mutual
/-- /repo/src/tracing/mux.rs:44-58: the trace of one inspector. -/
def Delegate.intoTrace {ε : Type} (env : MuxEnv ε) : Delegate → Except (Fail ε) GethTrace
  | .fourByte s => .ok (.fourByte (fourByteFrame s))
  | .call cc _ s =>
    match gethCallTraces env.decode s.arena cc env.gasUsed with
    | .error p => .error (.panic p)
    | .ok f => .ok (.call f)
  | .prestate pc _ _ =>
    match gethPrestateTraces env.db env.state pc with
    | .error e => .error (.db e)
    | .ok f => .ok (.preState f)
  | .noop => .ok .noop
  | .mux m =>
    match Mux.intoFrameLoop env .nil m with
    | .error e => .error e
    | .ok f => .ok (.mux f)
  termination_by structural d => d

/-- /repo/src/tracing/mux.rs:42-61: the loop of `try_into_mux_frame`. -/
def Mux.intoFrameLoop {ε : Type} (env : MuxEnv ε) (frame : MuxFrame) : Mux →
    Except (Fail ε) MuxFrame
  | .nil => .ok frame
  | .cons t d rest =>
    match Delegate.intoTrace env d with
    | .error e => .error e
    | .ok x => Mux.intoFrameLoop env (frame.insert t x) rest
  termination_by structural m => m
end

/-- /repo/src/tracing/mux.rs:37-64 `try_into_mux_frame`. -/
def Mux.tryIntoFrame {ε : Type} (env : MuxEnv ε) (m : Mux) : Except (Fail ε) MuxFrame :=
  Mux.intoFrameLoop env .nil m

end Verif
