import Verif.Model.Inspector
import Verif.Model.Standalone
/-! What the hooks give back to revm. The models of the inspectors (`TI.hook`, `fourByteHook`, …)
describe the effect of a hook call on the inspector; here each of them is completed with the value
the hook returns. -/
namespace Verif

/-- The value a hook returns: nothing (`step`, `step_end`, `log`, `selfdestruct`), an
`Option<CallOutcome>`/`Option<CreateOutcome>` that replaces the frame (`call`, `create`), or the
outcome revm goes on with (`call_end`, `create_end`). An outcome is its result and, for creates, the
address; the memory range of a `CallOutcome` is left out. -/
inductive Reply where
  | unit
  | start (override : Option (InterpreterResult × Option Address))
  | finish (r : InterpreterResult) (address : Option Address)
  deriving DecidableEq, Repr

/-- revm's default methods of `Inspector`: `None`, or the outcome itself. -/
def Reply.default : Event → Reply
  | .call _ _ => .start none
  | .create _ _ => .start none
  | .callEnd _ _ r => .finish r none
  | .createEnd _ _ r a => .finish r a
  | .step _ _ => .unit
  | .stepEnd _ _ => .unit
  | .log _ _ => .unit
  | .selfdestruct _ _ _ => .unit

/-- A hook: new state of the inspector and returned value. revm's `Inspector`. -/
abbrev Hook (σ : Type) := σ → Event → R (σ × Reply)

/-- /repo/src/tracing/mod.rs:496-613: `call` (line 563) and `create` (594) end in `None`, `call_end`
(573) and `create_end` (604) in `outcome`. -/
def TI.respond (cfg : Config) : Hook TI := fun s e =>
  match TI.hook cfg s e with
  | .error p => .error p
  | .ok s' =>
    match e with
    | .call _ _ => .ok (s', .start none)
    | .create _ _ => .ok (s', .start none)
    | .callEnd _ _ r => .ok (s', .finish r none)
    | .createEnd _ _ r a => .ok (s', .finish r a)
    | _ => .ok (s', .unit)

/-- /repo/src/tracing/fourbyte.rs:47-66: `call` ends in `None`; the other hooks are revm's defaults. -/
def fourByteRespond : Hook FourByte := fun s e =>
  match fourByteHook s e with
  | .error p => .error p
  | .ok s' =>
    match e with
    | .call _ _ => .ok (s', .start none)
    | e => .ok (s', Reply.default e)

/-- /repo/src/opcode.rs:56-79: only `step` and `step_end` are defined. -/
def OpcodeGas.respond (known : OpCode → Bool) : Hook OpcodeGas := fun s e =>
  match OpcodeGas.hook known s e with
  | .error p => .error p
  | .ok s' => .ok (s', Reply.default e)

/-- /repo/src/tracing/opcount.rs:22-29: only `step` is defined. -/
def opcountRespond : Hook Nat := fun s e =>
  match opcountHook s e with
  | .error p => .error p
  | .ok s' => .ok (s', Reply.default e)

/-- /repo/src/access_list.rs:64-99: only `step` is defined. -/
def AccessList.respond : Hook AccessList := fun s e =>
  match AccessList.hook s e with
  | .error p => .error p
  | .ok s' => .ok (s', Reply.default e)

/-- /repo/src/transfer.rs:46-103: `call` returns `None` (in both branches), `create_end` returns
`outcome` (in both branches). -/
def transferRespond (internalOnly : Bool) : Hook (List Transfer) := fun s e =>
  match transferHook internalOnly s e with
  | .error p => .error p
  | .ok s' =>
    match e with
    | .call _ _ => .ok (s', .start none)
    | .createEnd _ _ r a => .ok (s', .finish r a)
    | e => .ok (s', Reply.default e)

end Verif
