import Verif.Spec.Exec
import Verif.Model.JsInspector
import Verif.Spec.Mux
/-! What a JavaScript tracer is to see of an execution. -/
namespace Verif.Spec

/-- The kind of a frame. -/
def jsKind : Header → CallKind
  | .call _ inp =>
    match inp.scheme with
    | .Call => .Call
    | .CallCode => .CallCode
    | .DelegateCall => .DelegateCall
    | .StaticCall => .StaticCall
  | .create _ inp =>
    match inp.scheme with
    | .Create => .Create
    | .Create2 _ => .Create2

/-- A frame as JavaScript sees it: who called (the contract that executes the instruction, also for
DELEGATECALL and CALLCODE), whose code runs, the value that moves, the input and the gas. -/
def jsFrame : Header → JsFrameItem
  | .call c inp =>
    { contract :=
        { caller := if inp.scheme = .DelegateCall ∨ inp.scheme = .CallCode then inp.targetAddress
            else inp.caller
          contract := inp.bytecodeAddress
          value := match inp.value with
            | .transfer v => v
            | .apparent _ => 0
          input := inp.input }
      kind := jsKind (.call c inp)
      gas := inp.gasLimit }
  | .create c inp =>
    { contract :=
        { caller := inp.caller
          contract := inp.createdAddress (c.nonce inp.caller)
          value := inp.value
          input := inp.initCode }
      kind := jsKind (.create c inp)
      gas := inp.gasLimit }

/-- The interpreter as JavaScript sees it, `d` frames being open and `f` running. `cost` is the gas
spent in the frame so far (see C63). -/
def jsView (d : Nat) (f : JsFrameItem) (i : Interp) (error : Option String) : JsStepLog where
  stack := i.stack
  op := i.op
  memory := i.memory
  pc := i.pc
  gas := i.gas.remaining
  cost := i.gas.limit - i.gas.remaining
  depth := d
  refund := (i.gas.refunded % 2 ^ 64).toNat
  error := error
  contract := f.contract

/-- `[x]` if the condition holds. -/
def when (b : Bool) (x : JsCallback) : List JsCallback := if b then [x] else []

/-- The callbacks of what happens inside a frame `f`, `d` frames being open: `step` before each
instruction, `fault` after one that reverts, `enter` and `exit` around each sub-frame, and both of
them for a selfdestruct. -/
def jsCallbacks (shape : JsShape) (d : Nat) (f : JsFrameItem) : Body → List JsCallback
  | .nil => []
  | .act (.step i _ i' _) rest =>
    when shape.hasStep (.step (jsView d f i none)) ++
    when (shape.hasStep && shape.hasFault && i'.result.isRevertClass)
      (.fault (jsView d f i' (some i'.result.debug))) ++ jsCallbacks shape d f rest
  | .act (.aborted i _) rest =>
    when shape.hasStep (.step (jsView d f i none)) ++ jsCallbacks shape d f rest
  | .act (.log _ _) rest => jsCallbacks shape d f rest
  | .act (.selfdestruct _ _ _) rest =>
    when shape.hasEnter (.enter f) ++ when shape.hasExit (.exit 0 [] none) ++
      jsCallbacks shape d f rest
  | .sub h b o rest =>
    when shape.hasEnter (.enter (jsFrame h)) ++ jsCallbacks shape (d + 1) (jsFrame h) b ++
    when shape.hasExit
      (.exit (o.result.gas.limit - o.result.gas.remaining) o.result.output none) ++
      jsCallbacks shape d f rest

/-- The callbacks of a transaction: none for the root frame itself. -/
def jsTxCallbacks (shape : JsShape) (t : Tx) : List JsCallback :=
  jsCallbacks shape 1 (jsFrame t.hdr) t.body

/-- The frames that are open after a sequence of hooks, outermost first. -/
def openFrames : List JsFrameItem → List Event → List JsFrameItem
  | fs, [] => fs
  | fs, .call c inp :: es => openFrames (fs ++ [jsFrame (.call c inp)]) es
  | fs, .create c inp :: es => openFrames (fs ++ [jsFrame (.create c inp)]) es
  | fs, .callEnd _ _ _ :: es => openFrames fs.dropLast es
  | fs, .createEnd _ _ _ _ :: es => openFrames fs.dropLast es
  | fs, _ :: es => openFrames fs es

/-- A callback that reports a failure. -/
def isFault : JsCallback → Bool
  | .fault _ => true
  | _ => false

/-- A callback before an instruction. -/
def isStep : JsCallback → Bool
  | .step _ => true
  | _ => false

/-- The instructions that were started, with the number of open frames, the running frame and the gas
the instruction cost (none if it was not executed). -/
def started (d : Nat) (f : JsFrameItem) : Body → List (Nat × JsFrameItem × Interp × Option Nat)
  | .nil => []
  | .act (.step i _ i' _) rest =>
    (d, f, i, some (i.gas.remaining - i'.gas.remaining)) :: started d f rest
  | .act (.aborted i _) rest => (d, f, i, none) :: started d f rest
  | .act _ rest => started d f rest
  | .sub h b _ rest => started (d + 1) (jsFrame h) b ++ started d f rest

/-- The result says that the instruction failed: neither a success nor the start of a sub-frame. -/
def Failed (r : InstructionResult) : Prop := r.isOk = false ∧ r ≠ .CallOrCreate

/-- The number of instructions that failed. -/
def failures : Body → Nat
  | .nil => 0
  | .act (.step _ _ i' _) rest =>
    (if i'.result.isOk = false ∧ i'.result ≠ .CallOrCreate then 1 else 0) + failures rest
  | .act _ rest => failures rest
  | .sub _ b _ rest => failures b + failures rest

/-- No instruction fails but by a revert. -/
def OnlyReverts (b : Body) : Prop :=
  b.AllSteps (fun _ _ i' _ => Failed i'.result → i'.result.isRevertClass = true)

/-- A value of the hook that reverts the frame, or hands out a revert in place of its outcome, with
`out` as the output where the hook has one to give. -/
def HookReverts (e : Event) (out : Bytes) (r : JsReply) : Prop :=
  match e with
  | .step _ _ => r = ⟨.unit, true⟩
  | .create _ _ => r = ⟨.start (some (⟨.Revert, out, ⟨0, 0, 0⟩⟩, none)), false⟩
  | .callEnd _ _ _ => r = ⟨.finish ⟨.Revert, out, ⟨0, 0, 0⟩⟩ none, false⟩
  | .createEnd _ _ _ a => r = ⟨.finish ⟨.Revert, out, ⟨0, 0, 0⟩⟩ a, false⟩
  | _ => False

/-- The hook can hand a revert to the EVM: all but the end of an instruction, a selfdestruct (neither
gives anything back) and a log (which calls nothing); a call could. -/
def CanRevert : Event → Prop
  | .step _ _ | .create _ _ | .callEnd _ _ _ | .createEnd _ _ _ _ | .call _ _ => True
  | _ => False

/-- The function that was invoked as number `n` of all was invoked in the hook that leads from `s` to
`s'`. -/
def InvokedIn (s s' : JsInsp) (n : Nat) : Prop := s.calls.length ≤ n ∧ n < s'.calls.length

/-- The hook of a tracer that has these functions panics: at a call below another one if `enter` throws, and at
an instruction or a selfdestruct outside of any frame, if a function is to be called for it. -/
def HookPanics (shape : JsShape) (fails : JsFails) (s : JsInsp) : Event → Prop
  | .call _ _ => shape.hasEnter = true ∧ s.callStack ≠ [] ∧ fails s.calls.length ≠ none
  | .step _ _ => shape.hasStep = true ∧ s.callStack = []
  | .stepEnd i _ => shape.hasStep = true ∧ i.result.isRevertClass = true ∧ s.callStack = []
  | .selfdestruct _ _ _ => shape.hasEnter = true ∧ s.callStack = []
  | _ => False

end Verif.Spec
