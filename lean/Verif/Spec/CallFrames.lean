import Verif.Spec.Frames
import Verif.Model.Geth
/-! What `geth_call_traces` should return for an execution tree. Only the result type `CallFrame` is
taken from the model. -/
namespace Verif.Spec

/-- The documented name of a call kind. -/
def kindText : CallKind → String
  | .Call => "CALL" | .StaticCall => "STATICCALL" | .CallCode => "CALLCODE"
  | .DelegateCall => "DELEGATECALL" | .AuthCall => "AUTHCALL" | .Create => "CREATE"
  | .Create2 => "CREATE2"

/-- The account whose logs and storage the frame works on, from the frame data shown. -/
def runsAs (f : FrameCtx) : Address :=
  match kind f.hdr with
  | .DelegateCall | .CallCode => caller f.hdr
  | _ => (frameData f).address

/-- The reason to show for the data of a failed frame: the message alone of a `require` or a `revert`
(not the text that presents it as an error), the presented form of a `Panic`, the data itself where it
is text and no known error. -/
def told (d : RevertDecoder) : RevertReason → String
  | .contractError (.revert reason) => reason
  | .contractError (.panic code) => d.display (.panic code)
  | .rawString s => s

/-- The reason shown, which is never empty. -/
def reasonShown (d : RevertDecoder) (output : Bytes) : Option String :=
  ((d.decode output).map (told d)).filter (fun s => !s.isEmpty)

/-- The frame on its own. `decode` turns revert data into a reason, `showLogs` tells whether its
logs are shown. -/
def leaf (decode : RevertDecoder) (cfg : Config) (showLogs : Bool) (f : FrameCtx) :
    CallFrame where
  typ := kindText (kind f.hdr)
  from_ := caller f.hdr
  to := some (frameData f).address
  value := if kind f.hdr = .StaticCall then none else some f.value
  gas := if f.parent = none then txGasLimit f.hdr else gasLimit f.hdr
  gasUsed := f.out.result.gas.limit - f.out.result.gas.remaining
  input := input f.hdr
  output := if f.out.result.output = [] then none else some f.out.result.output
  error := if f.out.result.result.isOk then none
    else some (errorText .Parity f.out.result.result)
  revertReason := if f.out.result.result.isOk then none
    else reasonShown decode f.out.result.output
  calls := []
  logs := if cfg.recordLogs && showLogs then (emitted f.body).map fun l =>
    { address := some (runsAs f), topics := some l.data.topics, data := some l.data.data } else []

/-- Does the frame count as a selfdestruct (C54)? -/
def selfdestructed (f : FrameCtx) : Bool :=
  decide (f.out.result.result = .SelfDestruct) || (lastSelfdestruct f.body).isSome

/-- The frame that stands for the selfdestruct of `f`. -/
def sdFrame (f : FrameCtx) : List CallFrame :=
  if selfdestructed f then
    [{ typ := "SELFDESTRUCT", from_ := caller f.hdr, to := (lastSelfdestruct f.body).map (·.2.1),
       value := (lastSelfdestruct f.body).map (·.2.2) }]
  else []

/-- The call frames of the sub-frames of a body, in call order. `ok` tells whether all enclosing
frames succeeded; `extra i` are frames appended to the calls of frame `i`. -/
def callTree (decode : RevertDecoder) (cfg : Config) (withLog : Bool)
    (extra : Nat → List CallFrame) : (ok : Bool) → (d p : Nat) → (v : U256) → (n : Nat) → Body →
    List CallFrame
  | _, _, _, _, _, .nil => []
  | ok, d, p, v, n, .act _ rest => callTree decode cfg withLog extra ok d p v n rest
  | ok, d, p, v, n, .sub h b o rest =>
    { leaf decode cfg (withLog && (ok && o.result.result.isOk)) ⟨n, some p, d, some v, h, b, o⟩ with
      calls := callTree decode cfg withLog extra (ok && o.result.result.isOk) (d + 1) n
        (valueInScope (some v) h) (n + 1) b ++ extra n } ::
    callTree decode cfg withLog extra ok d p v (n + 1 + b.size) rest

/-- The root frame of a transaction. -/
def rootOf (t : Tx) : FrameCtx := ⟨0, none, 0, none, t.hdr, t.body, t.out⟩

/-- The call-frame tree of a transaction, with the given gas used for the root; `rootLogs` tells
whether the root's logs are shown. -/
def callFrameTree (decode : RevertDecoder) (cfg : Config) (withLog rootLogs : Bool)
    (extra : Nat → List CallFrame) (gas : Nat) (t : Tx) : CallFrame :=
  { leaf decode cfg rootLogs (rootOf t) with
    gasUsed := gas
    calls := callTree decode cfg withLog extra t.out.result.result.isOk 1 0
      (valueInScope none t.hdr) 1 t.body ++ extra 0 }

end Verif.Spec
