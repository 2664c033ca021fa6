import Verif.Spec.CallFrames
import Verif.Model.Parity
/-! What the parity traces of an execution should be. Only the result types are taken from the
model. -/
namespace Verif.Spec

/-- The frames a frame calls directly and that are shown, in call order. -/
def shownBelow (cfg : Config) (d p : Nat) (v : U256) : Nat → Body → List FrameCtx
  | _, .nil => []
  | n, .act _ rest => shownBelow cfg d p v n rest
  | n, .sub h b o rest =>
    (if excluded cfg ⟨n, some p, d, some v, h, b, o⟩ then []
      else [⟨n, some p, d, some v, h, b, o⟩]) ++ shownBelow cfg d p v (n + 1 + b.size) rest

/-- The shown direct calls of a frame. -/
def shownCalls (cfg : Config) (f : FrameCtx) : List FrameCtx :=
  shownBelow cfg (f.depth + 1) f.index f.value (f.index + 1) f.body

/-- Follow a path of positions among shown calls, from a frame down. -/
def follow (cfg : Config) (f : FrameCtx) : List Nat → Option FrameCtx
  | [] => some f
  | i :: path =>
    match (shownCalls cfg f)[i]? with
    | some g => follow cfg g path
    | none => none

/-- The frames below a frame that are shown, in the order in which they were entered, each with its
path. `path` is the path of the frame itself, `k` the number of its shown calls so far. -/
def locate (cfg : Config) : (d p : Nat) → (v : U256) → (n : Nat) → (path : List Nat) → (k : Nat) →
    Body → List (List Nat × FrameCtx)
  | _, _, _, _, _, _, .nil => []
  | d, p, v, n, path, k, .act _ rest => locate cfg d p v n path k rest
  | d, p, v, n, path, k, .sub h b o rest =>
    if excluded cfg ⟨n, some p, d, some v, h, b, o⟩ then
      locate cfg d p v (n + 1 + b.size) path k rest
    else
      (path ++ [k], ⟨n, some p, d, some v, h, b, o⟩) ::
        (locate cfg (d + 1) n (valueInScope (some v) h) (n + 1) (path ++ [k]) 0 b ++
          locate cfg d p v (n + 1 + b.size) path (k + 1) rest)

/-- The shown frames of a transaction with their paths, in the order in which they were entered. -/
def located (cfg : Config) (t : Tx) : List (List Nat × FrameCtx) :=
  ([], rootOf t) :: locate cfg 1 0 (valueInScope none t.hdr) 1 [] 0 t.body

/-- The parity name of a call scheme. -/
def callType : CallScheme → CallType
  | .Call => .call | .CallCode => .callCode | .DelegateCall => .delegateCall
  | .StaticCall => .staticCall

/-- What the frame was asked to do. -/
def action (f : FrameCtx) : Action :=
  let gas := if f.parent = none then txGasLimit f.hdr else gasLimit f.hdr
  match f.hdr with
  | .call _ inp => .call (caller f.hdr) (frameData f).address f.value gas inp.input
      (callType inp.scheme)
  | .create _ inp => .create inp.caller f.value gas inp.initCode

/-- What came of it, if it succeeded or reverted. `rootGas` is the gas used shown for the root. -/
def outcome (rootGas : Nat) (f : FrameCtx) : Option TraceOutput :=
  let gas := if f.parent = none then rootGas
    else f.out.result.gas.limit - f.out.result.gas.remaining
  if f.out.result.result.isOk = true ∨ f.out.result.result = .Revert then
    match f.hdr with
    | .call _ _ => some (.call gas f.out.result.output)
    | .create _ _ => some (.create gas f.out.result.output (frameData f).address)
  else none

/-- The trace of a frame. -/
def frameTrace (cfg : Config) (rootGas : Nat) (path : List Nat) (f : FrameCtx) : TransactionTrace where
  action := action f
  error := if f.out.result.result.isOk then none
    else some (errorText .Parity f.out.result.result)
  result := outcome rootGas f
  traceAddress := path
  subtraces := (shownCalls cfg f).length + if selfdestructed f then 1 else 0

/-- The trace of the frame's selfdestruct, if there is one. -/
def sdTrace (cfg : Config) (path : List Nat) (f : FrameCtx) : List TransactionTrace :=
  if selfdestructed f then
    [{ action := .selfdestruct (frameData f).address
          (((lastSelfdestruct f.body).map (·.2.1)).getD 0)
          (((lastSelfdestruct f.body).map (·.2.2)).getD 0)
       error := none
       result := none
       traceAddress := path ++ [(shownCalls cfg f).length]
       subtraces := 0 }]
  else []

/-- All traces. -/
def txTraces (cfg : Config) (rootGas : Nat) (t : Tx) : List TransactionTrace :=
  (located cfg t).flatMap fun e => frameTrace cfg rootGas e.1 e.2 :: sdTrace cfg e.1 e.2

end Verif.Spec
