import Verif.Spec.Exec
import Verif.Model.Types
/-!
# What a recording keeps while the execution goes on

Only the data types of a recording and the hook calls are mentioned here, nothing of what the recorder does
with them.
-/
namespace Verif.Spec

/-- The hook call enters the root frame of a transaction. -/
def startsTx : Event → Bool
  | .call c _ => c.depth == 0
  | .create c _ => c.depth == 0
  | _ => false

/-- The positions in the recording of the frames that are open after the hook calls, the innermost first; `os`
are open before, and the next frame to be entered below another gets the position `n`. A root gets the position
0. -/
def openedBy : (n : Nat) → (os : List Nat) → List Event → List Nat
  | _, os, [] => os
  | n, os, e :: es =>
    match e with
    | .call _ _ | .create _ _ => if os.isEmpty then openedBy n [0] es else openedBy (n + 1) (n :: os) es
    | .callEnd _ _ _ | .createEnd _ _ _ _ => openedBy n os.tail es
    | _ => openedBy n os es

/-- The positions of the open frames after the hook calls `es` of a new inspector. -/
def opened (es : List Event) : List Nat := openedBy 1 [] es

/-- The last hook call was the start of an instruction. -/
def endsInStep (es : List Event) : Bool :=
  match es.getLast? with
  | some (.step _ _) => true
  | _ => false

/-- The node `y` continues the node `x`: what was known when the frame was entered is the same, and what
happened since is added to the lists. (The steps are treated separately.) -/
structure Continues (x y : Node) : Prop where
  parent : y.parent = x.parent
  idx : y.idx = x.idx
  depth : y.trace.depth = x.trace.depth
  caller : y.trace.caller = x.trace.caller
  kind : y.trace.kind = x.trace.kind
  value : y.trace.value = x.trace.value
  data : y.trace.data = x.trace.data
  gasLimit : y.trace.gasLimit = x.trace.gasLimit
  precompile : y.trace.maybePrecompile = x.trace.maybePrecompile
  decoded : y.trace.decoded = x.trace.decoded
  children : x.children <+: y.children
  logs : x.logs <+: y.logs
  ordering : x.ordering <+: y.ordering

end Verif.Spec
