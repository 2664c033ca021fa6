import Verif.Spec.CallFrames
import Verif.Spec.JsInspector
/-! The call tree that a JavaScript tracer puts together from `enter` and `exit`. -/
namespace Verif.Spec

/-- A frame with what `enter` and `exit` said about it. -/
structure JsNode where
  frame : JsFrameItem
  gasUsed : Nat
  output : Bytes
  error : Option String
  calls : List JsNode

/-- What a tracer like geth's JavaScript call tracer does: `enter` opens a frame, `exit` closes the innermost
open one and adds it to the frames of the one around it. `opened` are the open frames, innermost first,
`done` the finished frames outside of them. No result if the two are not properly nested. -/
def rebuild : List (JsFrameItem × List JsNode) → List JsNode → List JsCallback → Option (List JsNode)
  | [], done, [] => some done
  | _ :: _, _, [] => none
  | opened, done, .enter f :: cs => rebuild ((f, []) :: opened) done cs
  | [], _, .exit _ _ _ :: _ => none
  | [(f, ks)], done, .exit g o e :: cs => rebuild [] (done ++ [⟨f, g, o, e, ks⟩]) cs
  | (f, ks) :: (f', ks') :: opened, done, .exit g o e :: cs =>
    rebuild ((f', ks' ++ [⟨f, g, o, e, ks⟩]) :: opened) done cs
  | opened, done, .step _ :: cs => rebuild opened done cs
  | opened, done, .fault _ :: cs => rebuild opened done cs

mutual
/-- Two trees of the same form, with `P` for the frames in the same places. -/
inductive SameTree (P : JsNode → CallFrame → Prop) : JsNode → CallFrame → Prop
  | mk (n : JsNode) (c : CallFrame) : P n c → SameTrees P n.calls c.calls → SameTree P n c
/-- Two lists of trees of the same form. -/
inductive SameTrees (P : JsNode → CallFrame → Prop) : List JsNode → List CallFrame → Prop
  | nil : SameTrees P [] []
  | cons (n : JsNode) (c : CallFrame) (ns : List JsNode) (cs : List CallFrame) :
    SameTree P n c → SameTrees P ns cs → SameTrees P (n :: ns) (c :: cs)
end

/-- The type, the caller, the gas, the gas used, the input and the output are the same. -/
structure Alike (n : JsNode) (c : CallFrame) : Prop where
  typ : c.typ = kindText n.frame.kind
  from_ : c.from_ = n.frame.contract.caller
  gas : c.gas = n.frame.gas
  gasUsed : c.gasUsed = n.gasUsed
  input : c.input = n.frame.contract.input
  output : c.output = if n.output = [] then none else some n.output

/-- So are the callee, the value (which static calls do not have), and whether there is an error. -/
structure AllAlike (n : JsNode) (c : CallFrame) : Prop extends Alike n c where
  to : c.to = some n.frame.contract.contract
  value : n.frame.kind ≠ .StaticCall → c.value = some n.frame.contract.value
  error : c.error.isSome = n.error.isSome

/-- The value that moves with a call or a creation. -/
def movedValue : Header → U256
  | .call _ inp => match inp.value with
    | .transfer v => v
    | .apparent _ => 0
  | .create _ inp => inp.value

/-- A sub-frame of which `enter` and `exit` tell everything: it succeeded; the value in its scope, if it has
one, moved with it; and a creation made the contract that was announced. -/
structure Told (f : FrameCtx) : Prop where
  success : f.out.result.result.isOk = true
  value : kind f.hdr ≠ .StaticCall → f.value = movedValue f.hdr
  address : (frameData f).address = callee f.hdr

end Verif.Spec
