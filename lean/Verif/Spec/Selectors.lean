import Verif.Spec.Frames
/-! The function selectors of the calls of a transaction. -/
namespace Verif.Spec

/-- The frame is a call with the selector `sel` and `size` bytes of arguments. -/
def callOf (sel : Bytes) (size : Nat) (f : FrameCtx) : Bool :=
  match f.hdr with
  | .call _ inp => inp.input.length == 4 + size && inp.input.take 4 == sel
  | .create _ _ => false

/-- The frame was called by another one and runs a precompile, which has no functions. -/
def builtIn (f : FrameCtx) : Bool := f.parent.isSome && f.hdr.isPrecompile

/-- How many functions with this selector and size of arguments were called. -/
def functionCalls (sel : Bytes) (size : Nat) (t : Tx) : Nat :=
  ((frames t).filter (fun f => callOf sel size f && !builtIn f)).length

end Verif.Spec
