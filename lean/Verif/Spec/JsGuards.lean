import Verif.Model.JsGuards
import Verif.Spec.JsValues
/-! Specification of the lifetime of the objects handed to JavaScript callbacks: a reference is known
by the number of the callback it was given to and the data it was given. -/
namespace Verif.Spec

/-- The result of a method on the data itself. -/
def onData : JsObj → JsMethod → JsOut
  | .stack s, .length => .number s.length
  | .stack s, .peek i => .of .word (.ok (jsStackPeek s.length (some s) i))
  | .memory m, .length => .number m.length
  | .memory m, .slice s e => .of .bytes (jsMemorySlice (some m) s e)
  | .memory m, .getUint o => .of .bytes (jsMemoryGetUint (some m) o)
  | .db st d, .exist a => .of .bool (jsExists (some st) (some d) a)
  | .db st d, .getBalance a => .of .word (jsGetBalance (some st) (some d) a)
  | .db st d, .getNonce a => .of .number (jsGetNonce (some st) (some d) a)
  | .db st d, .getCode a => .of .bytes (jsGetCode (some st) (some d) a)
  | .db _ d, .getState a k => .of .word (jsGetState (some d) a k)
  | _, _ => .throws

/-- The arguments for which the memory methods overflow, whatever the memory is (see C48). -/
def Overflows : JsMethod → Prop
  | .slice s e => ¬ Below e s ∧ ∃ a b, TakenForIndex s a ∧ TakenForIndex e b ∧ b < a
  | .getUint o => ∃ n, TakenForIndex o n ∧ 2 ^ 64 ≤ n + 32
  | _ => False

/-- An error, an empty value, or the overflow. -/
def Denied (m : JsMethod) (o : JsOut) : Prop :=
  o = .throws ∨ o = .bytes [] ∨ (Overflows m ∧ o = .panic .arith)

/-- What the callback with number `k` may see, holding the given references: the data of the
references it was given itself, nothing of the others. With `lengthToo` this includes `length`; without
it, `length` of an old reference is to be the length of the data the reference was given. -/
def Allowed (lengthToo : Bool) (k : Nat) :
    List (Nat × JsObj) → List JsOp → List JsOut → Prop
  | _, [], outs => outs = []
  | refs, .copy r :: ops, outs =>
    Allowed lengthToo k (refs ++ (refs[r]?).toList) ops outs
  | _, .call _ _ :: _, [] => False
  | refs, .call r m :: ops, o :: outs =>
    (∀ j obj, refs[r]? = some (j, obj) →
      (j = k → o = onData obj m) ∧
      (j ≠ k → (lengthToo = true ∨ m ≠ .length) → Denied m o) ∧
      (j ≠ k → lengthToo = false → m = .length → o = onData obj m)) ∧
    (refs[r]? = none → o = .throws) ∧
    Allowed lengthToo k refs ops outs

/-- The references after the operations. -/
def refsAfter (refs : List (Nat × JsObj)) : List JsOp → List (Nat × JsObj)
  | [] => refs
  | .copy r :: ops => refsAfter (refs ++ (refs[r]?).toList) ops
  | .call _ _ :: ops => refsAfter refs ops

/-- All callbacks, the first of them with number `k`. -/
def AllowedSeq (lengthToo : Bool) : Nat → List (Nat × JsObj) → List (List JsObj × List JsOp) →
    List (List JsOut) → Prop
  | _, _, [], outss => outss = []
  | _, _, _ :: _, [] => False
  | k, refs, (objs, ops) :: rest, outs :: outss =>
    let refs := refs ++ objs.map (fun o => (k, o))
    Allowed lengthToo k refs ops outs ∧
    AllowedSeq lengthToo (k + 1) (refsAfter refs ops) rest outss

end Verif.Spec
