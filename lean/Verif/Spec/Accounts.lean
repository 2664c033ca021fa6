import Verif.Spec.CallFrames

/-!
The accounts involved in a frame, and what a reader of call frames takes them to be.
-/

namespace Verif.Spec

/-- What the EVM fills in when code that executes as `a` enters a frame. (The `caller` of a DELEGATECALL is
inherited.) -/
def EnteredFrom (a : Address) : Header → Prop
  | .call _ inp => match inp.scheme with
    | .Call | .StaticCall => inp.caller = a
    | .CallCode => inp.caller = a ∧ inp.targetAddress = a
    | .DelegateCall => inp.targetAddress = a
  | .create _ inp => inp.caller = a

/-- Throughout a body that executes as `a`. -/
def AllEnteredFrom : (a : Address) → Body → Prop
  | _, .nil => True
  | a, .act _ rest => AllEnteredFrom a rest
  | a, .sub h b _ rest => EnteredFrom a h ∧ AllEnteredFrom (executingAs h) b ∧ AllEnteredFrom a rest

/-- The account a reader takes a call frame to execute as: for DELEGATECALL and CALLCODE the one that
called, else the one that was called or created. -/
def readsAs (c : CallFrame) : Option Address :=
  if c.typ = "DELEGATECALL" ∨ c.typ = "CALLCODE" then some c.from_ else c.to

/-- Every frame below a frame (other than those of selfdestructs) is shown as made by the account the frame
executes as. -/
inductive MadeByParent : CallFrame → Prop
  | intro (c : CallFrame) (own : ∀ k ∈ c.calls, k.typ ≠ "SELFDESTRUCT" → some k.from_ = readsAs c)
      (below : ∀ k ∈ c.calls, k.typ ≠ "SELFDESTRUCT" → MadeByParent k) : MadeByParent c

mutual
/-- The frames of a call-frame tree that stand for selfdestructs. -/
def selfdestructFrames : CallFrame → List CallFrame
  | ⟨typ, from_, to, value, gas, gasUsed, input, output, error, revertReason, calls, logs⟩ =>
    if typ = "SELFDESTRUCT" then
      [⟨typ, from_, to, value, gas, gasUsed, input, output, error, revertReason, calls, logs⟩]
    else selfdestructFramesAll calls
/-- The same for several trees. -/
def selfdestructFramesAll : List CallFrame → List CallFrame
  | [] => []
  | c :: cs => selfdestructFrames c ++ selfdestructFramesAll cs
end

end Verif.Spec
