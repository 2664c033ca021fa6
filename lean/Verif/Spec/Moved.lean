import Verif.Spec.Ledger
import Verif.Spec.Standalone
/-! The transfers of an execution in the order in which value moved: the specification of C119. -/
namespace Verif.Spec

/-- What moves on entering a frame: the value of a call that transfers some, and the endowment of a
creation, to the account it reports. -/
def onEntry : Header → Outcome → List Transfer
  | .call _ inp, _ => callTransfer inp
  | .create _ inp, o => createTransfer inp o.address

/-- The transfers made inside of a frame, in the order in which value moves. -/
def moved : Body → List Transfer
  | .nil => []
  | .act (.selfdestruct a t v) rest => ⟨.selfDestruct, a, t, v⟩ :: moved rest
  | .act _ rest => moved rest
  | .sub h b o rest => onEntry h o ++ moved b ++ moved rest

/-- The transfers made by a transaction, in the order in which value moves. -/
def txMoved (t : Tx) : List Transfer := onEntry t.hdr t.out ++ moved t.body

/-- No value moves while a creation that reports an account is running. -/
def QuietFrame : Header → Body → Outcome → Prop
  | .call _ _, _, _ => True
  | .create _ _, b, o => o.address.isSome = true → moved b = []

/-- No value moves during the creations inside of a frame. -/
def QuietCreations : Body → Prop
  | .nil => True
  | .act _ rest => QuietCreations rest
  | .sub h b o rest => QuietFrame h b o ∧ QuietCreations b ∧ QuietCreations rest

/-- Nobody pays what they do not have when the transfers are made one after the other. -/
def Solvent (ts : List Transfer) (l : Ledger) : Prop := ∀ k a, 0 ≤ settle (ts.take k) l a

end Verif.Spec
