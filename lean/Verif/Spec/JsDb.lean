import Verif.Model.JsDb
import Verif.Spec.JsValues
/-! The current state, which the database object is to show. -/
namespace Verif.Spec

/-- The account as it is now: what the transaction loaded, else what the database has (outer `none`:
the database fails). An account that was looked for and does not exist is not there. -/
def accountNow (st : JsState) (d : JsDatabase) (a : Bytes) : Option (Option JsAccount) :=
  match st.account a with
  | some acc => some (if acc.notExisting then none else some acc)
  | none => d.basic a

/-- The slot as it is now. -/
def slotNow (st : JsState) (d : JsDatabase) (a k : Bytes) : Option U256 :=
  match st.slot a k with
  | some v => some v
  | none => d.storage a k

/-- The code as it is now: that of the transaction if it has it, else the database's. -/
def codeNow (st : JsState) (d : JsDatabase) (a : Bytes) : Option Bytes :=
  match accountNow st d a with
  | none => none
  | some none => some []
  | some (some acc) =>
    if acc.codeHash = keccakEmpty then some []
    else
      match acc.code with
      | some code => some code
      | none => (d.codeByHash acc.codeHash).map JsBytecode.originalBytes

/-- revm's accounts that do not exist are empty. -/
def StateOK (st : JsState) : Prop :=
  ∀ a acc, st.account a = some acc → acc.notExisting = true →
    acc.balance = 0 ∧ acc.nonce = 0 ∧ acc.codeHash = keccakEmpty

/-- The value denotes the 20 bytes of the address. -/
def Denotes (v : JsBuf) (len : Nat) (a : Bytes) : Prop :=
  ∃ b, fromBuf v = some b ∧ a.length = len ∧ beNat a = beNat b % 256 ^ len

end Verif.Spec
