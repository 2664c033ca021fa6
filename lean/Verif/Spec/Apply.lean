import Verif.Spec.State
/-! Reading a reported difference: what it makes of an account. -/
namespace Verif.Spec
open OMap

/-- What there is to know about an account. -/
@[ext] structure View where
  balance : U256
  nonce : Nat
  code : Bytes
  slot : U256 → U256

/-- An account that does not exist. -/
def View.empty : View := ⟨0, 0, [], fun _ => 0⟩

/-- The account before the transaction, as far as the database and the original values of the touched slots
tell. -/
structure IsBefore {ε : Type} (db : DB ε) (a : Address) (acc : Account) (v : View) : Prop where
  account : ∃ old c, Before db a old ∧ CodeIs db old c ∧ v.balance = old.balance ∧ v.nonce = old.nonce ∧
    v.code = c.getD []
  slots : ∀ (k : U256) (s : Slot), (k, s) ∈ acc.storage → v.slot k = s.original

/-- The account after the transaction: gone, if it was destroyed; otherwise as in the state, with the slots
that were not touched as before. -/
structure IsAfter {ε : Type} (db : DB ε) (acc : Account) (before v : View) : Prop where
  destroyed : acc.isSelfdestructed = true → v = View.empty
  balance : acc.isSelfdestructed = false → v.balance = acc.info.balance
  nonce : acc.isSelfdestructed = false → v.nonce = acc.info.nonce
  code : acc.isSelfdestructed = false → ∃ c, CodeIs db acc.info c ∧ v.code = c.getD []
  slots : acc.isSelfdestructed = false → ∀ (k : U256) (s : Slot), (k, s) ∈ acc.storage → v.slot k = s.present
  others : acc.isSelfdestructed = false → ∀ k : U256, (∀ s : Slot, (k, s) ∉ acc.storage) → v.slot k = before.slot k

/-- What a difference makes of a value. -/
def applyDelta {α : Type} (zero old : α) : Delta α → α
  | .unchanged => old
  | .added v => v
  | .removed _ => zero
  | .changed _ v => v

/-- What an entry of a parity state diff makes of an account. -/
def applyParity (v : View) : Option AccountDiff → View
  | none => v
  | some e =>
    { balance := applyDelta 0 v.balance e.balance
      nonce := applyDelta 0 v.nonce e.nonce
      code := applyDelta [] v.code e.code
      slot := fun k => match get? e.storage k with
        | none => v.slot k
        | some d => applyDelta 0 (v.slot k) d }

/-- What the entries of a geth prestate diff make of an account: `post` shows what is new; slots that only
`pre` shows are zero; an account that only `pre` shows is gone. -/
def applyGeth (v : View) (pre post : Option AccountState) : View :=
  match post with
  | some s =>
    { balance := s.balance.getD v.balance
      nonce := s.nonce.getD v.nonce
      code := s.code.getD v.code
      slot := fun k => match get? s.storage k with
        | some x => x
        | none => match pre.bind (fun p => get? p.storage k) with
          | some _ => 0
          | none => v.slot k }
  | none => match pre with
    | some _ => View.empty
    | none => v

end Verif.Spec
