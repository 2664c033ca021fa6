import Verif.Spec.Calls
/-! The storage changes instructions make, in terms of the EVM and not of what is recorded. -/
namespace Verif.Spec

/-- Is the journal entry a change of a storage slot? -/
def isChange : JournalEntry → Bool
  | .storageChanged _ _ _ => true
  | .other => false

/-- The change the instruction itself made: an SSTORE during which a storage change was journaled
stored the second item of the stack in the slot on top of it. -/
def madeChange (a : Instr) : Option (U256 × U256) :=
  match a.after, a.ctx.journal.getLast? with
  | some (_, c'), some before =>
    match c'.journal.getLast? with
    | some entries =>
      if a.before.op = 0x55 ∧ (entries.drop before.length).any isChange then
        match a.before.stack.reverse with
        | key :: value :: _ => some (key, value)
        | _ => none
      else none
    | none => none
  | _, _ => none

/-- The changes the first `k + 1` instructions made, most recent first, each with the contract whose
storage it is. -/
def madeHistory (t : Tx) (k : Nat) : List (Address × Option (U256 × U256)) :=
  (((chron t).take (k + 1)).map (fun e => (e.2.before.contract, madeChange e.2))).reverse

/-- What SLOAD and SSTORE do to the journal (revm's `JournaledState::{sload, sstore}`): the first access
of a slot appends an entry that is no change; SSTORE of a value other than the slot's then appends the
change of that slot of the executing contract, and the slot has that value. -/
def StorageLaw (i : Interp) (c : Ctx) (_ : Interp) (c' : Ctx) : Prop :=
  i.op = 0x54 ∨ i.op = 0x55 → ∃ before access, c.journal.getLast? = some before ∧
    (access = [] ∨ access = [.other]) ∧
    (c'.journal.getLast? = some (before ++ access) ∨
      i.op = 0x55 ∧ ∃ key value rest old, i.stack.reverse = key :: value :: rest ∧ old ≠ value ∧
        c'.storage i.contract key = some value ∧
        c'.journal.getLast? = some (before ++ access ++ [.storageChanged i.contract key old]))

/-- An SLOAD or SSTORE that journals nothing finds no change at the end of the journal. -/
def Unambiguous (a : Instr) : Prop :=
  ∀ i' c' before, a.after = some (i', c') → a.before.op = 0x54 ∨ a.before.op = 0x55 →
    a.ctx.journal.getLast? = some before → c'.journal.getLast? = some before →
    ∀ e, before.getLast? = some e → isChange e = false

end Verif.Spec
