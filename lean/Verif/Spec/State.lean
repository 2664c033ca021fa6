import Verif.Lemmas.State
/-! What state diffs and prestate traces are to contain, stated on single accounts and slots. The
state map and the storage maps are finite maps given by their entries in an arbitrary order. -/
namespace Verif.Spec
open OMap

/-- A state map: no address twice, no slot twice. -/
structure StateMap (state : List (Address × Account)) : Prop where
  addresses : Distinct state
  slots : ∀ (a : Address) (acc : Account), (a, acc) ∈ state → Distinct acc.storage

/-- The same accounts, with the entries of both kinds of maps in another order. -/
structure SameState (s s' : List (Address × Account)) : Prop where
  left : ∀ (a : Address) (acc : Account), (a, acc) ∈ s → ∃ acc' : Account, (a, acc') ∈ s' ∧
    acc'.info = acc.info ∧ acc'.isCreated = acc.isCreated ∧
    acc'.isSelfdestructed = acc.isSelfdestructed ∧ acc.storage.Perm acc'.storage
  right : ∀ (a : Address) (acc' : Account), (a, acc') ∈ s' → ∃ acc : Account, (a, acc) ∈ s ∧
    acc'.info = acc.info ∧ acc'.isCreated = acc.isCreated ∧
    acc'.isSelfdestructed = acc.isSelfdestructed ∧ acc.storage.Perm acc'.storage

/-- The account before the transaction; an account the database does not know is empty. -/
inductive Before {ε : Type} (db : DB ε) (a : Address) : AccountInfo → Prop
  | known (i : AccountInfo) : db.basic a = .ok (some i) → Before db a i
  | unknown : db.basic a = .ok none → Before db a ⟨0, 0, KECCAK_EMPTY, some []⟩

/-- The code of an account: with the account, or stored under its hash. A failure to read the
stored code counts as no code. -/
inductive CodeIs {ε : Type} (db : DB ε) (i : AccountInfo) : Option Bytes → Prop
  | inline (c : Bytes) : i.code = some c → CodeIs db i (some c)
  | empty : i.code = none → i.codeHash = KECCAK_EMPTY → CodeIs db i none
  | stored (c : Bytes) : i.code = none → i.codeHash ≠ KECCAK_EMPTY →
      db.codeByHash i.codeHash = .ok c → CodeIs db i (some c)
  | unreadable (e : ε) : i.code = none → i.codeHash ≠ KECCAK_EMPTY →
      db.codeByHash i.codeHash = .error e → CodeIs db i none

/-- Some slot of the account changed. -/
def SlotChanged (acc : Account) : Prop :=
  ∃ (k : U256) (s : Slot), (k, s) ∈ acc.storage ∧ s.original ≠ s.present

/-- Something about the account changed. -/
def Changed (old : AccountInfo) (acc : Account) : Prop :=
  acc.isSelfdestructed = true ∨ old.balance ≠ acc.info.balance ∨ old.nonce ≠ acc.info.nonce ∨
    old.codeHash ≠ acc.info.codeHash ∨ SlotChanged acc

/-- The difference between two values. -/
def IsDelta {α : Type} (d : Delta α) (old new : α) : Prop :=
  (old = new ∧ d = .unchanged) ∨ (old ≠ new ∧ d = .changed old new)

/-- The entry of an account that was created. -/
structure CreatedEntry {ε : Type} (db : DB ε) (acc : Account) (e : AccountDiff) : Prop where
  balance : e.balance = .added acc.info.balance
  nonce : e.nonce = .added acc.info.nonce
  code : ∃ c, CodeIs db acc.info c ∧ e.code = .added (c.getD [])
  slots : ∀ (k : U256) (v : Delta U256), get? e.storage k = some v ↔
    ∃ s : Slot, (k, s) ∈ acc.storage ∧ s.original ≠ s.present ∧ v = .added s.present
  sorted : Sorted e.storage

/-- The entry of an account that changed. -/
structure ChangedEntry (old : AccountInfo) (acc : Account) (e : AccountDiff) : Prop where
  balance : IsDelta e.balance old.balance acc.info.balance
  nonce : IsDelta e.nonce old.nonce acc.info.nonce
  code : e.code = .unchanged
  slots : ∀ (k : U256) (v : Delta U256), get? e.storage k = some v ↔
    ∃ s : Slot, (k, s) ∈ acc.storage ∧ s.original ≠ s.present ∧ v = .changed s.original s.present
  sorted : Sorted e.storage

/-- A state diff that reports exactly what changed. -/
structure IsStateDiff {ε : Type} (db : DB ε) (state : List (Address × Account)) (diff : StateDiff) :
    Prop where
  sorted : Sorted diff
  untouched : ∀ a : Address, (∀ acc : Account, (a, acc) ∉ state) → get? diff a = none
  ephemeral : ∀ (a : Address) (acc : Account), (a, acc) ∈ state → acc.isCreated = true →
    acc.isSelfdestructed = true → get? diff a = none
  created : ∀ (a : Address) (acc : Account), (a, acc) ∈ state → acc.isCreated = true →
    acc.isSelfdestructed = false → ∃ e, get? diff a = some e ∧ CreatedEntry db acc e
  existing : ∀ (a : Address) (acc : Account), (a, acc) ∈ state → acc.isCreated = false →
    ∃ old, Before db a old ∧
      ((¬ Changed old acc ∧ get? diff a = none) ∨
       (Changed old acc ∧ ∃ e, get? diff a = some e ∧ ChangedEntry old acc e))

/-! ### Prestate traces -/

/-- Empty code is not shown. -/
def shownCode : Option Bytes → Option Bytes
  | some (b :: bs) => some (b :: bs)
  | _ => none

/-- A zero nonce is not shown. -/
def shownNonce : Nat → Option Nat
  | 0 => none
  | n + 1 => some (n + 1)

/-- An account as it was before the transaction, with the slots that `p` selects. -/
structure AsBefore {ε : Type} (db : DB ε) (old : AccountInfo) (acc : Account) (p : Slot → Prop)
    (s : AccountState) : Prop where
  balance : s.balance = some old.balance
  nonce : s.nonce = shownNonce old.nonce
  code : ∃ c, CodeIs db old c ∧ s.code = shownCode c
  slots : ∀ k v : U256, get? s.storage k = some v ↔
    ∃ sl : Slot, (k, sl) ∈ acc.storage ∧ p sl ∧ v = sl.original
  sorted : Sorted s.storage

/-- The accounts touched, as they were before the transaction. -/
structure IsPrestate {ε : Type} (db : DB ε) (state : List (Address × Account))
    (m : OMap Address AccountState) : Prop where
  sorted : Sorted m
  untouched : ∀ a : Address, (∀ acc : Account, (a, acc) ∉ state) → get? m a = none
  touched : ∀ (a : Address) (acc : Account), (a, acc) ∈ state →
    ∃ old s, Before db a old ∧ get? m a = some s ∧ AsBefore db old acc (fun _ => True) s

/-- A value is shown when it differs from the one before. -/
def shownIfNew {α : Type} (old new : Option α) (shown : Option α) : Prop :=
  (old = new ∧ shown = none) ∨ (old ≠ new ∧ shown = new)

/-- What is new about an account, `c` being its code before. -/
structure AsAfter (old : AccountInfo) (c : Option Bytes) (acc : Account) (s : AccountState) :
    Prop where
  balance : shownIfNew (some old.balance) (some acc.info.balance) s.balance
  nonce : shownIfNew (shownNonce old.nonce) (shownNonce acc.info.nonce) s.nonce
  code : shownIfNew (shownCode c) (shownCode acc.info.code) s.code
  slots : ∀ k v : U256, get? s.storage k = some v ↔
    ∃ sl : Slot, (k, sl) ∈ acc.storage ∧ sl.original ≠ sl.present ∧ v = sl.present ∧ v ≠ 0
  sorted : Sorted s.storage

/-- The account as shown before differs from the account as shown after. Note that the code after
is the one that comes with the account, while the code before may be read from the database. -/
def ShownDiffers (old : AccountInfo) (c : Option Bytes) (acc : Account) : Prop :=
  old.balance ≠ acc.info.balance ∨ old.nonce ≠ acc.info.nonce ∨
    shownCode c ≠ shownCode acc.info.code ∨ SlotChanged acc

/-- Exactly what diff mode shows of one account. -/
structure DiffOfAccount {ε : Type} (db : DB ε) (a : Address) (old : AccountInfo) (acc : Account)
    (pre post : OMap Address AccountState) : Prop where
  code : ∃ c, CodeIs db old c ∧
    ((∃ s, get? pre a = some s) ↔ acc.isCreated = false ∧ ShownDiffers old c acc) ∧
    ((∃ s, get? post a = some s) ↔ acc.isSelfdestructed = false ∧ ShownDiffers old c acc) ∧
    ∀ s, get? post a = some s → AsAfter old c acc s
  before : ∀ s, get? pre a = some s →
    AsBefore db old acc (fun sl => sl.original ≠ sl.present ∧ sl.original ≠ 0) s

/-- Exactly what diff mode shows. -/
structure IsPrestateDiff {ε : Type} (db : DB ε) (state : List (Address × Account))
    (pre post : OMap Address AccountState) : Prop where
  sorted : Sorted pre ∧ Sorted post
  untouched : ∀ a : Address, (∀ acc : Account, (a, acc) ∉ state) →
    get? pre a = none ∧ get? post a = none
  touched : ∀ (a : Address) (acc : Account), (a, acc) ∈ state →
    ∃ old, Before db a old ∧ DiffOfAccount db a old acc pre post

end Verif.Spec
