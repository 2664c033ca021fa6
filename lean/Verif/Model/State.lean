import Verif.Model.OMap
import Verif.Model.Config
/-! Accounts, databases and state diffs: the parts of revm and alloy-rpc-types that the builders
read and write, and the builders' functions that work on state maps.

A state map is a `HashMap` of the dependency that the code iterates over; the model takes the list
of its entries in iteration order. Theorems quantify over every such list. -/
namespace Verif

/-- revm `AccountInfo`. The bytecode is its `original_bytes()`. -/
structure AccountInfo where
  balance : U256
  nonce : Nat
  codeHash : U256
  code : Option Bytes
  deriving DecidableEq, Repr, Inhabited

/-- revm `KECCAK_EMPTY`, the hash of no code. -/
def KECCAK_EMPTY : U256 := 0xc5d2460186f7233c927e7db2dcc703c0e500b653ca82273b7bfad8045d85a470

/-- revm `AccountInfo::default` (the default bytecode has no original bytes). -/
def AccountInfo.default : AccountInfo := ⟨0, 0, KECCAK_EMPTY, some []⟩

/-- revm `impl PartialEq for AccountInfo`: the code itself is not compared. -/
def AccountInfo.eq (a b : AccountInfo) : Bool :=
  a.balance == b.balance && a.nonce == b.nonce && a.codeHash == b.codeHash

/-- revm `EvmStorageSlot`. -/
structure Slot where
  original : U256
  present : U256
  deriving DecidableEq, Repr, Inhabited

/-- revm `EvmStorageSlot::is_changed`. -/
def Slot.isChanged (s : Slot) : Bool := s.original != s.present

/-- revm `Account`: the two status flags read by the code; `storage` in iteration order. -/
structure Account where
  info : AccountInfo
  storage : List (U256 × Slot)
  isCreated : Bool
  isSelfdestructed : Bool
  deriving DecidableEq, Repr, Inhabited

/-- revm `DatabaseRef`, with errors of type `ε`. -/
structure DB (ε : Type) where
  basic : Address → Except ε (Option AccountInfo)
  codeByHash : U256 → Except ε Bytes

/-- `db.basic_ref(addr)?.unwrap_or_default()`.
/repo/src/tracing/builder/geth.rs:213, 231 and /repo/src/tracing/builder/parity.rs:453, 505. -/
def DB.account {ε : Type} (db : DB ε) (a : Address) : Except ε AccountInfo :=
  match db.basic a with
  | .error e => .error e
  | .ok none => .ok AccountInfo.default
  | .ok (some i) => .ok i

/-- /repo/src/tracing/utils.rs:39-55 `load_account_code`. -/
def loadAccountCode {ε : Type} (db : DB ε) (acc : AccountInfo) : Option Bytes :=
  match acc.code with
  | some c => some c
  | none =>
    if acc.codeHash = KECCAK_EMPTY then none
    else match db.codeByHash acc.codeHash with
      | .ok c => some c
      | .error _ => none

namespace OMap
variable {κ ν : Type} [Key κ]
/-- `map.remove(&k)`. /repo/src/tracing/builder/parity.rs:521. -/
def remove (m : OMap κ ν) (k : κ) : OMap κ ν :=
  List.filter (fun e => Key.num e.1 != Key.num k) m
end OMap

/-! ### Parity state diff -/

/-- alloy `Delta<T>`. -/
inductive Delta (α : Type) where
  | unchanged
  | added (v : α)
  | removed (v : α)
  | changed (old new : α)
  deriving DecidableEq, Repr, Inhabited

/-- alloy `AccountDiff`, with its `Default`. -/
structure AccountDiff where
  balance : Delta U256 := .unchanged
  code : Delta Bytes := .unchanged
  nonce : Delta Nat := .unchanged
  storage : OMap U256 (Delta U256) := []
  deriving DecidableEq, Repr, Inhabited

/-- alloy `StateDiff` (a `BTreeMap`). -/
abbrev StateDiff := OMap Address AccountDiff

/-- /repo/src/tracing/builder/parity.rs:500-502. -/
def addedStorage (st : OMap U256 (Delta U256)) : List (U256 × Slot) → OMap U256 (Delta U256)
  | [] => st
  | (k, s) :: rest => addedStorage (if s.isChanged then OMap.insert st k (.added s.present) else st) rest

/-- /repo/src/tracing/builder/parity.rs:508-513. -/
def changedStorage (st : OMap U256 (Delta U256)) : List (U256 × Slot) → OMap U256 (Delta U256)
  | [] => st
  | (k, s) :: rest =>
    changedStorage (if s.isChanged then OMap.insert st k (.changed s.original s.present) else st) rest

/-- /repo/src/tracing/builder/parity.rs:479-540: one iteration of the loop of
`populate_state_diff`. -/
def populateAccount {ε : Type} (db : DB ε) (diff : StateDiff) (addr : Address) (acc : Account) :
    Except ε StateDiff :=
  if acc.isSelfdestructed && acc.isCreated then .ok diff
  else
    -- `state_diff.entry(addr).or_default()`
    let entry := (OMap.get? diff addr).getD {}
    if acc.isCreated then
      .ok (OMap.insert diff addr
        { balance := .added acc.info.balance
          nonce := .added acc.info.nonce
          code := .added ((loadAccountCode db acc.info).getD [])
          storage := addedStorage entry.storage acc.storage })
    else
      match db.account addr with
      | .error e => .error e
      | .ok dbAcc =>
        let storage := changedStorage entry.storage acc.storage
        if storage.isEmpty && dbAcc.eq acc.info && !acc.isSelfdestructed then
          .ok (OMap.remove diff addr)
        else
          .ok (OMap.insert diff addr
            { balance := if dbAcc.balance = acc.info.balance then .unchanged
                else .changed dbAcc.balance acc.info.balance
              code := entry.code
              nonce := if dbAcc.nonce = acc.info.nonce then .unchanged
                else .changed dbAcc.nonce acc.info.nonce
              storage := storage })

/-- /repo/src/tracing/builder/parity.rs:469-544 `populate_state_diff`. On an error the code leaves
`state_diff` partially filled behind the returned `Err`; this function returns the error only, and
`populateLeaves` says what is left. -/
def populateStateDiff {ε : Type} (db : DB ε) : StateDiff → List (Address × Account) →
    Except ε StateDiff
  | diff, [] => .ok diff
  | diff, (a, acc) :: rest =>
    match populateAccount db diff a acc with
    | .error e => .error e
    | .ok diff => populateStateDiff db diff rest

/-- /repo/src/tracing/builder/parity.rs:469-544 `populate_state_diff`, with what is left in the `state_diff` that was
passed by reference. An iteration fails at line 505 only, when `state_diff.entry(addr).or_default()` (line 486) has
already put an entry there. -/
def populateLeaves {ε : Type} (db : DB ε) : StateDiff → List (Address × Account) → StateDiff × Option ε
  | diff, [] => (diff, none)
  | diff, (a, acc) :: rest =>
    match populateAccount db diff a acc with
    | .error e => (OMap.insert diff a ((OMap.get? diff a).getD {}), some e)
    | .ok diff => populateLeaves db diff rest

/-! ### Geth prestate -/

/-- alloy `AccountState`. -/
structure AccountState where
  balance : Option U256 := none
  code : Option Bytes := none
  nonce : Option Nat := none
  storage : OMap U256 U256 := []
  deriving DecidableEq, Repr, Inhabited

/-- alloy `AccountState::from_account_info`. -/
def AccountState.fromAccountInfo (nonce : Nat) (balance : U256) (code : Option Bytes) :
    AccountState where
  balance := some balance
  code := code.filter (fun c => !c.isEmpty)
  nonce := if nonce ≠ 0 then some nonce else none
  storage := []

/-- alloy `AccountState::remove_matching_account_info`. -/
def AccountState.removeMatching (s other : AccountState) : AccountState :=
  { s with
    balance := if s.balance = other.balance then none else s.balance
    nonce := if s.nonce = other.nonce then none else s.nonce
    code := if s.code = other.code then none else s.code }

/-- alloy `PreStateFrame`, with `PreStateMode` and `DiffMode`. -/
inductive PreStateFrame where
  | default (accounts : OMap Address AccountState)
  | diff (pre post : OMap Address AccountState)
  deriving DecidableEq, Repr

/-- /repo/src/tracing/builder/geth.rs:218-221, and 244-249 for `f` the original or present value. -/
def insertSlots (f : Slot → U256) (st : OMap U256 U256) : List (U256 × Slot) → OMap U256 U256
  | [] => st
  | (k, s) :: rest => insertSlots f (OMap.insert st k (f s)) rest

/-- /repo/src/tracing/builder/geth.rs:209-226: the loop of default mode. -/
def prestateDefault {ε : Type} (db : DB ε) : OMap Address AccountState → List (Address × Account) →
    Except ε (OMap Address AccountState)
  | m, [] => .ok m
  | m, (a, acc) :: rest =>
    match db.account a with
    | .error e => .error e
    | .ok dbAcc =>
      let s := AccountState.fromAccountInfo dbAcc.nonce dbAcc.balance (loadAccountCode db dbAcc)
      prestateDefault db (OMap.insert m a
        { s with storage := insertSlots Slot.original s.storage acc.storage }) rest

/-- The changed slots of an account, geth.rs:245. /repo/src/tracing/builder. -/
def Account.changedSlots (acc : Account) : List (U256 × Slot) :=
  acc.storage.filter (fun e => e.2.isChanged)

/-- /repo/src/tracing/builder/geth.rs:228-267: the loop of diff mode. `kinds` is
`account_change_kinds` with the two `AccountChangeKind`s as booleans (created, selfdestructed). -/
def prestateDiffLoop {ε : Type} (db : DB ε) :
    OMap Address AccountState → OMap Address AccountState → OMap Address (Bool × Bool) →
    List (Address × Account) →
    Except ε (OMap Address AccountState × OMap Address AccountState × OMap Address (Bool × Bool))
  | pre, post, kinds, [] => .ok (pre, post, kinds)
  | pre, post, kinds, (a, acc) :: rest =>
    match db.account a with
    | .error e => .error e
    | .ok dbAcc =>
      let preState := AccountState.fromAccountInfo dbAcc.nonce dbAcc.balance (loadAccountCode db dbAcc)
      let postState := AccountState.fromAccountInfo acc.info.nonce acc.info.balance acc.info.code
      let preState := { preState with
        storage := insertSlots Slot.original preState.storage acc.changedSlots }
      let postState := { postState with
        storage := insertSlots Slot.present postState.storage acc.changedSlots }
      prestateDiffLoop db (OMap.insert pre a preState) (OMap.insert post a postState)
        (OMap.insert kinds a (acc.isCreated, acc.isSelfdestructed)) rest

/-- alloy `DiffMode::retain_changed`: drop the accounts that are equal in `pre` and `post`. -/
def retainChanged (pre post : OMap Address AccountState) :
    OMap Address AccountState × OMap Address AccountState :=
  (List.filter (fun e : Address × AccountState => OMap.get? post e.1 ≠ some e.2) pre,
   List.filter (fun e : Address × AccountState => OMap.get? pre e.1 ≠ some e.2) post)

/-- alloy `DiffMode::remove_zero_storage_values`, for one side. -/
def removeZero (m : OMap Address AccountState) : OMap Address AccountState :=
  m.map (fun e => (e.1, { e.2 with storage := e.2.storage.filter (fun kv => kv.2 ≠ 0) }))

/-- /repo/src/tracing/builder/geth.rs:279-303 `diff_traces`. -/
def diffTraces (pre post : OMap Address AccountState) (kinds : OMap Address (Bool × Bool)) :
    OMap Address AccountState × OMap Address AccountState :=
  let post := (post.filter (fun e => !((OMap.get? kinds e.1).map (·.2)).getD false)).map
    (fun e => match OMap.get? pre e.1 with
      | some p => (e.1, e.2.removeMatching p)
      | none => e)
  let pre := pre.filter (fun e => ((OMap.get? kinds e.1).map (fun k => !k.1)).getD true)
  (pre, post)

/-- /repo/src/tracing/builder/geth.rs:201-275 `geth_prestate_traces`. -/
def gethPrestateTraces {ε : Type} (db : DB ε) (state : List (Address × Account))
    (cfg : PreStateConfig) : Except ε PreStateFrame :=
  if cfg.isDefaultMode then
    match prestateDefault db [] state with
    | .error e => .error e
    | .ok m => .ok (.default m)
  else
    match prestateDiffLoop db [] [] [] state with
    | .error e => .error e
    | .ok (pre, post, kinds) =>
      let r := retainChanged pre post
      let r := diffTraces (removeZero r.1) (removeZero r.2) kinds
      .ok (.diff r.1 r.2)

end Verif
