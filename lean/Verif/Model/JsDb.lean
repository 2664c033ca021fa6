import Verif.Model.JsValues
/-! Model of the database object of the JavaScript tracer: /repo/src/tracing/js/bindings.rs:734-913. -/
namespace Verif

/-- revm `AccountInfo` as the database object reads it, with `code` (its original bytes), and for
accounts of the journaled state whether revm loaded it as not existing and has not touched it since.
Addresses, slots and hashes are their bytes. -/
structure JsAccount where
  balance : U256
  nonce : Nat
  codeHash : Bytes
  code : Option Bytes
  notExisting : Bool
  deriving DecidableEq

/-- revm `EvmState` (the journaled state): the loaded accounts, and the present values of the loaded
slots. -/
structure JsState where
  account : Bytes → Option JsAccount
  slot : Bytes → Bytes → Option U256

/-- revm `Bytecode` (legacy): raw, or analysed, which keeps the code with zeros behind it and its
original length. -/
inductive JsBytecode where
  | raw (code : Bytes)
  | analyzed (padded : Bytes) (originalLen : Nat)
  deriving DecidableEq

/-- revm `Bytecode::bytecode`. -/
def JsBytecode.bytecode : JsBytecode → Bytes
  | .raw code => code
  | .analyzed padded _ => padded

/-- revm `Bytecode::original_bytes`. -/
def JsBytecode.originalBytes : JsBytecode → Bytes
  | .raw code => code
  | .analyzed padded n => padded.take n

/-- revm `to_analysed` (without the jump table): 33 zeros are added to raw code. -/
def JsBytecode.analyze : JsBytecode → JsBytecode
  | .raw code => .analyzed (code ++ List.replicate 33 0) code.length
  | b => b

/-- A `DatabaseRef`: `none` is an error. /repo/src/tracing/js/bindings.rs:937-962. -/
structure JsDatabase where
  basic : Bytes → Option (Option JsAccount)
  codeByHash : Bytes → Option JsBytecode
  storage : Bytes → Bytes → Option U256

/-- revm `KECCAK_EMPTY`. -/
def keccakEmpty : Bytes :=
  [0xc5, 0xd2, 0x46, 0x01, 0x86, 0xf7, 0x23, 0x3c, 0x92, 0x7e, 0x7d, 0xb2, 0xdc, 0xc7, 0x03, 0xc0,
   0xe5, 0x00, 0xb6, 0x53, 0xca, 0x82, 0x27, 0x3b, 0x7b, 0xfa, 0xd8, 0x04, 0x5d, 0x85, 0xa4, 0x70]

/-- /repo/src/tracing/js/bindings.rs:337-339 `StateRef::get_account`. -/
def stateRefAccount (state : Option JsState) (a : Bytes) : Option JsAccount :=
  match state with
  | none => none
  | some st => st.account a

/-- /repo/src/tracing/js/bindings.rs:771-786 `EvmDbRef::read_basic`; the two references are `none` when
their guard is gone. The inner `none` of the result is an exception. -/
def jsReadBasic (state : Option JsState) (db : Option JsDatabase) (address : JsBuf) :
    R (Option (Option JsAccount)) :=
  match fromBuf address with
  | none => .ok none
  | some buf =>
    match bytesToAddress buf with
    | .error p => .error p
    | .ok a =>
      match stateRefAccount state a with
      | some acc => .ok (some (some acc))
      | none =>
        match db with
        | none => .ok none
        | some d =>
          match d.basic a with
          | some acc => .ok (some acc)
          | none => .ok none

/-- /repo/src/tracing/js/bindings.rs:835-847 `exists`. -/
def jsExists (state : Option JsState) (db : Option JsDatabase) (address : JsBuf) :
    R (Option Bool) :=
  match jsReadBasic state db address with
  | .error p => .error p
  | .ok none => .ok none
  | .ok (some acc) => .ok (some acc.isSome)

/-- /repo/src/tracing/js/bindings.rs:849-862 `getBalance` (`to_bigint` modelled as the number). -/
def jsGetBalance (state : Option JsState) (db : Option JsDatabase) (address : JsBuf) :
    R (Option U256) :=
  match jsReadBasic state db address with
  | .error p => .error p
  | .ok none => .ok none
  | .ok (some acc) => .ok (some ((acc.map JsAccount.balance).getD 0))

/-- /repo/src/tracing/js/bindings.rs:864-876 `getNonce`. -/
def jsGetNonce (state : Option JsState) (db : Option JsDatabase) (address : JsBuf) :
    R (Option Nat) :=
  match jsReadBasic state db address with
  | .error p => .error p
  | .ok none => .ok none
  | .ok (some acc) => .ok (some ((acc.map JsAccount.nonce).getD 0))

/-- /repo/src/tracing/js/bindings.rs:788-804 `EvmDbRef::read_code`. -/
def jsGetCode (state : Option JsState) (db : Option JsDatabase) (address : JsBuf) :
    R (Option Bytes) :=
  match jsReadBasic state db address with
  | .error p => .error p
  | .ok none => .ok none
  | .ok (some acc) =>
    let codeHash := (acc.map JsAccount.codeHash).getD keccakEmpty
    if codeHash = keccakEmpty then .ok (some [])
    else
      match db with
      | none => .ok none
      | some d => .ok ((d.codeByHash codeHash).map JsBytecode.bytecode)

/-- /repo/src/tracing/js/bindings.rs:806-830 `EvmDbRef::read_state`; the value as a word. -/
def jsGetState (db : Option JsDatabase) (address slot : JsBuf) : R (Option U256) :=
  match fromBuf address with
  | none => .ok none
  | some abuf =>
    match bytesToAddress abuf with
    | .error p => .error p
    | .ok a =>
      match fromBuf slot with
      | none => .ok none
      | some sbuf =>
        match bytesToHash sbuf with
        | .error p => .error p
        | .ok k =>
          match db with
          | none => .ok none
          | some d => .ok (d.storage a k)

end Verif
