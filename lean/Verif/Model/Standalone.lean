import Verif.Model.AMap
import Verif.Model.OMap
import Verif.Model.Opcode
/-! The small inspectors: /repo/src/opcode.rs, /repo/src/tracing/opcount.rs,
/repo/src/tracing/fourbyte.rs, /repo/src/access_list.rs, /repo/src/transfer.rs. -/
namespace Verif

/-- Hooks in sequence; the first panic aborts.
The order of the calls is revm's; the hooks are in /repo/src/opcode.rs:58-80 and the like. -/
def runHooks {σ : Type} (hook : σ → Event → R σ) : σ → List Event → R σ
  | s, [] => .ok s
  | s, e :: es =>
    match hook s e with
    | .error p => .error p
    | .ok s' => runHooks hook s' es

/-- `+=` on a `u64`: overflow panics in debug builds (and wraps in release builds).
/repo/src/opcode.rs:65, 76, /repo/src/tracing/fourbyte.rs:59. -/
def addU64 (a b : Nat) : R Nat := if a + b < 2 ^ 64 then .ok (a + b) else .error .arith

/-- `*map.entry(k).or_default() += n`. /repo/src/opcode.rs:65, 76, /repo/src/tracing/fourbyte.rs:59. -/
def addEntry {κ : Type} [DecidableEq κ] (m : AMap κ Nat) (k : κ) (n : Nat) : R (AMap κ Nat) :=
  match addU64 ((AMap.get? m k).getD 0) n with
  | .error p => .error p
  | .ok v => .ok (AMap.insert m k v)

/-! ### OpcodeGasInspector -/

/-- /repo/src/opcode.rs:9-17. -/
structure OpcodeGas where
  counts : AMap OpCode Nat := []
  gas : AMap OpCode Nat := []
  last : Option (OpCode × Nat) := none
  deriving DecidableEq, Repr

namespace OpcodeGas

/-- /repo/src/opcode.rs:37-42 `opcode_iter`, in the order of the representation (the order of the
`HashMap` is arbitrary). -/
def opcodeIter (s : OpcodeGas) : List (OpCode × (Nat × Nat)) :=
  s.counts.map (fun e => (e.1, (e.2, (AMap.get? s.gas e.1).getD 0)))

/-- /repo/src/opcode.rs:56-79 `impl Inspector`. `known` is the table behind revm's `OpCode::new`. -/
def hook (known : OpCode → Bool) (s : OpcodeGas) : Event → R OpcodeGas
  | .step i _ =>
    if known i.op then
      match addEntry s.counts i.op 1 with
      | .error p => .error p
      | .ok counts => .ok { s with counts := counts, last := some (i.op, i.gas.remaining) }
    else .ok s
  | .stepEnd i _ =>
    match s.last with
    | none => .ok s
    | some (op, before) =>
      match addEntry s.gas op (before - i.gas.remaining) with
      | .error p => .error p
      | .ok gas => .ok { s with gas := gas, last := none }
  | _ => .ok s

end OpcodeGas

/-! ### OpcodeCountInspector -/

/-- /repo/src/tracing/opcount.rs:9-29: the state is the counter. -/
def opcountHook (s : Nat) : Event → R Nat
  | .step _ _ => addU64 s 1
  | _ => .ok s

/-! ### FourByteInspector -/

/-- /repo/src/tracing/fourbyte.rs:35-38: keys are the selector (four bytes) and the size. -/
abbrev FourByte := AMap (Bytes × Nat) Nat

/-- /repo/src/tracing/fourbyte.rs:47-66 `impl Inspector`. -/
def fourByteHook (s : FourByte) : Event → R FourByte
  | .call _ inp =>
    if 4 ≤ inp.input.length then
      addEntry s (inp.input.take 4, (inp.input.drop 4).length) 1
    else .ok s
  | _ => .ok s

/-- `hex::encode`: two lower case digits per byte. /repo/src/tracing/fourbyte.rs:73. -/
def hexChars (b : Bytes) : List Char :=
  b.flatMap (fun x => [Nat.digitChar (x.toNat / 16), Nat.digitChar (x.toNat % 16)])

/-- /repo/src/tracing/fourbyte.rs:75 the key, as a list of characters. -/
def fourByteKey (k : Bytes × Nat) : List Char :=
  '0' :: 'x' :: (hexChars k.1 ++ '-' :: Nat.toDigits 10 k.2)

/-- /repo/src/tracing/fourbyte.rs:68-80 `From<FourByteInspector> for FourByteFrame`; `entries` are
those of the `HashMap` in iteration order. -/
def fourByteFrame (entries : List ((Bytes × Nat) × Nat)) : AMap (List Char) Nat :=
  AMap.collect (entries.map (fun e => (fourByteKey e.1, e.2)))

/-! ### AccessListInspector -/

/-- A `BTreeSet<B256>`: its elements in order. /repo/src/access_list.rs:17. -/
abbrev Slots := OMap U256 Unit

/-- /repo/src/access_list.rs:13-20. -/
structure AccessList where
  excluded : List Address
  list : AMap Address Slots
  deriving DecidableEq, Repr

/-- `slots.into_iter().collect::<BTreeSet<_>>()`. /repo/src/access_list.rs:35-36. -/
def Slots.ofList (l : List U256) : Slots := l.foldl (fun s k => OMap.insert s k ()) []

namespace AccessList

/-- /repo/src/access_list.rs:24-38 `new`. -/
def new (provided : List (Address × List U256)) (frm to : Address) (precompiles : List Address) :
    AccessList where
  excluded := [frm, to] ++ precompiles
  list := AMap.collect (provided.map (fun e => (e.1, Slots.ofList e.2)))

/-- /repo/src/access_list.rs:42-58 `into_access_list`, `access_list`, in the order of the
representation (the order of the `HashMap` is arbitrary). -/
def result (s : AccessList) : List (Address × List U256) :=
  s.list.map (fun e => (e.1, e.2.map Prod.fst))

/-- `Address::from_word(B256::from(slot.to_be_bytes()))`: the last twenty bytes.
/repo/src/access_list.rs:82, 90. -/
def addressOfWord (w : U256) : Address := w.setWidth 160

/-- /repo/src/access_list.rs:82-85, 90-93: `if !excluded { access_list.entry(addr).or_default(); }`. -/
def touch (s : AccessList) (w : Option U256) : AccessList :=
  match w with
  | none => s
  | some w =>
    let addr := addressOfWord w
    if s.excluded.contains addr then s
    else { s with list := AMap.insert s.list addr ((AMap.get? s.list addr).getD []) }

/-- /repo/src/access_list.rs:61-99 `impl Inspector`. -/
def hook (s : AccessList) : Event → R AccessList
  | .step i _ =>
    if i.op = Op.SLOAD ∨ i.op = Op.SSTORE then
      match i.peek 0 with
      | none => .ok s
      | some slot =>
        let slots := OMap.insert ((AMap.get? s.list i.contract).getD []) slot ()
        .ok { s with list := AMap.insert s.list i.contract slots }
    else if i.op = Op.EXTCODECOPY ∨ i.op = Op.EXTCODEHASH ∨ i.op = Op.EXTCODESIZE ∨
        i.op = Op.BALANCE ∨ i.op = Op.SELFDESTRUCT then
      .ok (s.touch (i.peek 0))
    else if i.op = Op.DELEGATECALL ∨ i.op = Op.CALL ∨ i.op = Op.STATICCALL ∨ i.op = Op.CALLCODE then
      .ok (s.touch (i.peek 1))
    else .ok s
  | _ => .ok s

end AccessList

/-! ### TransferInspector -/

/-- /repo/src/transfer.rs:119-130 `TransferKind`. -/
inductive TransferKind where
  | call | create | create2 | selfDestruct
  deriving DecidableEq, Repr

/-- /repo/src/transfer.rs:106-116 `TransferOperation`. -/
structure Transfer where
  kind : TransferKind
  frm : Address
  to : Address
  value : U256
  deriving DecidableEq, Repr

/-- /repo/src/transfer.rs:46-103 `impl Inspector`; the state is the list of transfers, the flag never
changes. -/
def transferHook (internalOnly : Bool) (s : List Transfer) : Event → R (List Transfer)
  | .call c inp =>
    if internalOnly && c.depth == 0 then .ok s
    else if inp.transfersValue then .ok (s ++ [⟨.call, inp.caller, inp.targetAddress, inp.callValue⟩])
    else .ok s
  | .createEnd c inp _ address =>
    if internalOnly && c.depth == 0 then .ok s
    else match address with
      | some a =>
        .ok (s ++ [⟨match inp.scheme with
            | .Create => .create
            | .Create2 _ => .create2, inp.caller, a, inp.value⟩])
      | none => .ok s
  | .selfdestruct contract target value =>
    .ok (s ++ [⟨.selfDestruct, contract, target, value⟩])
  | _ => .ok s

end Verif
