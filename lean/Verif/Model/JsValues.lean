import Verif.Revm
/-! Model of the value level of the JavaScript tracer: /repo/src/tracing/js/builtins.rs and the memory,
stack and database objects of /repo/src/tracing/js/bindings.rs.

The JavaScript engine (boa) is not modelled: the functions below are the native closures /repo gives
to it. A closure's result is `none` when it throws (error messages are left out). -/
namespace Verif

/-! ### Numbers -/

/-- A JavaScript number (an `f64`): NaN, an infinity, or a finite number. Every finite double is a
rational; the model admits every rational, and has one zero (both zeros behave alike below).
/repo/src/tracing/js/bindings.rs:253-325. -/
inductive JsNum where
  | nan
  | inf (negative : Bool)
  | fin (q : Rat)

namespace JsNum

/-- `usize::MAX` on a 64-bit target. /repo/src/tracing/js/bindings.rs:253-325. -/
def usizeMax : Nat := 2 ^ 64 - 1

/-- Rust's `x as usize`: truncates, saturates, and maps NaN to zero.
/repo/src/tracing/js/bindings.rs:253-325. -/
def asUsize : JsNum → Nat
  | .nan => 0
  | .inf true => 0
  | .inf false => usizeMax
  | .fin q => if q < 0 then 0 else min q.floor.toNat usizeMax

/-- `x < 0.` on `f64`. /repo/src/tracing/js/bindings.rs:253-325. -/
def isNeg : JsNum → Bool
  | .nan => false
  | .inf negative => negative
  | .fin q => decide (q < 0)

/-- `x < y` on `f64`. /repo/src/tracing/js/bindings.rs:253-325. -/
def lt : JsNum → JsNum → Bool
  | .nan, _ => false
  | _, .nan => false
  | .inf true, .inf true => false
  | .inf true, _ => true
  | _, .inf true => false
  | .inf false, _ => false
  | .fin _, .inf false => true
  | .fin p, .fin q => decide (p < q)

/-- The integer `n`. /repo/src/tracing/js/bindings.rs:253-325. -/
def ofNat (n : Nat) : JsNum := .fin n

end JsNum

/-! ### Conversions -/

/-- Big-endian bytes of the low `8 * n` bits. Used in /repo/src/tracing/js/builtins.rs:170-197. -/
def beBytes : Nat → Nat → Bytes
  | 0, _ => []
  | n + 1, x => beBytes n (x / 256) ++ [UInt8.ofNat (x % 256)]

/-- `copy_from_slice` into `arr[start..]`: panics unless the lengths agree.
Used in /repo/src/tracing/js/builtins.rs:170-197. -/
def copyAt (arr : Bytes) (start : Nat) (src : Bytes) : R Bytes :=
  if start ≤ arr.length then
    if arr.length - start = src.length then .ok (arr.take start ++ src) else .error .index
  else .error .index

/-- /repo/src/tracing/js/builtins.rs:170-181 `bytes_to_address` (`len` 20) and 186-197
`bytes_to_hash` (`len` 32): the bytes of the result. -/
def bytesToFixed (len : Nat) (buf : Bytes) : R Bytes :=
  let arr : Bytes := List.replicate len 0
  let buf := if arr.length < buf.length then buf.drop (buf.length - arr.length) else buf
  copyAt arr (arr.length - buf.length) buf

/-- /repo/src/tracing/js/builtins.rs:170-181 `bytes_to_address`, as bytes. -/
def bytesToAddress (buf : Bytes) : R Bytes := bytesToFixed 20 buf

/-- /repo/src/tracing/js/builtins.rs:186-197 `bytes_to_hash`, as bytes. -/
def bytesToHash (buf : Bytes) : R Bytes := bytesToFixed 32 buf

/-! ### Hex -/

/-- A hexadecimal digit, either case. /repo/src/tracing/js/builtins.rs:288-297. -/
def hexVal (c : Char) : Option Nat :=
  if '0' ≤ c ∧ c ≤ '9' then some (c.toNat - 48)
  else if 'a' ≤ c ∧ c ≤ 'f' then some (c.toNat - 87)
  else if 'A' ≤ c ∧ c ≤ 'F' then some (c.toNat - 55)
  else none

/-- Pairs of digits. /repo/src/tracing/js/builtins.rs:288-297. -/
def hexPairs : List Char → Option Bytes
  | [] => some []
  | [_] => none
  | a :: b :: rest =>
    match hexVal a, hexVal b, hexPairs rest with
    | some x, some y, some bs => some (UInt8.ofNat (16 * x + y) :: bs)
    | _, _, _ => none

/-- alloy's `hex::decode`: an optional `0x`, then pairs of digits. -/
def hexDecode (s : List Char) : Option Bytes :=
  match s with
  | '0' :: 'x' :: rest => hexPairs rest
  | s => hexPairs s

/-! ### Buffers -/

/-- The values `from_buf_value` looks at: a typed array or an array (its elements as numbers, `none`
if an element cannot be converted), an `ArrayBuffer` (`none` if detached), a string (its characters,
`none` if it is not valid unicode), anything else. /repo/src/tracing/js/builtins.rs:92-133. -/
inductive JsBuf where
  | array (elems : List (Option JsNum))
  | arrayBuffer (data : Option Bytes)
  | string (s : Option (List Char))
  | other

/-- Rust's `x as u8`: truncates, saturates, and maps NaN to zero. /repo/src/tracing/js/builtins.rs:92-133. -/
def JsNum.asU8 : JsNum → UInt8
  | .nan => 0
  | .inf true => 0
  | .inf false => 255
  | .fin q => if q < 0 then 0 else UInt8.ofNat (min q.floor.toNat 255)

/-- /repo/src/tracing/js/builtins.rs:98-101, 118-121: the loop over the elements. -/
def arrayBytes : List (Option JsNum) → Option Bytes
  | [] => some []
  | none :: _ => none
  | some x :: rest =>
    match arrayBytes rest with
    | none => none
    | some bs => some (x.asU8 :: bs)

/-- /repo/src/tracing/js/builtins.rs:92-133 `from_buf_value`, with 288-301 `hex_decode_js_string`. -/
def fromBuf : JsBuf → Option Bytes
  | .array elems => arrayBytes elems
  | .arrayBuffer data => data
  | .string none => none
  | .string (some s) => hexDecode s
  | .other => none

/-- A `Uint8Array` of the bytes, as a value that can be passed to the functions again
(`to_byte_array`, builtins.rs:152-157). /repo/src/tracing/js. -/
def JsBuf.ofBytes (b : Bytes) : JsBuf := .array (b.map (fun x => some (.ofNat x.toNat)))

/-- /repo/src/tracing/js/builtins.rs:264-269 `toAddress`. -/
def jsToAddress (v : JsBuf) : R (Option Bytes) :=
  match fromBuf v with
  | none => .ok none
  | some buf =>
    match bytesToAddress buf with
    | .error p => .error p
    | .ok a => .ok (some a)

/-- /repo/src/tracing/js/builtins.rs:272-277 `toWord`. -/
def jsToWord (v : JsBuf) : R (Option Bytes) :=
  match fromBuf v with
  | none => .ok none
  | some buf =>
    match bytesToHash buf with
    | .error p => .error p
    | .ok a => .ok (some a)

/-- A lower case hexadecimal digit. /repo/src/tracing/js/builtins.rs:280-285. -/
def jsHexDigit (n : Nat) : Char := Nat.digitChar n

/-- /repo/src/tracing/js/builtins.rs:280-285 `toHex`: `hex::encode`, without prefix. -/
def jsToHex (v : JsBuf) : Option (List Char) :=
  match fromBuf v with
  | none => none
  | some buf =>
    some (buf.flatMap (fun x => [jsHexDigit (x.toNat / 16), jsHexDigit (x.toNat % 16)]))

/-- /repo/src/tracing/js/builtins.rs:310-316: the `isPrecompiled` closure over a set of addresses
(as bytes). -/
def jsIsPrecompiled (precompiles : List Bytes) (v : JsBuf) : R (Option Bool) :=
  match fromBuf v with
  | none => .ok none
  | some buf =>
    match bytesToAddress buf with
    | .error p => .error p
    | .ok a => .ok (some (precompiles.contains a))

/-! ### Memory and stack objects

A guarded reference is `some` value while its guard is alive and `none` afterwards
(`Verif.Model.JsGuards`). -/

/-- revm `SharedMemory::slice(offset, size)`: out of bounds is a panic in debug builds and undefined
behaviour in release builds. -/
def memSlice (m : Bytes) (offset size : Nat) : R Bytes :=
  if offset + size ≤ m.length then .ok ((m.drop offset).take size) else .error .index

/-- /repo/src/tracing/js/bindings.rs:246-248 `MemoryRef::len`. -/
def memRefLen (mem : Option Bytes) : Nat := (mem.map List.length).getD 0

/-- `mem.with_inner(|mem| mem.slice(offset, size).to_vec()).unwrap_or_default()`.
/repo/src/tracing/js/bindings.rs:253-325. -/
def memRefSlice (mem : Option Bytes) (offset size : Nat) : R Bytes :=
  match mem with
  | none => .ok []
  | some m => memSlice m offset size

/-- /repo/src/tracing/js/bindings.rs:267-286 the `slice` closure. -/
def jsMemorySlice (mem : Option Bytes) (start end_ : JsNum) : R (Option Bytes) :=
  if end_.lt start || start.isNeg || decide (end_.asUsize < memRefLen mem) then .ok none
  else if end_.asUsize < start.asUsize then .error .arith
  else
    match memRefSlice mem start.asUsize (end_.asUsize - start.asUsize) with
    | .error p => .error p
    | .ok b => .ok (some b)

/-- /repo/src/tracing/js/bindings.rs:296-307 the `getUint` closure. `offset + 32` is computed first
and may overflow. -/
def jsMemoryGetUint (mem : Option Bytes) (offset : JsNum) : R (Option Bytes) :=
  if JsNum.usizeMax < offset.asUsize + 32 then .error .arith
  else if decide (memRefLen mem < offset.asUsize + 32) || offset.isNeg then .ok none
  else
    match memRefSlice mem offset.asUsize 32 with
    | .error p => .error p
    | .ok b => .ok (some b)

/-- /repo/src/tracing/js/bindings.rs:431-449 `StackRef::peek`; the stack is bottom first. `to_bigint`
of the item is modelled as the item. -/
def stackRefPeek (stack : Option (List U256)) (idx : Nat) : Option U256 :=
  match stack with
  | none => none
  | some s => s.reverse[idx]?

/-- /repo/src/tracing/js/bindings.rs:465-476 the `peek` closure; `len` is the length captured when the
object was made (line 453). -/
def jsStackPeek (len : Nat) (stack : Option (List U256)) (i : JsNum) : Option U256 :=
  if decide (len ≤ i.asUsize) || i.isNeg then none else stackRefPeek stack i.asUsize

/-- /repo/src/tracing/js/bindings.rs:454-459 the `length` closure of the stack (and 254-261 of the
memory): the captured length. -/
def jsLength {α : Type} (len : Nat) (_handle : Option (List α)) : Nat := len

end Verif
