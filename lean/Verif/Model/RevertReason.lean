import Verif.Model.Geth
/-! The revert decoder that /repo/src/tracing/utils.rs:60 calls: `GenericRevertReason::decode` of
alloy-sol-types 0.7 (/repo/Cargo.toml). The library is not in /repo; the definitions below are written
from its documented behaviour and are part of the trusted base of C94 only. Everything else in the model
takes the decoder as a parameter. -/
namespace Verif
namespace Sol

/-- The number in a word as the library reads offsets and lengths without validation: the last eight
bytes, most significant first (`usize::from_be_bytes` on a 64-bit machine).
alloy-sol-types, called in /repo/src/tracing/utils.rs:58-62. -/
def asOffset (w : Bytes) : Nat := (w.drop (w.length - 8)).foldl (fun n b => n * 256 + b.toNat) 0

/-- The next word of the buffer; an error (`none`) when fewer than 32 bytes are left.
alloy-sol-types, called in /repo/src/tracing/utils.rs:58-62. -/
def takeWord (buf : Bytes) : Option Bytes := if 32 ≤ buf.length then some (buf.take 32) else none

/-- Decoding of the parameter list `(string)` to the bytes of the string: an offset word, at the offset a
length word, then that many bytes. Errors are `none`; the padding is not looked at.
alloy-sol-types, called in /repo/src/tracing/utils.rs:58-62. -/
def decodeString (buf : Bytes) : Option Bytes := do
  let w ← takeWord buf
  let child ← if asOffset w ≤ buf.length then some (buf.drop (asOffset w)) else none
  let l ← takeWord child
  if 32 + asOffset l ≤ child.length then some ((child.drop 32).take (asOffset l)) else none

/-- The value of a word as a number of 256 bits. alloy-sol-types, called in /repo/src/tracing/utils.rs:58-62. -/
def wordU256 (w : Bytes) : U256 := BitVec.ofNat 256 (w.foldl (fun n b => n * 256 + b.toNat) 0)

/-- `ContractError::abi_decode(data, false)`: the selectors of `Error(string)` and `Panic(uint256)`; any
other is an error. `lossy` is `String::from_utf8_lossy`.
alloy-sol-types, called in /repo/src/tracing/utils.rs:58-62. -/
def abiDecode (lossy : Bytes → String) (out : Bytes) : Option ContractError :=
  if out.length < 4 then none
  else if out.take 4 = [0x08, 0xc3, 0x79, 0xa0] then (decodeString (out.drop 4)).map (.revert <| lossy ·)
  else if out.take 4 = [0x4e, 0x48, 0x7b, 0x71] then
    (takeWord (out.drop 4)).map (.panic <| wordU256 ·)
  else none

/-- `GenericRevertReason::decode`: a contract error if one can be decoded, else the data as text if it is
valid UTF-8. alloy-sol-types, called in /repo/src/tracing/utils.rs:58-62. -/
def decode (lossy : Bytes → String) (out : Bytes) : Option RevertReason :=
  match abiDecode lossy out with
  | some e => some (.contractError e)
  | none => (String.fromUTF8? ⟨out.toArray⟩).map .rawString

/-- The decoder used by the crate. `display`, the presentation of a panic, stays a parameter.
alloy-sol-types, called in /repo/src/tracing/utils.rs:58-62. -/
def decoder (lossy : Bytes → String) (display : ContractError → String) : RevertDecoder where
  decode := decode lossy
  display := display

end Sol
end Verif
