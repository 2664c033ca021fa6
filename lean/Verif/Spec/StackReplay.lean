import Verif.Spec.VmEntries

/-!
Recomputing the stack from the opcodes and the pushed items of a `vmTrace`.
-/

namespace Verif.Spec
open Verif

/-- Items an instruction takes from the stack by the EVM specification (legacy bytecode); `DUPn` and
`SWAPn` by the parity convention (the touched items). -/
def evmPops (op : Nat) : Nat :=
  if op = 0x08 ∨ op = 0x09 then 3            -- ADDMOD, MULMOD
  else if 0x01 ≤ op ∧ op ≤ 0x0b then 2       -- arithmetic
  else if op = 0x15 ∨ op = 0x19 then 1       -- ISZERO, NOT
  else if 0x10 ≤ op ∧ op ≤ 0x1d then 2       -- comparison, bitwise
  else if op = 0x20 then 2                   -- KECCAK256
  else if op = 0x37 ∨ op = 0x39 ∨ op = 0x3e then 3   -- CALLDATACOPY, CODECOPY, RETURNDATACOPY
  else if op = 0x3c then 4                   -- EXTCODECOPY
  else if op = 0x31 ∨ op = 0x35 ∨ op = 0x3b ∨ op = 0x3f ∨ op = 0x40 ∨ op = 0x49 then 1
  else if op = 0x50 ∨ op = 0x51 ∨ op = 0x54 ∨ op = 0x56 ∨ op = 0x5c then 1
  else if op = 0x52 ∨ op = 0x53 ∨ op = 0x55 ∨ op = 0x57 ∨ op = 0x5d then 2
  else if op = 0x5e then 3                   -- MCOPY
  else if 0x80 ≤ op ∧ op ≤ 0x8f then op - 0x80 + 1   -- DUPn
  else if 0x90 ≤ op ∧ op ≤ 0x9f then op - 0x90 + 2   -- SWAPn
  else if 0xa0 ≤ op ∧ op ≤ 0xa4 then op - 0xa0 + 2   -- LOGn
  else if op = 0xf0 then 3                   -- CREATE
  else if op = 0xf1 ∨ op = 0xf2 then 7       -- CALL, CALLCODE
  else if op = 0xf4 ∨ op = 0xfa then 6       -- DELEGATECALL, STATICCALL
  else if op = 0xf5 then 4                   -- CREATE2
  else if op = 0xf3 ∨ op = 0xfd then 2       -- RETURN, REVERT
  else if op = 0xff then 1                   -- SELFDESTRUCT
  else 0

/-- The stack recomputed from opcodes and pushed items: each takes its operands away and puts its items on
top. No stack if operands are missing. -/
def replay : List U256 → List (OpCode × List U256) → Option (List U256)
  | st, [] => some st
  | st, (op, push) :: l =>
    if evmPops op.toNat ≤ st.length then replay (st.take (st.length - evmPops op.toNat) ++ push) l else none

/-- Opcode and pushed items of an entry of a `vmTrace`. -/
def opAndPush : Parity.VmInstruction → OpCode × List U256
  | .mk _ _ ex _ op => (op, ex.push)

end Verif.Spec
