import Verif.Spec.Standalone
import Verif.Spec.ExtCalls
/-! The accounts and slots the instructions of an execution access, as the gas rules have it. -/
namespace Verif.Spec

/-- The address in a word: its lower twenty bytes. -/
def addressIn (w : U256) : Address := BitVec.ofNat 160 w.toNat

/-- The accounts whose access an instruction is charged for (EIP-2929): the operand on top of the stack of
BALANCE, EXTCODESIZE, EXTCODECOPY, EXTCODEHASH, SELFDESTRUCT and of EXTCALL, EXTDELEGATECALL and EXTSTATICCALL
(EIP-7069), the second one of CALL, CALLCODE, DELEGATECALL and STATICCALL; and for a call the account to
which the called one delegates (EIP-7702), which `delegate` gives. -/
def accounts (delegate : Address → Option Address) (i : Interp) : List Address :=
  if i.op ∈ ([0x31, 0x3b, 0x3c, 0x3f, 0xff] : List OpCode) then
    i.stack.reverse[0]?.toList.map addressIn
  else if i.op ∈ ([0xf1, 0xf2, 0xf4, 0xfa] : List OpCode) then
    i.stack.reverse[1]?.toList.flatMap (fun w => addressIn w :: (delegate (addressIn w)).toList)
  else if isExtCall i.op then
    i.stack.reverse[0]?.toList.flatMap (fun w => addressIn w :: (delegate (addressIn w)).toList)
  else []

/-- The list has all that the instructions access, except accounts that are accessed at no extra charge
anyway. -/
def Complete (delegate : Address → Option Address) (free : List Address) (es : List Event)
    (r : List (Address × List U256)) : Prop :=
  ∀ i c, Event.step i c ∈ es →
    (∀ a ∈ accounts delegate i, a ∈ free ∨ a ∈ r.map Prod.fst) ∧
    (i.op = 0x54 ∨ i.op = 0x55 → ∀ k, i.stack.getLast? = some k →
      ∃ ks, (i.contract, ks) ∈ r ∧ k ∈ ks)

/-- The accounts that an instruction accesses and that are not its operand under one of the opcodes of
legacy code: the operand of EXTCALL and its relatives, and the account a called one delegates to. -/
def hiddenAccounts (delegate : Address → Option Address) (i : Interp) : List Address :=
  if i.op ∈ ([0xf1, 0xf2, 0xf4, 0xfa] : List OpCode) then
    i.stack.reverse[1]?.toList.flatMap (fun w => (delegate (addressIn w)).toList)
  else if isExtCall i.op then
    i.stack.reverse[0]?.toList.flatMap (fun w => addressIn w :: (delegate (addressIn w)).toList)
  else []

end Verif.Spec
