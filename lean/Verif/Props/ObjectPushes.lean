import Verif.Props.Config
/-!
# C55 for code in the EVM object format

The object format (EIPs 663, 4200, 4750, 7069, 7480, 7620) adds instructions that legacy code does not have.
-/
namespace Verif.Props

/-- Items an instruction of code in the object format leaves on the stack, if it completes within the
frame; `imm` is its immediate operand. DATALOAD, DATALOADN, DATASIZE and RETURNDATALOAD push an item. DUPN
and SWAPN work like the `DUPn` and `SWAPn` with `n = imm + 1`, and EXCHANGE swaps the items `n + 1` and
`n + m + 1` from the top, where `n - 1` and `m - 1` are the halves of the immediate byte: these by the
parity convention of the touched items. The jumps, CALLF, RETF, JUMPF, DATACOPY and RETURNCONTRACT push
nothing. The other instructions are as in legacy code. -/
def objectPushes (op : Nat) (imm : Nat) : Nat :=
  if op = 0xd0 ∨ op = 0xd1 ∨ op = 0xd2 ∨ op = 0xf7 then 1
  else if op = 0xe6 ∨ op = 0xe7 then (imm + 1) + 1
  else if op = 0xe8 then (imm / 16 + 1) + (imm % 16 + 1) + 1
  else evmPushes op

/-- The opcodes counted as pushing nothing although they do. -/
def uncounted : List OpCode :=
  [0x5c, 0x49, 0x4a, 0xd0, 0xd1, 0xd2, 0xe6, 0xe7, 0xe8, 0xf7]

/-- **C55, object format.** In code in the object format the count is the EVM's for all opcodes but
TLOAD, BLOBHASH, BLOBBASEFEE and the seven that the format adds and that push items (DATALOAD, DATALOADN,
DATASIZE, DUPN, SWAPN, EXCHANGE and RETURNDATALOAD): these are counted as pushing nothing, whatever their
immediate operand. -/
theorem C55_object_format (op : OpCode) (imm : Nat) :
    (Op.stackPushCount op = objectPushes op.toNat imm ↔ op ∉ uncounted) ∧
    (op ∈ uncounted → Op.stackPushCount op = 0 ∧ 0 < objectPushes op.toNat imm) := by
  have hin : op ∈ uncounted → Op.stackPushCount op = 0 ∧ 0 < objectPushes op.toNat imm := by
    intro h
    simp only [uncounted, List.mem_cons, List.not_mem_nil, or_false] at h
    rcases h with rfl | rfl | rfl | rfl | rfl | rfl | rfl | rfl | rfl | rfl <;>
      refine ⟨by decide, ?_⟩ <;> simp [objectPushes, evmPushes]
  refine ⟨⟨fun h hm => ?_, fun h => ?_⟩, hin⟩
  · have := hin hm
    omega
  · simp only [uncounted, List.mem_cons, List.not_mem_nil, or_false, not_or] at h
    obtain ⟨h1, h2, h3, h4, h5, h6, h7, h8, h9, h10⟩ := h
    have ne : ∀ x : OpCode, op ≠ x → op.toNat ≠ x.toNat := fun x hx e => hx (UInt8.toNat_inj.1 e)
    rw [C55_push_counts_partial op h1 h2 h3]
    have e4 : op.toNat ≠ 0xd0 := ne _ h4
    have e5 : op.toNat ≠ 0xd1 := ne _ h5
    have e6 : op.toNat ≠ 0xd2 := ne _ h6
    have e7 : op.toNat ≠ 0xe6 := ne _ h7
    have e8 : op.toNat ≠ 0xe7 := ne _ h8
    have e9 : op.toNat ≠ 0xe8 := ne _ h9
    have e10 : op.toNat ≠ 0xf7 := ne _ h10
    simp [objectPushes, e4, e5, e6, e7, e8, e9, e10]

/-- ADD and CALLF are counted right; DUPN with immediate 3 touches five items and is counted as none. -/
example : (0x01 : OpCode) ∉ uncounted ∧ (0xe3 : OpCode) ∉ uncounted ∧
    objectPushes (0xe6 : OpCode).toNat 3 = 5 ∧ Op.stackPushCount 0xe6 = 0 := by decide

end Verif.Props
