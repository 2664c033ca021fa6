import Verif.Spec.Vm
/-! What an entry of the `vmTrace` should say about its instruction, and what it says. -/
namespace Verif.Spec

/-- The bytes `data` lie in the memory at offset `off`. -/
def MemoryHas (memory : Bytes) (off : Nat) (data : Bytes) : Prop :=
  off + data.length ≤ memory.length ∧ (memory.drop off).take data.length = data

/-- The key and the value of an SSTORE (0x55), the two topmost items of its stack. -/
def stored (a : Instr) : Option (U256 × U256) :=
  match a.before.op.toNat, a.before.stack.reverse with
  | 0x55, key :: value :: _ => some (key, value)
  | _, _ => none

/-- The entry without its sub-trace. -/
def noSub : Parity.VmInstruction → Parity.VmInstruction
  | .mk pc cost ex _ op => .mk pc cost ex none op

/-- The entry the code makes of an instruction, with the memory `m` shown for it, without sub-trace. -/
def vmEntry (a : Instr) (m : Bytes) : Parity.VmInstruction :=
  match a.after with
  | some (i', _) =>
    .mk a.before.pc (a.before.gas.remaining - i'.gas.remaining)
      ⟨a.before.gas.remaining, topItems (Op.stackPushCount a.before.op) i'.stack, some (m.length, m), none⟩
      none a.before.op
  | none => .mk a.before.pc 0 ⟨a.before.gas.remaining, [], some (m.length, m), none⟩ none a.before.op

end Verif.Spec
