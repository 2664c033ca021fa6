import Verif.Spec.Vm
/-! Which instructions a `vmTrace` lists in all, and which ones the transaction executed. -/
namespace Verif.Spec
open Parity (VmTrace VmInstruction)

mutual
/-- The entries of a trace and of all traces below it, read from the top: an entry, then the trace below it,
then the next entry. Of an entry: position, opcode and cost. -/
def vmEntries : VmTrace → List (Nat × OpCode × Nat)
  | .mk _ ops => vmEntriesAll ops
/-- The same for a list of entries. -/
def vmEntriesAll : List VmInstruction → List (Nat × OpCode × Nat)
  | [] => []
  | .mk pc cost _ none op :: rest => (pc, op, cost) :: vmEntriesAll rest
  | .mk pc cost _ (some sub) op :: rest => (pc, op, cost) :: vmEntries sub ++ vmEntriesAll rest
end

/-- Position, opcode and cost of an instruction; one that was never finished cost nothing. -/
def costOf (a : Instr) : Nat × OpCode × Nat :=
  (a.before.pc, a.before.op,
    match a.after with
    | none => 0
    | some (i', _) => a.before.gas.remaining - i'.gas.remaining)

/-- The transaction in which the STOP special case of C29 strikes: the frame entered last ends with a STOP
and some shown frame begins with one. -/
def StopStrikes (cfg : Config) (t : Tx) : Prop :=
  (∃ f, (frames t).getLast? = some f ∧ lastOp f.body = some 0) ∧
  ∃ f ∈ frames t, excluded cfg f = false ∧ firstOp f.body = some 0

/-- Calls of precompiles execute no instruction: a law of the EVM. -/
def PrecompilesRunNoCode (t : Tx) : Prop :=
  ∀ f ∈ frames t, f.hdr.isPrecompile = true → firstOp f.body = none

end Verif.Spec
