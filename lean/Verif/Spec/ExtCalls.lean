import Verif.Spec.Calls
/-!
# Executions with EXTCALL, EXTDELEGATECALL and EXTSTATICCALL

revm 10 runs contracts in the EVM object format, which call others with instructions of their own. The
frames these enter are announced by the hooks `call` and `call_end` like those of CALL, so that an
execution with them is an execution tree like any other. Only the opcodes of the calling instructions
differ.
-/
namespace Verif.Spec

/-- The opcodes EXTCALL, EXTDELEGATECALL and EXTSTATICCALL. -/
def isExtCall (op : OpCode) : Bool := op == 0xf8 || op == 0xf9 || op == 0xfb

/-- The opcode of an action, if it is an instruction. -/
def opOf : Act → Option OpCode
  | .step i _ _ _ => some i.op
  | .aborted i _ => some i.op
  | _ => none

/-- Every sub-frame is entered by the instruction right before it, whose opcode (`last`) is one of those
that enter frames, EXTCALL and its relatives included. A CALL or CREATE instruction that does not enter a
frame halts its own; EXTCALL and its relatives go on when they do not enter a frame (EIP-7069). -/
def MadeByCalls : (last : Option OpCode) → Body → Prop
  | _, .nil => True
  | last, .act a rest =>
    ((∃ op, last = some op ∧ entersFrame op = true) → rest.hasSub = false) ∧ MadeByCalls (opOf a) rest
  | last, .sub _ b _ rest =>
    (∃ op, last = some op ∧ (entersFrame op = true ∨ isExtCall op = true)) ∧
      MadeByCalls none b ∧ MadeByCalls none rest

/-- The bodies of the frames that were entered right after an EXTCALL, EXTDELEGATECALL or
EXTSTATICCALL instruction, at any depth. -/
def extBodies : (last : Option OpCode) → Body → List Body
  | _, .nil => []
  | _, .act a rest => extBodies (opOf a) rest
  | last, .sub _ b _ rest =>
    (if (last.map isExtCall).getD false then [b] else []) ++ extBodies none b ++ extBodies none rest

/-- The frame itself executes at least one instruction. -/
def runsCode : Body → Bool
  | .nil => false
  | .act (.step ..) _ => true
  | .act (.aborted ..) _ => true
  | .act _ rest => runsCode rest
  | .sub _ _ _ rest => runsCode rest

end Verif.Spec
