import Verif.Model.Types
/-!
# Executions

An EVM transaction, as an inspector sees it: a tree of frames. Each frame carries the arguments of
its `call`/`create` hook, the arguments of its end hook, and in between an arbitrary sequence of
instructions, logs, selfdestructs and sub-frames. `Tx.events` flattens it to the sequence of hook
invocations that revm's inspector handler makes (DESIGN.md section 4 states this assumption).

This file does not mention any definition of the recording model.
-/
namespace Verif

/-- Something that happens inside a frame other than entering a sub-frame. -/
inductive Act where
  /-- one executed instruction: interpreter and context before (`step`) and after (`step_end`) -/
  | step (i : Interp) (c : Ctx) (i' : Interp) (c' : Ctx)
  /-- an instruction for which `step` was called and `step_end` was not: revm skips the
  instruction when another inspector changed the instruction result during `step` -/
  | aborted (i : Interp) (c : Ctx)
  | log (c : Ctx) (l : Log)
  | selfdestruct (contract target : Address) (value : U256)

/-- Arguments of the hook that opens a frame. -/
inductive Header where
  | call (c : Ctx) (inp : CallInputs)
  | create (c : Ctx) (inp : CreateInputs)

/-- Arguments of the hook that closes a frame (`address` is only passed for creates). -/
structure Outcome where
  ctx : Ctx
  result : InterpreterResult
  address : Option Address

/-- What happens inside a frame, in order. -/
inductive Body where
  | nil
  | act (a : Act) (rest : Body)
  | sub (h : Header) (body : Body) (o : Outcome) (rest : Body)

/-- A transaction: its root frame. -/
structure Tx where
  hdr : Header
  body : Body
  out : Outcome

/-- The context with the journal depth that revm has when `d` frames are open. -/
def Ctx.at (c : Ctx) (d : Nat) : Ctx := { c with depth := d }

/-- Hook calls of an action inside a frame, `d` frames being open. -/
def Act.events (d : Nat) : Act → List Event
  | .step i c i' c' => [.step i (c.at d), .stepEnd i' (c'.at d)]
  | .aborted i c => [.step i (c.at d)]
  | .log c l => [.log (c.at d) l]
  | .selfdestruct a t v => [.selfdestruct a t v]

/-- The hook that opens a frame when `d` frames are open. -/
def Header.enter (d : Nat) : Header → Event
  | .call c inp => .call (c.at d) inp
  | .create c inp => .create (c.at d) inp

/-- The hook that closes a frame, `d` frames remaining open. -/
def Header.leave (d : Nat) (o : Outcome) : Header → Event
  | .call _ inp => .callEnd (o.ctx.at d) inp o.result
  | .create _ inp => .createEnd (o.ctx.at d) inp o.result o.address

/-- Hook calls of a frame body, `d` frames (this one included) being open. -/
def Body.events (d : Nat) : Body → List Event
  | .nil => []
  | .act a rest => a.events d ++ rest.events d
  | .sub h b o rest => h.enter d :: (b.events (d + 1) ++ h.leave d o :: rest.events d)

/-- Hook calls of a whole transaction. -/
def Tx.events (t : Tx) : List Event :=
  t.hdr.enter 0 :: (t.body.events 1 ++ [t.hdr.leave 0 t.out])

/-- Does the body enter any sub-frame? -/
def Body.hasSub : Body → Bool
  | .nil => false
  | .act _ rest => rest.hasSub
  | .sub _ _ _ _ => true

/-- Number of frames below. -/
def Body.size : Body → Nat
  | .nil => 0
  | .act _ rest => rest.size
  | .sub _ b _ rest => 1 + b.size + rest.size

/-- The frame runs a precompile: revm decides this on the address the code is taken from. -/
def Header.isPrecompile : Header → Bool
  | .call c inp => c.precompiles.contains inp.bytecodeAddress
  | .create _ _ => false

/-- revm fills `target_address` and `bytecode_address` with the same address for CALL and
STATICCALL (only DELEGATECALL and CALLCODE distinguish them). -/
def Header.WF : Header → Prop
  | .call _ inp => (inp.scheme = .Call ∨ inp.scheme = .StaticCall) →
      inp.targetAddress = inp.bytecodeAddress
  | .create _ _ => True

/-- What every revm execution satisfies: the header condition above, and a precompile does not
enter sub-frames. -/
def Body.WF : Body → Prop
  | .nil => True
  | .act _ rest => rest.WF
  | .sub h b _ rest => h.WF ∧ (h.isPrecompile = true → b.hasSub = false) ∧ b.WF ∧ rest.WF

def Tx.WF (t : Tx) : Prop :=
  t.hdr.WF ∧ (t.hdr.isPrecompile = true → t.body.hasSub = false) ∧ t.body.WF

/-- The journal always has a current (last) list of entries, and a `StorageChanged` entry refers to
a loaded slot. revm guarantees this in every state (`JournaledState::new` starts with one list,
`sstore` loads the slot before it writes the entry). -/
def Ctx.JournalOK (c : Ctx) : Prop :=
  ∃ entries, c.journal.getLast? = some entries ∧
    ∀ a k h, JournalEntry.storageChanged a k h ∈ entries → c.storage a k ≠ none

/-- `P op stack` for the opcode and the stack after each completed instruction, at any depth. -/
def Body.AllSteps (P : Interp → Ctx → Interp → Ctx → Prop) : Body → Prop
  | .nil => True
  | .act (.step i c i' c') rest => P i c i' c' ∧ rest.AllSteps P
  | .act _ rest => rest.AllSteps P
  | .sub _ b _ rest => b.AllSteps P ∧ rest.AllSteps P

/-- Is an instruction with this opcode to be recorded? -/
def Spec.records (cfg : Config) (op : OpCode) : Bool :=
  cfg.recordSteps && match cfg.recordOpcodesFilter with
    | none => true
    | some f => f.bits.getLsbD op.toNat

/-- What the inspector relies on when a step ends: if the step is recorded with the pushed items, the
stack holds at least as many items as the instruction is taken to push (false for some failed
instructions, see C02). -/
def PushesSafe (cfg : Config) (i : Interp) (_c : Ctx) (i' : Interp) (_c' : Ctx) : Prop :=
  Spec.records cfg i.op = true → cfg.recordStackSnapshots.isPushes = true →
    Op.stackPushCount i.op ≤ i'.stack.length

/-- If storage changes are recorded the journal is in order (`JournalOK`, always true in revm). -/
def StorageSafe (cfg : Config) (_i : Interp) (_c : Ctx) (_i' : Interp) (c' : Ctx) : Prop :=
  cfg.recordStateDiff = true → c'.JournalOK

/-- Both conditions. -/
def StepSafe (cfg : Config) (i : Interp) (c : Ctx) (i' : Interp) (c' : Ctx) : Prop :=
  PushesSafe cfg i c i' c' ∧ StorageSafe cfg i c i' c'

/-- Every completed step satisfies `StepSafe`. -/
def Safe (cfg : Config) (b : Body) : Prop := b.AllSteps (StepSafe cfg)

end Verif
