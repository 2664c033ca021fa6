import Verif.Spec.Frames
/-! How calls relate to the instructions that make them, and the chronological order of all
instructions of a transaction. -/
namespace Verif.Spec

/-- The opcodes that enter a frame: CREATE, CALL, CALLCODE, DELEGATECALL, CREATE2, STATICCALL. -/
def entersFrame (op : OpCode) : Bool :=
  op == 0xf0 || op == 0xf1 || op == 0xf2 || op == 0xf4 || op == 0xf5 || op == 0xfa

/-- The action is an instruction with such an opcode. -/
def isCallStep : Act → Bool
  | .step i _ _ _ => entersFrame i.op
  | .aborted i _ => entersFrame i.op
  | _ => false

/-- Every sub-frame is entered by the call instruction right before it (`pending`), and a call
instruction that does not enter a frame is not followed by any sub-frame in its frame: in revm a
CALL or CREATE instruction that is executed at all enters a frame (the depth and balance checks
come later, inside it), otherwise it halts the frame. -/
def Attached : (pending : Bool) → Body → Prop
  | _, .nil => True
  | pending, .act a rest =>
    (pending = true → rest.hasSub = false) ∧ Attached (isCallStep a) rest
  | pending, .sub _ b _ rest => pending = true ∧ Attached false b ∧ Attached false rest

/-- One instruction of a frame: the states before it, and after it if it was executed. -/
structure Instr where
  before : Interp
  ctx : Ctx
  after : Option (Interp × Ctx)

/-- The instructions of a frame that are to be recorded, in order. -/
def instrs (cfg : Config) : Body → List Instr
  | .nil => []
  | .act (.step i c i' c') rest =>
    (if records cfg i.op then [⟨i, c, some (i', c')⟩] else []) ++ instrs cfg rest
  | .act (.aborted i c) rest =>
    (if records cfg i.op then [⟨i, c, none⟩] else []) ++ instrs cfg rest
  | .act _ rest => instrs cfg rest
  | .sub _ _ _ rest => instrs cfg rest

/-- The instructions of a frame and of the frames it enters, in the order of execution, each with
the frame it belongs to. `n` is the index of the next frame. -/
def chronBody : FrameCtx → Nat → Body → List (FrameCtx × Instr)
  | _, _, .nil => []
  | f, n, .act (.step i c i' c') rest => (f, ⟨i, c, some (i', c')⟩) :: chronBody f n rest
  | f, n, .act (.aborted i c) rest => (f, ⟨i, c, none⟩) :: chronBody f n rest
  | f, n, .act _ rest => chronBody f n rest
  | f, n, .sub h b o rest =>
    chronBody ⟨n, some f.index, f.depth + 1, some f.value, h, b, o⟩ (n + 1) b ++
      chronBody f (n + 1 + b.size) rest

/-- All instructions of a transaction in the order of execution. -/
def chron (t : Tx) : List (FrameCtx × Instr) :=
  chronBody ⟨0, none, 0, none, t.hdr, t.body, t.out⟩ 1 t.body

/-- The storage change an instruction is reported with (C08 relates it to what the instruction did):
after an SLOAD or SSTORE the change at the end of the journal, with the slot's present value. -/
def reportedChange (a : Instr) : Option (U256 × U256) :=
  match a.after with
  | none => none
  | some (_, c') =>
    if a.before.op = 0x54 ∨ a.before.op = 0x55 then
      match c'.journal.getLast? with
      | some entries =>
        match entries.getLast? with
        | some (.storageChanged x k _) => (c'.storage x k).map (fun v => (k, v))
        | _ => none
      | none => none
    else none

/-- The value last written to slot `k` of contract `a`, in a history of (contract, change). -/
def latestWrite (a : Address) (k : U256) : List (Address × Option (U256 × U256)) → Option U256
  | [] => none
  | (a', ch) :: earlier =>  -- most recent first
    if a' = a ∧ ch.map (·.1) = some k then ch.map (·.2) else latestWrite a k earlier

/-- The history of the first `k + 1` instructions, most recent first. -/
def history (t : Tx) (k : Nat) : List (Address × Option (U256 × U256)) :=
  (((chron t).take (k + 1)).map (fun e => (e.2.before.contract, reportedChange e.2))).reverse

end Verif.Spec
