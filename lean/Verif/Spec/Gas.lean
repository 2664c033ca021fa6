import Verif.Spec.Parity
import Verif.Spec.Observe
/-! The gas of frames: what the EVM does with it, and what a reader of a recording concludes. -/
namespace Verif.Spec

/-- A frame that ends with this status gives the gas it has left back to its caller; others use it up. -/
def GivesBack (r : InstructionResult) : Prop := r.isOk = true ∨ r.isRevertClass = true

instance (r : InstructionResult) : Decidable (GivesBack r) := by unfold GivesBack; infer_instance

/-- The gas the caller of a frame gets back. -/
def givenBack (o : Outcome) : Nat := if GivesBack o.result.result then o.result.gas.remaining else 0

/-- The EVM's gas of a frame with gas `g` at some moment, and `e` after the rest of it: every instruction
starts with the gas the one before left, plus what a frame in between gave back. -/
def GasFlow : Nat → Body → Nat → Prop
  | g, .nil, e => e = g
  | g, .act (.step i _ i' _) rest, e =>
    i.gas.remaining = g ∧ i'.gas.remaining ≤ g ∧ GasFlow i'.gas.remaining rest e
  | g, .act (.aborted i _) rest, e => i.gas.remaining = g ∧ GasFlow g rest e
  | g, .act (.log _ _) rest, e => GasFlow g rest e
  | g, .act (.selfdestruct _ _ _) rest, e => GasFlow g rest e
  | g, .sub _ _ o rest, e => GasFlow (g + givenBack o) rest e

/-- A frame has the gas its inputs say, and at most that is left in the end. -/
def LimitOK (f : FrameCtx) : Prop :=
  f.out.result.gas.limit = gasLimit f.hdr ∧ f.out.result.gas.remaining ≤ f.out.result.gas.limit

/-- The frame runs code, and is charged `deposit` after its last instruction (the deposit of the code of a
creation; nothing for calls). -/
def Runs (f : FrameCtx) (deposit : Nat) : Prop :=
  GasFlow (gasLimit f.hdr) f.body (f.out.result.gas.remaining + deposit)

/-- The gas a frame has left and does not give back. -/
def lost (o : Outcome) : Nat := if GivesBack o.result.result then 0 else o.result.gas.remaining

/-- The account a reader keeps of the gas of a frame while going through its record: a step shows the gas
there is and takes its cost, a call gives back its gas limit less the gas it used. -/
inductive GasAccount (A : List Node) : Nat → List Item → Nat → Prop
  | nil (g : Nat) : GasAccount A g [] g
  | step {g e : Nat} {v : StepView} {l : List Item} : v.gasRemaining = g → v.gasCost ≤ g →
      GasAccount A (g - v.gasCost) l e → GasAccount A g (.step v :: l) e
  | log {g e : Nat} {d : LogData} {l : List Item} : GasAccount A g l e → GasAccount A g (.log d :: l) e
  | call {g e i : Nat} {y : Node} {l : List Item} : A[i]? = some y →
      GasAccount A (g + (y.trace.gasLimit - y.trace.gasUsed)) l e → GasAccount A g (.call i :: l) e

end Verif.Spec
