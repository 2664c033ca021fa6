import Verif.Model.Types
/-! What a recording that was written and read again should be. -/
namespace Verif.Spec

/-- The numbers of a step have 64 bits. In Rust they are `u64` and `usize`. -/
def StepFits (s : CallTraceStep) : Prop :=
  s.depth < 2 ^ 64 ∧ s.pc < 2 ^ 64 ∧ s.gasRemaining < 2 ^ 64 ∧ s.gasRefundCounter < 2 ^ 64 ∧
  s.gasUsed < 2 ^ 64 ∧ s.gasCost < 2 ^ 64 ∧ ∀ c i, s.decoded = some (.internalCall c i) → i < 2 ^ 64

/-- The index an entry of the order holds. -/
def orderIndex : TraceMemberOrder → Nat
  | .log i => i
  | .call i => i
  | .step i => i

/-- The numbers of a node have 64 bits. -/
def NodeFits (n : Node) : Prop :=
  (∀ i, n.parent = some i → i < 2 ^ 64) ∧ (∀ i ∈ n.children, i < 2 ^ 64) ∧ n.idx < 2 ^ 64 ∧
  n.trace.depth < 2 ^ 64 ∧ n.trace.gasUsed < 2 ^ 64 ∧ n.trace.gasLimit < 2 ^ 64 ∧
  (∀ s ∈ n.trace.steps, StepFits s) ∧ ∀ o ∈ n.ordering, orderIndex o < 2 ^ 64

/-- The numbers of a recording have 64 bits. -/
def Fits (ns : List Node) : Prop := ∀ n ∈ ns, NodeFits n

/-- Opcodes that are not known are `INVALID`. -/
def replaceOp (known : UInt8 → Bool) (op : OpCode) : OpCode := if known op then op else 0xfe

/-- A node whose steps have no unknown opcodes. -/
def replaceOps (known : UInt8 → Bool) (n : Node) : Node :=
  { n with trace := { n.trace with
      steps := n.trace.steps.map fun s => { s with op := replaceOp known s.op } } }

/-- Every recorded opcode is known. -/
def OpsKnown (known : UInt8 → Bool) (ns : List Node) : Prop :=
  ∀ n ∈ ns, ∀ s ∈ n.trace.steps, known s.op = true

end Verif.Spec
