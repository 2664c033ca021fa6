import Verif.Spec.Writer
import Verif.Spec.Calls
/-!
# The gas of internal calls

What a frame has spent before an instruction, and the part of it that is taken off because of refunds.
-/
namespace Verif.Spec

/-- The gas the frame has spent before the instruction. -/
def spentBefore (a : Instr) : Nat := a.before.gas.limit - a.before.gas.remaining

/-- The part of the spent gas that refunds could give back if the transaction ended before the instruction, with the
refund counter of the frame, taken as a number of 64 bits: at most a fifth, before London a half. -/
def givableBefore (a : Instr) : Nat :=
  min (a.before.gas.refunded % 2 ^ 64).toNat (spentBefore a / if a.ctx.specId < 12 then 2 else 5)

end Verif.Spec
