import Verif.Spec.Parity
/-! What a trace may claim of a frame that failed. -/
namespace Verif.Spec

/-- Does the frame create a contract? -/
def creates : Header → Bool
  | .call _ _ => false
  | .create _ _ => true

/-- A call frame that failed names no account as created, and has data and a reason only if its code
reverted. (Frames are marked as failed by their error, which is `Reverted` after a REVERT.) -/
structure FailureShown (c : CallFrame) : Prop where
  created : c.error ≠ none → c.typ = "CREATE" ∨ c.typ = "CREATE2" → c.to = none
  data : c.error ≠ none → c.error ≠ some "Reverted" → c.output = none ∧ c.revertReason = none

/-- A parity trace that failed gives no account and code as the result of a creation. -/
def NothingCreated (tr : TransactionTrace) : Prop :=
  tr.error ≠ none → ∀ gas code a, tr.result ≠ some (.create gas code a)

end Verif.Spec
