import Verif.Model.JsResult
/-! What the context of a JavaScript tracer's `result` function has to say, in terms of the transaction
and its outcome. -/
namespace Verif
namespace Spec

/-- A number as JavaScript shows it, if it can be represented exactly. -/
def shows (v : Option JsVal) (n : Nat) : Prop :=
  ∃ q : Rat, v = some (.num (.fin q)) ∧ q = (n : Rat)

/-- The target: the callee, or the contract a successful creation deployed. -/
def resultTo (res : ExecutionResult) (env : TxEnv) : Option Address :=
  match env.transactTo, res with
  | .call target, _ => some target
  | .create, .success _ (.create _ a) => a
  | .create, _ => none

/-- The data returned or reverted with; a halted transaction has none. -/
def resultOutput : ExecutionResult → Bytes
  | .success _ (.call out) => out
  | .success _ (.create out _) => out
  | .revert _ out => out
  | .halt _ => []

/-- The intrinsic gas of a transaction without access list: 21000, 32000 more for a creation, 4 for a
zero byte of data and 16 for another one. -/
def intrinsicGas (env : TxEnv) : Nat :=
  21000 + (match env.transactTo with | .create => 32000 | .call _ => 0) +
    (env.data.map (fun b => if b = 0 then 4 else 16)).sum

end Spec
end Verif
