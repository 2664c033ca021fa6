import Verif.Spec.Changes
/-! What the contracts hold in their storage while a transaction runs. -/
namespace Verif.Spec

/-- The state when the instruction is done. -/
def ctxAfter (a : Instr) : Ctx :=
  match a.after with
  | some (_, c') => c'
  | none => a.ctx

/-- An instruction leaves all slots that were looked at as they are, but the one it changes itself. -/
def SlotLaw (a : Instr) : Prop :=
  ∀ x key v, a.ctx.storage x key = some v → (ctxAfter a).storage x key = some v ∨
    x = a.before.contract ∧ ∃ v', madeChange a = some (key, v')

/-- Between the `k`-th instruction and the next one the value `v` of a slot is undone: the slot holds it after the one
and not before the other. -/
def UndoneAfter (t : Tx) (k : Nat) (x : Address) (key v : U256) : Prop :=
  ∃ e e', (chron t)[k]? = some e ∧ (chron t)[k + 1]? = some e' ∧
    (ctxAfter e.2).storage x key = some v ∧ e'.2.ctx.storage x key ≠ some v

/-- Nothing is undone: what the slots hold after an instruction they hold before the next one. In an execution this
fails only where a frame ended without success. -/
def NothingUndone (t : Tx) : Prop :=
  ∀ (k : Nat) (e e' : FrameCtx × Instr), (chron t)[k]? = some e → (chron t)[k + 1]? = some e' →
    ∀ x key v, (ctxAfter e.2).storage x key = some v → e'.2.ctx.storage x key = some v

end Verif.Spec
