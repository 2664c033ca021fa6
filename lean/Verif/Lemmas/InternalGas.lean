import Verif.Spec.InternalGas
import Verif.Lemmas.Steps
/-! # The used gas of a recorded step -/
namespace Verif.Props
open Spec Rec

theorem stepFor_gasUsed {cfg : Config} {d : Nat} {a : Instr} (prev : Option CallTraceStep)
    (hr : records cfg a.before.op = true)
    (hs : ∀ i' c', a.after = some (i', c') → StepSafe cfg a.before a.ctx i' c') :
    (stepFor cfg d a prev).gasUsed = spentBefore a - givableBefore a := by
  have hn : (TI.newStep cfg a.before (a.ctx.at d) prev).gasUsed = spentBefore a - givableBefore a := by
    simp only [TI.newStep, Verif.gasUsed, spentBefore, givableBefore, Gas.spent, i64AsU64]
    have hq : (if (a.ctx.at d).specId.enabled LONDON then 5 else 2) = if a.ctx.specId < 12 then 2 else 5 := by
      show (if decide (12 ≤ a.ctx.specId) = true then 5 else 2) = _
      generalize a.ctx.specId = v
      by_cases h : (v : Nat) < 12
      · rw [if_pos h, if_neg (by rw [decide_eq_true_eq]; exact Nat.not_le.2 h)]
      · rw [if_neg h, if_pos (by rw [decide_eq_true_eq]; exact Nat.not_lt.1 h)]
    rw [hq]
  unfold stepFor
  cases ha : a.after with
  | none => exact hn
  | some p =>
    obtain ⟨i', c'⟩ := p
    have hss := hs i' c' ha
    obtain ⟨sc, h1, h2⟩ := finishStep_fields (cfg := cfg) (i' := i') (c' := c'.at d)
      (st := TI.newStep cfg a.before (a.ctx.at d) prev) (hss.1 hr) hss.2
    dsimp only
    rw [h1]
    exact hn

end Verif.Props
