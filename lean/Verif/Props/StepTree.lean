import Verif.Lemmas.StepTree
import Verif.Props.StructLogsExact
/-!
# C127 (frames in the struct logs)
-/
namespace Verif.Props
open Spec

/-- **C127.** If the instructions that enter frames are recorded and no frame is left out, then cutting the struct
logs at their depths gives the recorded instructions of the execution as they are nested: behind each instruction
those of the frame it entered, then those that follow in its own frame. -/
theorem C127_cut (cfg : Config) (t : Tx) (opts : GethOptions) (gas : Nat) (ret : Bytes)
    (hwf : t.WF) (hsafe : Safe cfg t.body) (hatt : Attached false t.body)
    (hc : ∀ op, entersFrame op = true → records cfg op = true)
    (hcalls : ∀ f ∈ frames t, Spec.excluded cfg f = false) :
    ∃ s out, TI.run cfg TI.new t.events = .ok s ∧ gethTraces s.arena gas ret opts = .ok out ∧
      (StepTree.cut StructLog.depth out.structLogs).map readLog = (txSteps cfg t).map expectedLog := by
  obtain ⟨s, out, hr, hg, h⟩ := C72_filtered_partial cfg t opts gas ret hwf hsafe hatt hc hcalls
  refine ⟨s, out, hr, hg, ?_⟩
  have h1 := bodySteps_flat cfg hc t.body ⟨0, none, 0, none, t.hdr, t.body, t.out⟩ 1 false hatt
  rw [stepsEntered_false hatt, StepTree.flat, List.nil_append] at h1
  have h2 : out.structLogs.map readLog = ((txSteps cfg t).map expectedLog).flat := by
    rw [h, flat_map]
    exact congrArg (List.map expectedLog) h1.symm
  have h3 : AtDepth LogView.depth (0 + 1) ((txSteps cfg t).map expectedLog) :=
    atDepth_map (depth' := fun e => e.1.depth) (fun _ => rfl)
      (bodySteps_depth cfg t.body ⟨0, none, 0, none, t.hdr, t.body, t.out⟩ 1).1
  exact (cut_map readLog LogView.depth out.structLogs).symm.trans
    ((congrArg (StepTree.cut LogView.depth) h2).trans (cut_flat h3))

/-- **C127, for two recordings.** The struct logs of two transactions show the same depths, program counters, opcodes,
gas, costs and refunds exactly if these and the nesting of the recorded instructions are the same. -/
theorem C127_iff (cfg cfg' : Config) (t t' : Tx) (opts opts' : GethOptions) (gas gas' : Nat) (ret ret' : Bytes)
    (hwf : t.WF) (hsafe : Safe cfg t.body) (hatt : Attached false t.body)
    (hc : ∀ op, entersFrame op = true → records cfg op = true)
    (hcalls : ∀ f ∈ frames t, Spec.excluded cfg f = false)
    (hwf' : t'.WF) (hsafe' : Safe cfg' t'.body) (hatt' : Attached false t'.body)
    (hc' : ∀ op, entersFrame op = true → records cfg' op = true)
    (hcalls' : ∀ f ∈ frames t', Spec.excluded cfg' f = false) :
    ∃ s out s' out', TI.run cfg TI.new t.events = .ok s ∧ gethTraces s.arena gas ret opts = .ok out ∧
      TI.run cfg' TI.new t'.events = .ok s' ∧ gethTraces s'.arena gas' ret' opts' = .ok out' ∧
      (out.structLogs.map readLog = out'.structLogs.map readLog ↔
        (txSteps cfg t).map expectedLog = (txSteps cfg' t').map expectedLog) := by
  obtain ⟨s, out, hr, hg, h⟩ := C127_cut cfg t opts gas ret hwf hsafe hatt hc hcalls
  obtain ⟨s', out', hr', hg', h'⟩ := C127_cut cfg' t' opts' gas' ret' hwf' hsafe' hatt' hc' hcalls'
  refine ⟨s, out, s', out', hr, hg, hr', hg', ?_⟩
  have e : ∀ l : List StructLog, (StepTree.cut StructLog.depth l).map readLog =
      StepTree.cut LogView.depth (l.map readLog) := fun l => (cut_map readLog LogView.depth l).symm
  constructor
  · intro hl
    rw [← h, ← h', e, e, hl]
  · intro ht
    rw [← h, ← h'] at ht
    have := congrArg StepTree.flat ht
    rwa [flat_map, flat_map, flat_cut, flat_cut] at this

/-! ### Examples -/

/-- The instructions with depth, number and opcode only. -/
def shape (u : StepTree (FrameCtx × Instr)) : StepTree (Nat × OpCode) :=
  u.map fun e => (e.1.depth + 1, e.2.before.op)

/-- The example meets the hypotheses with the default configuration of the struct logger, and frames are nested in
it. -/
example : Example.tx.WF ∧ Safe Config.defaultGeth Example.tx.body ∧ Attached false Example.tx.body ∧
    (∀ op, entersFrame op = true → records Config.defaultGeth op = true) ∧
    (∀ f ∈ frames Example.tx, Spec.excluded Config.defaultGeth f = false) ∧
    shape (txSteps Config.defaultGeth Example.tx) =
      .cons (1, Op.ADD) .nil (.cons (1, Op.CALL)
        (.cons (2, Op.DELEGATECALL) (.cons (3, Op.LOG0) .nil .nil) .nil)
      (.cons (1, Op.STATICCALL) .nil (.cons (1, Op.CREATE) (.cons (2, Op.STOP) .nil .nil)
      (.cons (1, Op.SSTORE) .nil (.cons (1, Op.STOP) .nil .nil))))) := by
  refine ⟨Example.wf, Example.safe _, example_attached, fun _ _ => rfl,
    (fromGethConfig_records {} Example.tx).2.2, ?_⟩
  simp [txSteps, Example.tx, Example.body, bodySteps_act, bodySteps, instrOf, stepsEntered, Example.stepAct,
    Example.callee, Example.lib, Example.interp, shape, StepTree.map, records, Config.defaultGeth]

end Verif.Props
