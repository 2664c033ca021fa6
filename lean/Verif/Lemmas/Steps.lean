import Verif.Lemmas.Items
import Verif.Spec.Calls
/-! The recorded steps of a node, instruction by instruction. -/
namespace Verif
namespace Rec
open Spec

/-- The step made for an instruction, given the step before it (helper). -/
def stepFor (cfg : Config) (d : Nat) (a : Instr) (prev : Option CallTraceStep) : CallTraceStep :=
  match a.after with
  | some (i', c') => finishStep cfg i' (c'.at d) (TI.newStep cfg a.before (a.ctx.at d) prev)
  | none => TI.newStep cfg a.before (a.ctx.at d) prev

/-- The steps made for a list of instructions. -/
def stepsFor (cfg : Config) (d : Nat) : List Instr → Option CallTraceStep → List CallTraceStep
  | [], _ => []
  | a :: as, prev => stepFor cfg d a prev :: stepsFor cfg d as (some (stepFor cfg d a prev))

theorem ownSteps_eq (cfg : Config) (d : Nat) (b : Body) : ∀ st,
    ownSteps cfg d b st = st ++ stepsFor cfg d (instrs cfg b) st.getLast? := by
  induction b with
  | nil => intro st; simp [ownSteps, instrs, stepsFor]
  | act a rest ih =>
    intro st
    cases a with
    | step i c i' c' =>
      simp only [ownSteps, instrs, records_eq]
      split <;> simp [ih, stepsFor, stepFor]
    | aborted i c =>
      simp only [ownSteps, instrs, records_eq]
      split <;> simp [ih, stepsFor, stepFor]
    | log c l => simp [ownSteps, instrs, ih]
    | selfdestruct x y z => simp [ownSteps, instrs, ih]
  | sub h b o rest _ ih => intro st; simp [ownSteps, instrs, ih]

theorem stepsFor_get (cfg : Config) (d : Nat) : ∀ (as : List Instr) (prev : Option CallTraceStep)
    (k : Nat), (stepsFor cfg d as prev)[k]? = (as[k]?).map (fun a =>
      stepFor cfg d a (if k = 0 then prev else (stepsFor cfg d as prev)[k - 1]?)) := by
  intro as
  induction as with
  | nil => intros; simp [stepsFor]
  | cons a as ih =>
    intro prev k
    cases k with
    | zero => simp [stepsFor]
    | succ k =>
      simp only [stepsFor, List.getElem?_cons_succ, Nat.add_one_ne_zero, if_false,
        Nat.add_sub_cancel]
      rw [ih]
      cases k with
      | zero => simp
      | succ k => simp

theorem stepsFor_length (cfg : Config) (d : Nat) : ∀ (as : List Instr) (prev : Option CallTraceStep),
    (stepsFor cfg d as prev).length = as.length := by
  intro as
  induction as with
  | nil => intros; rfl
  | cons a as ih => intro prev; simp [stepsFor, ih]

theorem nodeOf_steps (cfg : Config) (f : FrameCtx) :
    (nodeOf cfg f).trace.steps = stepsFor cfg (f.depth + 1) (instrs cfg f.body) none := by
  have h : (nodeOf cfg f).trace.steps = ownSteps cfg (f.depth + 1) f.body [] := by
    simp only [nodeOf, leaveNode, TI.fillTrace, own_trace]
    have : (enterTrace cfg f.parentValue f.depth f.hdr).steps = [] := by
      cases f.hdr <;> simp [enterTrace]
    rw [← this]
    split <;> rfl
  rw [h, ownSteps_eq]; simp

/-- All instructions of a body satisfy the step condition if the body does. -/
theorem instrs_safe {P : Interp → Ctx → Interp → Ctx → Prop} (cfg : Config) (b : Body)
    (h : b.AllSteps P) : ∀ a ∈ instrs cfg b, records cfg a.before.op = true ∧
      ∀ i' c', a.after = some (i', c') → P a.before a.ctx i' c' := by
  induction b with
  | nil => simp [instrs]
  | act a rest ih =>
    cases a with
    | step i c i' c' =>
      intro x hx
      simp only [instrs, List.mem_append] at hx
      rcases hx with hx | hx
      · split at hx
        · rename_i hr
          simp only [List.mem_singleton] at hx
          subst hx
          refine ⟨hr, ?_⟩
          intro _ _ he
          simp only [Option.some.injEq, Prod.mk.injEq] at he
          obtain ⟨rfl, rfl⟩ := he
          exact h.1
        · simp at hx
      · exact ih h.2 x hx
    | aborted i c =>
      intro x hx
      simp only [instrs, List.mem_append] at hx
      rcases hx with hx | hx
      · split at hx
        · rename_i hr
          simp only [List.mem_singleton] at hx
          subst hx
          exact ⟨hr, fun _ _ he => nomatch he⟩
        · simp at hx
      · exact ih h x hx
    | log c l => exact ih h
    | selfdestruct x y z => exact ih h
  | sub hd b o rest _ ih => exact ih h.2

/-- What all the theorems below share: recording ends normally and step `k` of node `j` is the step
of instruction `k` of frame `j`. -/
theorem steps_of_run (cfg : Config) (t : Tx) (hwf : t.WF) (hsafe : Safe cfg t.body) :
    ∃ s, TI.run cfg TI.new t.events = .ok s ∧ s.arena.length = (frames t).length ∧
      ∀ (j : Nat) (f : FrameCtx) (x : Node), (frames t)[j]? = some f → s.arena[j]? = some x →
        x.trace.steps = stepsFor cfg (f.depth + 1) (instrs cfg f.body) none := by
  obtain ⟨s, hr, _, har, _⟩ := run_frames cfg t hwf hsafe
  refine ⟨s, hr, by rw [har, List.length_map], ?_⟩
  intro k f x hf hx
  rw [har, List.getElem?_map, hf] at hx
  simp only [Option.map_some, Option.some.injEq] at hx
  rw [← hx]; exact nodeOf_steps cfg f

theorem stepFor_fields {cfg : Config} {d : Nat} {a : Instr} (prev : Option CallTraceStep)
    (hr : records cfg a.before.op = true)
    (hs : ∀ i' c', a.after = some (i', c') → StepSafe cfg a.before a.ctx i' c') :
    (stepFor cfg d a prev).memory = TI.stepMemory cfg a.before prev ∧
    (stepFor cfg d a prev).op = a.before.op ∧
    (stepFor cfg d a prev).gasRefundCounter = i64AsU64 a.before.gas.refunded ∧
    (∀ i' c', a.after = some (i', c') → cfg.recordStateDiff = true →
      TI.stepStorageChange a.before.op (c'.at d) = .ok (stepFor cfg d a prev).storageChange) ∧
    (a.after = none ∨ cfg.recordStateDiff = false → (stepFor cfg d a prev).storageChange = none) := by
  unfold stepFor
  cases ha : a.after with
  | none => refine ⟨rfl, rfl, rfl, ?_, fun _ => rfl⟩; intro _ _ h; nomatch h
  | some p =>
    obtain ⟨i', c'⟩ := p
    have hss := hs i' c' ha
    obtain ⟨sc, h1, h2⟩ := finishStep_fields (cfg := cfg) (i' := i') (c' := c'.at d)
      (st := TI.newStep cfg a.before (a.ctx.at d) prev) (hss.1 hr) hss.2
    dsimp only
    rw [h1]
    refine ⟨rfl, rfl, rfl, ?_, ?_⟩
    · intro i'' c'' he hcfg
      simp only [Option.some.injEq, Prod.mk.injEq] at he
      obtain ⟨rfl, rfl⟩ := he
      rw [if_pos hcfg] at h2
      exact h2
    · rintro (h | h)
      · nomatch h
      · rw [h] at h2
        simp only [Bool.false_eq_true, if_false, Except.ok.injEq] at h2
        exact h2.symm

end Rec
end Verif
