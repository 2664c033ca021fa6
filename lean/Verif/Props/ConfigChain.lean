import Verif.Spec.ConfigChain
import Verif.Props.Steps
import Verif.Props.Arena
import Verif.Props.Options
/-! C132: what was asked last of the configuration is what is recorded. -/
namespace Verif.Props
open Spec

theorem lastAsked_snoc {α : Type} {asks : ConfigMethod → Option α} {calls : List ConfigMethod} {start v : α}
    (h : LastAsked asks calls start v) (m : ConfigMethod) {w : α}
    (hw : asks m = some w ∨ (asks m = none ∧ w = v)) : LastAsked asks (calls ++ [m]) start w := by
  rcases hw with hw | ⟨hm, rfl⟩
  · exact Or.inl ⟨calls, m, [], rfl, hw, (fun _ h => by simp at h)⟩
  · rcases h with ⟨b, c, a, rfl, hc, ha⟩ | ⟨hn, rfl⟩
    · refine Or.inl ⟨b, c, a ++ [m], by simp, hc, ?_⟩
      intro x hx
      rcases List.mem_append.mp hx with hx | hx
      · exact ha x hx
      · rw [List.mem_singleton.mp hx]; exact hm
    · refine Or.inr ⟨?_, rfl⟩
      intro x hx
      rcases List.mem_append.mp hx with hx | hx
      · exact hn x hx
      · rw [List.mem_singleton.mp hx]; exact hm

/-- **C132 (the configuration).** After every chain of calls, from every configuration, each option has the value that
was asked for last, or its first value if no call concerns it. The two options without a method keep their values. -/
theorem C132_last_asked (c : Config) (calls : List ConfigMethod) :
    LastAsked asksSteps calls c.recordSteps (c.chain calls).recordSteps ∧
    LastAsked asksMemory calls c.recordMemorySnapshots (c.chain calls).recordMemorySnapshots ∧
    LastAsked asksStack calls c.recordStackSnapshots (c.chain calls).recordStackSnapshots ∧
    LastAsked asksDiffs calls c.recordStateDiff (c.chain calls).recordStateDiff ∧
    LastAsked asksLogs calls c.recordLogs (c.chain calls).recordLogs ∧
    LastAsked asksExclude calls c.excludePrecompileCalls (c.chain calls).excludePrecompileCalls ∧
    (c.chain calls).recordReturndataSnapshots = c.recordReturndataSnapshots ∧
    (c.chain calls).recordOpcodesFilter = c.recordOpcodesFilter := by
  have hnil : ∀ {α : Type} (asks : ConfigMethod → Option α) (v : α), LastAsked asks [] v v :=
    fun _ _ => Or.inr ⟨(fun _ h => by simp at h), rfl⟩
  obtain ⟨r, rfl⟩ : ∃ r, calls = List.reverse r := ⟨calls.reverse, (List.reverse_reverse _).symm⟩
  induction r with
  | nil => exact ⟨hnil _ _, hnil _ _, hnil _ _, hnil _ _, hnil _ _, hnil _ _, rfl, rfl⟩
  | cons m l ih =>
    obtain ⟨h1, h2, h3, h4, h5, h6, h7, h8⟩ := ih
    have hc : c.chain (m :: l).reverse = m.run (c.chain l.reverse) := by simp [Config.chain]
    rw [hc, List.reverse_cons]
    refine ⟨lastAsked_snoc h1 m ?_, lastAsked_snoc h2 m ?_, lastAsked_snoc h3 m ?_, lastAsked_snoc h4 m ?_,
      lastAsked_snoc h5 m ?_, lastAsked_snoc h6 m ?_, ?_, ?_⟩
    all_goals first
      | (cases m <;> first | exact Or.inl rfl | exact Or.inr ⟨rfl, rfl⟩)
      | (rw [← h7]; cases m <;> rfl)
      | (rw [← h8]; cases m <;> rfl)

/-- There is exactly one value that was asked last. -/
theorem lastAsked_unique {α : Type} {asks : ConfigMethod → Option α} {calls : List ConfigMethod} {start v w : α}
    (hv : LastAsked asks calls start v) (hw : LastAsked asks calls start w) : v = w := by
  rcases hv with ⟨b, c, a, rfl, hc, ha⟩ | ⟨hn, rfl⟩
  · rcases hw with ⟨b', c', a', h, hc', ha'⟩ | ⟨hn, _⟩
    · rcases List.append_eq_append_iff.mp h with ⟨l, h1, h2⟩ | ⟨l, h1, h2⟩
      · cases l with
        | nil => simp at h2; rw [h2.1, hc'] at hc; exact (Option.some.inj hc).symm
        | cons y l =>
          simp only [List.cons_append, List.cons.injEq] at h2
          have := ha c' (by rw [h2.2]; simp)
          rw [hc'] at this; cases this
      · cases l with
        | nil => simp at h2; rw [← h2.1, hc'] at hc; exact (Option.some.inj hc).symm
        | cons y l =>
          simp only [List.cons_append, List.cons.injEq] at h2
          have := ha' c (by rw [h2.2]; simp)
          rw [hc] at this; cases this
    · have := hn c (by simp); rw [hc] at this; cases this
  · rcases hw with ⟨b, c, a, rfl, hc, _⟩ | ⟨_, rfl⟩
    · have := hn c (by simp); rw [hc] at this; cases this
    · rfl

theorem executedSteps_all (cfg : Config) (hs : cfg.recordSteps = true) (hf : cfg.recordOpcodesFilter = none) (b : Body) :
    ∀ d, (executedSteps cfg d b).map (fun v => (v.pc, v.op)) = (startedIn b).map fun i => (i.pc, i.op) := by
  have hr : ∀ op, records cfg op = true := by
    intro op; simp [records, hs, hf]
  induction b with
  | nil => intro d; rfl
  | act a rest ih => intro d; cases a <;> simp [executedSteps, startedIn, hr, ih, stepView]
  | sub h b o rest _ ih => intro d; simp [executedSteps, startedIn, ih]

theorem executedSteps_view (cfg : Config) (b : Body) : ∀ d, ∀ v ∈ executedSteps cfg d b,
    v.hasMemory = cfg.recordMemorySnapshots ∧ (v.stack.isSome = true ↔ cfg.recordStackSnapshots = .Full) ∧
    (v.pushStack.isSome = true → cfg.recordStackSnapshots = .Pushes) := by
  have hv : ∀ d i p n r, (p.isSome = true → cfg.recordStackSnapshots = .Pushes) →
      (stepView cfg d i p n r).hasMemory = cfg.recordMemorySnapshots ∧
      ((stepView cfg d i p n r).stack.isSome = true ↔ cfg.recordStackSnapshots = .Full) ∧
      ((stepView cfg d i p n r).pushStack.isSome = true → cfg.recordStackSnapshots = .Pushes) := by
    intro d i p n r hp
    refine ⟨rfl, ?_, hp⟩
    simp only [stepView]
    split <;> simp_all
  induction b with
  | nil => intro d v h; simp [executedSteps] at h
  | act a rest ih =>
    intro d v h
    cases a with
    | step i c i' c' =>
      simp only [executedSteps, List.mem_append] at h
      rcases h with h | h
      · split at h
        · rw [List.mem_singleton.mp h]
          refine hv _ _ _ _ _ ?_
          intro hp
          split at hp
          · assumption
          · simp at hp
        · simp at h
      · exact ih d v h
    | aborted i c =>
      simp only [executedSteps, List.mem_append] at h
      rcases h with h | h
      · split at h
        · rw [List.mem_singleton.mp h]
          exact hv _ _ _ _ _ (fun h => by simp at h)
        · simp at h
      · exact ih d v h
    | _ => exact ih d v (by simpa [executedSteps] using h)
  | sub h b o rest _ ih => intro d v h'; exact ih d v (by simpa [executedSteps] using h')

theorem logItems_body (cfg : Config) (b : Body) : ∀ d p v n, logItems (bodyItems cfg d p v n b) =
    if cfg.recordLogs then (emitted b).map (·.data) else [] := by
  induction b with
  | nil => intro d p v n; cases cfg.recordLogs <;> rfl
  | act a rest ih =>
    intro d p v n
    cases hrl : cfg.recordLogs <;> simp only [hrl] at ih <;>
    cases a <;> simp only [bodyItems, emitted, logItems_append, ih, hrl] <;>
      (try split) <;> simp [logItems]
  | sub h b o rest _ ih =>
    intro d p v n
    simp only [bodyItems, emitted, logItems_append, ih]
    split <;> simp [logItems]

/-- **C132 (the recording).** An inspector with a configuration made by any chain of calls records of every transaction
what was asked last: no steps, or all instructions that were started (those of the filter, if the configuration the
chain starts from has one); in every step the memory, the stack or neither; storage changes only if they were asked
for; all logs, or none. -/
theorem C132_recorded (c : Config) (calls : List ConfigMethod) (t : Tx) (hwf : t.WF)
    (hsafe : Safe (c.chain calls) t.body) (steps memory diffs logs : Bool) (stack : StackSnapshotType)
    (h1 : LastAsked asksSteps calls c.recordSteps steps)
    (h2 : LastAsked asksMemory calls c.recordMemorySnapshots memory)
    (h3 : LastAsked asksStack calls c.recordStackSnapshots stack)
    (h4 : LastAsked asksDiffs calls c.recordStateDiff diffs)
    (h5 : LastAsked asksLogs calls c.recordLogs logs) :
    ∃ s, TI.run (c.chain calls) TI.new t.events = .ok s ∧ s.arena.length = (frames t).length ∧
      ∀ (k : Nat) (f : FrameCtx) (x : Node), (frames t)[k]? = some f → s.arena[k]? = some x →
        (steps = false → x.trace.steps = []) ∧
        (steps = true → c.recordOpcodesFilter = none →
          x.trace.steps.map (fun st => (st.pc, st.op)) = (startedIn f.body).map fun i => (i.pc, i.op)) ∧
        (∀ st ∈ x.trace.steps, st.memory.isSome = memory ∧ (st.stack.isSome = true ↔ stack = .Full) ∧
          (st.pushStack.isSome = true → stack = .Pushes) ∧ (diffs = false → st.storageChange = none)) ∧
        x.logs.map (·.rawLog) = if logs then (emitted f.body).map (·.data) else [] := by
  obtain ⟨g1, g2, g3, g4, g5, _, _, g8⟩ := C132_last_asked c calls
  obtain rfl := lastAsked_unique g1 h1
  obtain rfl := lastAsked_unique g2 h2
  obtain rfl := lastAsked_unique g3 h3
  obtain rfl := lastAsked_unique g4 h4
  obtain rfl := lastAsked_unique g5 h5
  obtain ⟨s, hr, hl, h6, h0⟩ := C06_steps_as_configured _ t hwf hsafe
  obtain ⟨s', hr', _, h7⟩ := C05_ordering_is_execution_order _ t hwf hsafe
  rw [hr] at hr'; cases hr'
  obtain ⟨s', hr', _, h8⟩ := C08_storage_change_partial _ t hwf hsafe
  rw [hr] at hr'; cases hr'
  refine ⟨s, hr, hl, ?_⟩
  intro k f x hf hx
  have hsteps := h6 k f x hf hx
  refine ⟨fun hoff => h0 hoff x (List.mem_of_getElem? hx), ?_, ?_, ?_⟩
  · intro hon hfil
    rw [← executedSteps_all _ hon (g8.trans hfil) f.body (f.depth + 1), ← hsteps, List.map_map]
    rfl
  · intro st hst
    have hv : readStep st ∈ executedSteps (c.chain calls) (f.depth + 1) f.body := by
      rw [← hsteps]; exact List.mem_map_of_mem hst
    obtain ⟨e1, e2, e3⟩ := executedSteps_view _ _ _ _ hv
    refine ⟨e1, e2, e3, ?_⟩
    intro hoff
    obtain ⟨i, hi⟩ := List.mem_iff_getElem?.mp hst
    obtain ⟨hlen, h9⟩ := h8 k f x hf hx
    have hlt : i < (instrs (c.chain calls) f.body).length := by
      rw [← hlen]; exact (List.getElem?_eq_some_iff.mp hi).1
    exact (h9 i _ st (List.getElem?_eq_getElem hlt) hi).2.2 (Or.inr (Or.inl hoff))
  · rw [(h7 k f x hf hx).2.2.1, items, logItems_body]

/-- `none().with_state_diffs().record_logs().disable_steps().set_stack_snapshots(Pushes)`, which asks for storage changes
and records none, as the steps were switched off afterwards. -/
def chained : List ConfigMethod := [.withStateDiffs, .recordLogs, .disableSteps, .setStackSnapshots .Pushes]

/-- The hypotheses of `C132_recorded` hold of it, with the example of the sub-calls. -/
example : Example.tx.WF ∧ Safe (Config.none.chain chained) Example.tx.body ∧
    LastAsked asksSteps chained Config.none.recordSteps false ∧
    LastAsked asksSteps (chained ++ [.steps]) Config.none.recordSteps true ∧
    LastAsked asksMemory chained Config.none.recordMemorySnapshots false ∧
    LastAsked asksStack chained Config.none.recordStackSnapshots .Pushes ∧
    LastAsked asksDiffs chained Config.none.recordStateDiff true ∧
    LastAsked asksLogs chained Config.none.recordLogs true := by
  refine ⟨Example.wf, Example.safe _, ?_, ?_, ?_, ?_, ?_, ?_⟩
  · exact Or.inl ⟨[.withStateDiffs, .recordLogs], .disableSteps, [.setStackSnapshots .Pushes], rfl, rfl, by decide⟩
  · exact Or.inl ⟨chained, .steps, [], rfl, rfl, by decide⟩
  · exact Or.inr ⟨by decide, rfl⟩
  · exact Or.inl ⟨[.withStateDiffs, .recordLogs, .disableSteps], .setStackSnapshots .Pushes, [], rfl, rfl, by decide⟩
  · exact Or.inl ⟨[], .withStateDiffs, [.recordLogs, .disableSteps, .setStackSnapshots .Pushes], rfl, rfl, by decide⟩
  · exact Or.inl ⟨[.withStateDiffs], .recordLogs, [.disableSteps, .setStackSnapshots .Pushes], rfl, rfl, by decide⟩

end Verif.Props
