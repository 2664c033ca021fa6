import Verif.Lemmas.Changing
import Verif.Props.Arena
import Verif.Props.StepsExact
/-!
# C105: the configuration can be changed while recording
-/
namespace Verif.Props
open Spec Rec

/-! ## What is recorded -/

theorem zipWith_get {α β γ : Type} (g : α → β → γ) (l : List α) (r : List β) (h : l.length = r.length)
    (j : Nat) (b : β) (hb : r[j]? = some b) : ∃ a, (List.zipWith g l r)[j]? = some (g a b) := by
  have hj := (List.getElem?_eq_some_iff.1 hb).1
  obtain ⟨a, ha⟩ : ∃ a, l[j]? = some a := ⟨l[j]'(by omega), List.getElem?_eq_getElem (by omega)⟩
  exact ⟨a, by rw [List.getElem?_zipWith, ha, hb]⟩

theorem framesC_facts (t : CTx) (hwf : t.plain.WF) (hsafe : t.body.Safe) : ∀ f ∈ framesC t,
    f.1.body = f.2.plain ∧ f.2.plain.WF ∧ f.2.Safe ∧ f.1 ∈ frames t.plain := by
  intro f hf
  have h1 : f.1.body = f.2.plain := by
    simp only [framesC, List.mem_cons] at hf
    rcases hf with rfl | hf
    · rfl
    · exact framesC_plain _ _ _ _ _ f hf
  have h2 : f.2.Safe := by
    simp only [framesC, List.mem_cons] at hf
    rcases hf with rfl | hf
    · exact hsafe
    · exact framesC_safe _ hsafe _ _ _ _ f hf
  have h3 : f.1 ∈ frames t.plain := by
    have : (framesC t).map (·.1) = frames t.plain := by
      simp only [framesC, frames, List.map_cons, framesC_fst, CTx.plain]
    rw [← this]
    exact List.mem_map_of_mem hf
  exact ⟨h1, by rw [← h1]; exact (frames_wf hwf h3).2.1, h2, h3⟩

/-- **C105** (partial: the configuration is changed between instructions, and the memory a step shows is
the subject of `C105_memory_exact`; see the refutations). Whatever the configuration is at each moment of
an execution, recording ends normally; the frames of the execution are listed as if nothing had been
changed, each with its data; and the chronological record of each frame, its steps, its logs and its
children are those that the configuration of the moment asks for. -/
theorem C105_changing_partial (t : CTx) (hwf : t.plain.WF) (hsafe : t.body.Safe) :
    ∃ s, TI.runWith TI.new t.hooks = .ok s ∧
      s.arena.map readFrame = (frames t.plain).map frameData ∧
      s.arena.map (·.idx) = List.range (frames t.plain).length ∧
      ∀ (j : Nat) (f : FrameCtx × CBody) (x : Node), (framesC t)[j]? = some f → s.arena[j]? = some x →
        x.ordering.map (resolve x) = (itemsC f.1 f.2).map some ∧
        x.trace.steps.map readStep = stepItems (itemsC f.1 f.2) ∧
        x.logs.map (·.rawLog) = logItems (itemsC f.1 f.2) ∧
        x.children = callItems (itemsC f.1 f.2) := by
  obtain ⟨s, hr, _, har, hlen⟩ := run_txC t hwf hsafe
  have hfst : (framesC t).map (·.1) = frames t.plain := by
    simp only [framesC, frames, List.map_cons, framesC_fst, CTx.plain]
  have hl : s.arena.length = (framesC t).length := by rw [har, List.length_zipWith]; omega
  refine ⟨s, hr, ?_, ?_, ?_⟩
  · apply List.ext_getElem?
    intro j
    rw [← hfst, List.map_map, List.getElem?_map, List.getElem?_map]
    cases hf : (framesC t)[j]? with
    | none =>
      have := List.getElem?_eq_none_iff.1 hf
      rw [List.getElem?_eq_none (by omega)]; rfl
    | some f =>
      obtain ⟨cfg, hc⟩ := zipWith_get (fun cfg (f : FrameCtx × CBody) => nodeOfC cfg f.1 f.2) _ _ hlen j f hf
      rw [har, hc]
      simp only [Option.map_some, Function.comp]
      rw [nodeOfC_readFrame cfg cfg f.1 f.2 (framesC_facts t hwf hsafe f (List.mem_of_getElem? hf)).1,
        nodeOf_readFrame]
  · apply List.ext_getElem?
    intro j
    rw [List.getElem?_map, ← hfst, List.length_map]
    cases hf : (framesC t)[j]? with
    | none =>
      have := List.getElem?_eq_none_iff.1 hf
      rw [List.getElem?_eq_none (by omega), List.getElem?_eq_none (by simp; omega)]; rfl
    | some f =>
      have hj := (List.getElem?_eq_some_iff.1 hf).1
      obtain ⟨cfg, hc⟩ := zipWith_get (fun cfg (f : FrameCtx × CBody) => nodeOfC cfg f.1 f.2) _ _ hlen j f hf
      have hi : f.1.index = j := by
        refine frames_index (t := t.plain) ?_
        rw [← hfst, List.getElem?_map, hf]; rfl
      rw [har, hc, List.getElem?_range hj]
      simp only [Option.map_some, nodeOfC, leaveNode, ownC_idx, hi]
  · intro j f x hf hx
    obtain ⟨cfg, hc⟩ := zipWith_get (fun cfg (f : FrameCtx × CBody) => nodeOfC cfg f.1 f.2) _ _ hlen j f hf
    rw [har, hc] at hx
    cases hx
    obtain ⟨h1, h2, h3, _⟩ := framesC_facts t hwf hsafe f (List.mem_of_getElem? hf)
    have hg := nodeOfC_good cfg f.1 f.2 h2 h3
    exact ⟨hg.ord, hg.steps, hg.logs, hg.calls⟩

/-! ## The memory -/

/-- The memory a recorded step is to show. -/
def wantedMemory (a : Config × Instr) : Option Bytes :=
  if a.1.recordMemorySnapshots then some a.2.before.memory else none

/-- The step of `b`, recorded right after the one of `a` in the same frame, shows the memory of `a`: both
are recorded with memory, no filter is set by then, and the instruction of `a` is not among those known to
write to memory. -/
def Takes (a b : Config × Instr) : Prop :=
  a.1.recordMemorySnapshots = true ∧ b.1.recordMemorySnapshots = true ∧
  b.1.recordOpcodesFilter = none ∧ ¬ (a.2.before.op ∈ touchesMemory ∧ a.2.before.op ∉ missedMemory)

theorem stepMemory_next {a b : Config × Instr} (prev : Option CallTraceStep)
    (hprev : ∃ s, prev = some s ∧ s.op = a.2.before.op ∧ s.memory = wantedMemory a) :
    TI.stepMemory b.1 b.2.before prev = wantedMemory b ↔
      (Takes a b → b.2.before.memory = a.2.before.memory) := by
  obtain ⟨s, rfl, hop, hmem⟩ := hprev
  unfold TI.stepMemory wantedMemory
  by_cases hb : b.1.recordMemorySnapshots = true
  case neg => simp [hb, Takes]
  by_cases hf : b.1.recordOpcodesFilter = none
  case neg => 
    have : b.1.recordOpcodesFilter.isNone = false := by
      cases h : b.1.recordOpcodesFilter with
      | none => exact absurd h hf
      | some x => rfl
    simp [hb, hf, this, Takes]
  by_cases ha : a.1.recordMemorySnapshots = true
  case neg =>
    have hm : s.memory = none := by rw [hmem, wantedMemory, if_neg ha]
    simp [hb, hf, hm, ha, Takes]
  have hm : s.memory = some a.2.before.memory := by rw [hmem, wantedMemory, if_pos ha]
  by_cases ht : Op.mayModifyMemory a.2.before.op = true
  · have := (mayModify_iff _).1 ht
    simp [hb, hf, hm, hop, ht, Takes, this]
  · have hn : ¬ (a.2.before.op ∈ touchesMemory ∧ a.2.before.op ∉ missedMemory) :=
      fun h => ht ((mayModify_iff _).2 h)
    simp only [hb, hf, hm, hop, ht, Takes, ha, Option.isNone_none, if_true, Bool.not_false, true_and]
    constructor
    · intro h _; exact (Option.some.inj h).symm
    · intro h; rw [h hn]

theorem stepsForC_memory (d : Nat) : ∀ (l : List (Config × Instr)) (a : Config × Instr)
    (prev : Option CallTraceStep),
    (∃ s, prev = some s ∧ s.op = a.2.before.op ∧ s.memory = wantedMemory a) →
    (∀ a ∈ l, records a.1 a.2.before.op = true ∧
      ∀ i' c', a.2.after = some (i', c') → StepSafe a.1 a.2.before a.2.ctx i' c') →
    ((stepsForC d l prev).map (·.memory) = l.map wantedMemory ↔
      ∀ (k : Nat) (p q : Config × Instr), (a :: l)[k]? = some p → l[k]? = some q → Takes p q →
        q.2.before.memory = p.2.before.memory) := by
  intro l
  induction l with
  | nil => intro a prev _ _; simp [stepsForC]
  | cons b l ih =>
    intro a prev hprev hl
    obtain ⟨h1, h2⟩ := hl b (by simp)
    obtain ⟨e1, e2, _⟩ := stepFor_fields (d := d) prev h1 h2
    have hl' := fun c hc => hl c (List.mem_cons_of_mem b hc)
    simp only [stepsForC, List.map_cons, List.cons.injEq]
    have hstep := stepMemory_next (b := b) prev hprev
    rw [← e1] at hstep
    constructor
    · rintro ⟨hm, hrest⟩ k p q hp hq
      cases k with
      | zero =>
        simp only [List.getElem?_cons_zero, Option.some.injEq] at hp hq
        subst hp hq
        exact hstep.1 hm
      | succ k =>
        rw [List.getElem?_cons_succ] at hp hq
        exact (ih b _ ⟨_, rfl, e2, hm⟩ hl').1 hrest k p q hp hq
    · intro h
      have hm := hstep.2 (h 0 a b rfl rfl)
      refine ⟨hm, (ih b _ ⟨_, rfl, e2, hm⟩ hl').2 ?_⟩
      intro k p q hp hq
      exact h (k + 1) p q (by simpa using hp) (by simpa using hq)

/-- **C105, the memory, exactly.** The steps of a frame show the memory as it was before their
instructions (those recorded with memory) if and only if it did not change between two steps recorded one
after the other of which the second takes the memory of the first. Instructions in between that the
configuration of their moment did not ask to record do not keep a step from doing so. -/
theorem C105_memory_exact (t : CTx) (hwf : t.plain.WF) (hsafe : t.body.Safe) :
    ∃ s, TI.runWith TI.new t.hooks = .ok s ∧ s.arena.length = (framesC t).length ∧
      ∀ (j : Nat) (f : FrameCtx × CBody) (x : Node), (framesC t)[j]? = some f → s.arena[j]? = some x →
        (x.trace.steps.map (·.memory) = (instrsC f.2).map wantedMemory ↔
          ∀ (k : Nat) (a b : Config × Instr), (instrsC f.2)[k]? = some a → (instrsC f.2)[k + 1]? = some b →
            Takes a b → b.2.before.memory = a.2.before.memory) := by
  obtain ⟨s, hr, _, har, hlen⟩ := run_txC t hwf hsafe
  refine ⟨s, hr, by rw [har, List.length_zipWith]; omega, ?_⟩
  intro j f x hf hx
  obtain ⟨cfg, hc⟩ := zipWith_get (fun cfg (f : FrameCtx × CBody) => nodeOfC cfg f.1 f.2) _ _ hlen j f hf
  rw [har, hc] at hx
  cases hx
  have hsafe' := instrsC_safe f.2 (framesC_facts t hwf hsafe f (List.mem_of_getElem? hf)).2.2.1
  rw [nodeOfC_steps]
  cases hi : instrsC f.2 with
  | nil => simp [stepsForC]
  | cons a l =>
    rw [hi] at hsafe'
    obtain ⟨h1, h2⟩ := hsafe' a (by simp)
    obtain ⟨e1, e2, _⟩ := stepFor_fields (d := f.1.depth + 1) none h1 h2
    have hm : (stepFor a.1 (f.1.depth + 1) a.2 none).memory = wantedMemory a := by
      rw [e1]
      unfold TI.stepMemory wantedMemory
      split
      · split <;> rfl
      · rfl
    simp only [stepsForC, List.map_cons, List.cons.injEq, hm, true_and]
    rw [stepsForC_memory _ l a _ ⟨_, rfl, e2, hm⟩ (fun c hc => hsafe' c (List.mem_cons_of_mem a hc))]
    simp only [List.getElem?_cons_succ]

/-! ## Refutations -/

/-- Nothing but the frames is recorded. -/
def quiet : Config := { Config.all with recordSteps := false, recordLogs := false }

/-- A frame of a PUSH1 recorded with memory, an MSTORE during which steps are not recorded, and a POP
recorded with memory again. -/
def paused : CTx where
  cfg := Config.all
  hdr := Example.callHdr .Call 0x99 0xa 0xa 0
  body := .act Config.all (.step { Example.interp 0x60 0 100 .Continue with memory := [] } Example.ctx
      { Example.interp 0x60 2 97 .Continue with memory := [] } Example.ctx)
    (.act quiet (.step { Example.interp Op.MSTORE 2 97 .Continue with memory := [] } Example.ctx
      (Example.interp Op.MSTORE 3 91 .Continue) Example.ctx)
    (.act Config.all (Example.stepAct Op.POP 3 91)
    (.act quiet (.log Example.ctx ⟨0xa, ⟨[], []⟩⟩) .nil)))
  cfg' := quiet
  out := Example.out .Stop

theorem paused_wf : paused.plain.WF :=
  ⟨fun _ => rfl,
   fun h => absurd h (by simp [CTx.plain, paused, Example.callHdr, Header.isPrecompile, Example.ctx]), trivial⟩

theorem paused_safe : paused.body.Safe := by
  refine ⟨?_, ?_, ?_, ?_, trivial⟩ <;> intro i c i' c' h <;> cases h <;>
    exact Example.stepSafe _ _ _ _ (by decide)

/-- **C105, refuted** for the memory: the recording of steps is paused over an MSTORE, and the step
recorded after it shows the memory from before. -/
theorem C105_refuted_memory :
    paused.plain.WF ∧ paused.body.Safe ∧
    ∃ s x, TI.runWith TI.new paused.hooks = .ok s ∧ s.arena[0]? = some x ∧
      x.trace.steps.map (·.memory) = [some [], some []] ∧
      (instrsC paused.body).map wantedMemory = [some [], some [1, 2, 3]] := by
  refine ⟨paused_wf, paused_safe, ?_⟩
  exact ⟨_, _, rfl, rfl, by decide, by decide⟩

/-- **C105, refuted** for changes during an instruction: steps are switched on between the two hook calls
of the first instruction, and recording panics. -/
theorem C105_refuted_during :
    TI.runWith TI.new
      [(quiet, (Example.callHdr .Call 0x99 0xa 0xa 0).enter 0),
       (quiet, .step (Example.interp 0x60 0 100 .Continue) (Example.ctx.at 1)),
       (Config.all, .stepEnd (Example.interp 0x60 2 97 .Continue) (Example.ctx.at 1))] =
      .error (.expect "can't fill step without starting a step first") := rfl

end Verif.Props
