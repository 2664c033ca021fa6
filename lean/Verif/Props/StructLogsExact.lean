import Verif.Props.StructLogs
import Verif.Props.VmExamples
import Verif.Lemmas.Logged
/-!
# C72: the struct logs of any recording
-/
namespace Verif.Props
open Spec Rec

/-- The error of a struct log: the result of the instruction, if it failed or entered a frame. -/
def errorOf (a : Instr) : Option String :=
  match a.after with
  | some (i', _) => if instrFailed a || instrPaused a then some i'.result.debug else none
  | none => none

theorem asError_eq (r : InstructionResult) :
    (if decide (InstructionResult.Revert.toU8 ≤ r.toU8) = true then some r.debug else none) =
      if (!r.isOk && r != .CallOrCreate) || r == .CallOrCreate then some r.debug else none := by
  cases r <;> rfl

/-- What a step shows in a struct log. -/
theorem readLog_step (cfg : Config) (opts : GethOptions) (f : FrameCtx) (a : Instr)
    (prev : Option CallTraceStep) (hrec : records cfg a.before.op = true)
    (hs : ∀ i' c', a.after = some (i', c') → StepSafe cfg a.before a.ctx i' c') :
    readLog ((stepFor cfg (f.depth + 1) a prev).toStructLog opts) = expectedLog (f, a) ∧
    ((stepFor cfg (f.depth + 1) a prev).toStructLog opts).error = errorOf a := by
  have hrf := (stepFor_fields (d := f.depth + 1) prev hrec hs).2.2.1
  have hview : readStep (stepFor cfg (f.depth + 1) a prev) =
      match a.after with
      | some (i', _) => stepView cfg (f.depth + 1) a.before (if cfg.recordStackSnapshots = .Pushes
            then some (topItems (Op.stackPushCount a.before.op) i'.stack) else none)
          (a.before.gas.remaining - i'.gas.remaining) i'.result
      | none => stepView cfg (f.depth + 1) a.before none 0 .Continue := by
    unfold stepFor
    cases ha : a.after with
    | none => exact readStep_newStep ..
    | some p =>
      obtain ⟨i', c'⟩ := p
      exact readStep_finishStep hrec (hs i' c' ha)
  generalize stepFor cfg (f.depth + 1) a prev = st at hrf hview
  constructor
  · simp only [readLog, CallTraceStep.toStructLog, expectedLog, LogView.mk.injEq]
    have hrfe : (if st.gasRefundCounter > 0 then some st.gasRefundCounter else none) =
        if a.before.gas.refunded % 2 ^ 64 = 0 then none
          else some (a.before.gas.refunded % 2 ^ 64).toNat := by
      rw [hrf, i64AsU64]
      by_cases h0 : a.before.gas.refunded % 2 ^ 64 = 0
      · rw [if_neg (by omega), if_pos h0]
      · rw [if_pos (by omega), if_neg h0]
    refine ⟨?_, ?_, ?_, ?_, ?_, hrfe⟩
    all_goals
      cases ha : a.after with
      | none =>
        rw [ha] at hview
        simp only [readStep, stepView, StepView.mk.injEq] at hview
        simp [hview]
      | some p =>
        rw [ha] at hview
        simp only [readStep, stepView, StepView.mk.injEq] at hview
        simp [hview]
  · show (if decide (InstructionResult.Revert.toU8 ≤ st.status.toU8) = true
      then some st.status.debug else none) = errorOf a
    have hst : st.status = match a.after with | some (i', _) => i'.result | none => .Continue := by
      cases ha : a.after with
      | none =>
        rw [ha] at hview
        exact congrArg StepView.status hview
      | some p =>
        rw [ha] at hview
        exact congrArg StepView.status hview
    rw [hst, errorOf]
    unfold instrFailed instrPaused
    cases ha : a.after with
    | none => simp [InstructionResult.toU8]
    | some p => exact asError_eq p.1.result

theorem getD_true_iff (o : Option Bool) : o.getD false = true ↔ o = some true := by
  rcases o with _ | _ | _ <;> simp

/-- **C72, exactly.** For every execution, configuration and options: `geth_traces` does not panic; it
lists the recorded instructions of the transaction, where the i-th recorded CALL- or CREATE-like one is
followed by those listed for the i-th shown call, and so on (`logged`). Each log has depth, pc, opcode,
gas, cost and refund of its instruction; the result of the instruction as error if it failed or entered
a frame; the final output of its frame as return data if enabled; the stack before the instruction if
full stacks are recorded and not disabled; the memory of the recorded step in words if enabled; and, if
storage changes are recorded and storage is enabled, after a storage change the map of the slots of its contract as they were changed
by the instructions listed so far. -/
theorem C72_exact (cfg : Config) (t : Tx) (opts : GethOptions) (gas : Nat) (ret : Bytes)
    (hwf : t.WF) (hsafe : Safe cfg t.body) :
    ∃ s out, TI.run cfg TI.new t.events = .ok s ∧ gethTraces s.arena gas ret opts = .ok out ∧
      out.failed = !t.out.result.result.isOk ∧ out.gas = gas ∧ out.returnValue = ret ∧
      out.structLogs.length = (logged cfg t).length ∧
      ∀ (k : Nat) (f : FrameCtx) (a : Instr) (log : StructLog),
        (logged cfg t)[k]? = some (f, a) → out.structLogs[k]? = some log →
        readLog log = expectedLog (f, a) ∧ log.error = errorOf a ∧
        log.returnData = (if opts.enableReturnData = some true then some f.out.result.output
          else none) ∧
        log.stack = (if cfg.recordStackSnapshots = .Full ∧ opts.disableStack ≠ some true
          then some a.before.stack else none) ∧
        (∃ (x : Node) (j : Nat) (st : CallTraceStep), s.arena[f.index]? = some x ∧ (instrs cfg f.body)[j]? = some a ∧
          x.trace.steps[j]? = some st ∧ st.memory.isSome = cfg.recordMemorySnapshots ∧
          log.memory = if opts.enableMemory = some true then st.memory.map convertMemory else none) ∧
        log.memorySize = none ∧
        (cfg.recordStateDiff = false ∨ opts.disableStorage = some true ∨ reportedChange a = none →
          log.storage = none) ∧
        (cfg.recordStateDiff = true → opts.disableStorage ≠ some true → reportedChange a ≠ none →
          ∃ m, log.storage = some m ∧ m.Pairwise (fun x y => x.1.toNat < y.1.toNat) ∧
            ∀ key value, (key, value) ∈ m ↔ latestWrite a.before.contract key
              ((((logged cfg t).take (k + 1)).map
                (fun e => (e.2.before.contract, reportedChange e.2))).reverse) = some value) := by
  obtain ⟨s, hr, _, har, _⟩ := run_frames cfg t hwf hsafe
  have hg := gethTraces_any cfg t opts gas ret hwf
  rw [← har] at hg
  have hlog := tx3_logged cfg t
  have hspec := tx3_spec cfg t hsafe
  have hat := tx3_at cfg t
  generalize tx3 cfg t = l at *
  obtain ⟨L, h1, h2, h3⟩ := processAll_spec cfg opts l {} [] (fun _ =>
    ⟨OMap.sorted_nil, fun a cs h => by simp [OMap.get?] at h, fun a k => rfl⟩)
  refine ⟨s, _, hr, hg, rfl, rfl, rfl, ?_, ?_⟩
  · simp only [h1, List.nil_append, h2, ← hlog, List.length_map]
  intro k f a log hk hl
  simp only [h1, List.nil_append] at hl
  rw [← hlog, List.getElem?_map] at hk
  cases hlk : l[k]? with
  | none => rw [hlk] at hk; nomatch hk
  | some e =>
    rw [hlk] at hk
    simp only [Option.map_some, Option.some.injEq, drop3, Prod.mk.injEq] at hk
    have hm := List.mem_of_getElem? hlk
    obtain ⟨hrec, hs, prev, hp⟩ := hspec e hm
    have hok := h3 k e log hlk hl
    obtain ⟨e1, e2, e3⟩ := e
    obtain ⟨rfl, rfl⟩ := hk
    dsimp only at hp hrec hs
    subst hp
    obtain ⟨v1, v2⟩ := readLog_step cfg opts e1 e2 prev hrec hs
    obtain ⟨hfr, j, hj1, hj2⟩ := hat _ hm
    have hview : (readStep (stepFor cfg (e1.depth + 1) e2 prev)).stack =
          (if cfg.recordStackSnapshots = .Full then some e2.before.stack else none) ∧
        (readStep (stepFor cfg (e1.depth + 1) e2 prev)).hasMemory = cfg.recordMemorySnapshots := by
      unfold stepFor
      cases ha : e2.after with
      | none => dsimp only; rw [readStep_newStep]; exact ⟨rfl, rfl⟩
      | some p =>
        obtain ⟨i', c'⟩ := p
        dsimp only
        rw [readStep_finishStep hrec (hs i' c' ha)]; exact ⟨rfl, rfl⟩
    have hb := hok.base
    have hen : opts.isStorageEnabled = true ↔ opts.disableStorage ≠ some true := by
      unfold GethOptions.isStorageEnabled
      rcases opts.disableStorage with _ | _ | _ <;> simp
    have hch : cfg.recordStateDiff = true →
        (stepFor cfg (e1.depth + 1) e2 prev).storageChange.map (fun c => (c.key, c.value)) =
          reportedChange e2 ∧
        (stepFor cfg (e1.depth + 1) e2 prev).contract = e2.before.contract := by
      intro hd
      have := stepWrite_eq (d := e1.depth + 1) prev hrec hd hs
      exact ⟨congrArg Prod.snd this, congrArg Prod.fst this⟩
    refine ⟨?_, ?_, ?_, ?_, ?_, ?_, ?_, ?_⟩
    · rw [← v1, ← hok.base]; rfl
    · rw [← v2, ← hok.base]
    · rw [hok.ret]
      have : opts.isReturnDataEnabled = true ↔ opts.enableReturnData = some true := by
        unfold GethOptions.isReturnDataEnabled
        rcases opts.enableReturnData with _ | _ | _ <;> simp
      have ho : (nodeOf cfg e1).trace.output = e1.out.result.output := by
        simp only [nodeOf, leaveNode, TI.fillTrace]
        split <;> rfl
      by_cases hc : opts.enableReturnData = some true
      · rw [if_pos (this.2 hc), if_pos hc, ho]
      · rw [if_neg (fun h => hc (this.1 h)), if_neg hc]
    · have := congrArg StructLog.stack hb
      simp only [CallTraceStep.toStructLog, GethOptions.isStackEnabled] at this
      rw [this]
      have hv := hview.1
      simp only [readStep] at hv
      rw [hv]
      by_cases hF : cfg.recordStackSnapshots = .Full
      · by_cases hd : opts.disableStack = some true
        · simp [hd]
        · simp [hF, hd, getD_true_iff]
      · simp [hF]
    · refine ⟨nodeOf cfg e1, j, stepFor cfg (e1.depth + 1) e2 prev, ?_, hj1, ?_, ?_, ?_⟩
      · rw [har]; exact frames_lookup cfg t e1 hfr
      · rw [nodeOf_steps]; exact hj2
      · exact hview.2
      · have := congrArg StructLog.memory hb
        simp only [CallTraceStep.toStructLog, GethOptions.isMemoryEnabled] at this
        rw [this]
        by_cases he : opts.enableMemory = some true
        · simp [he]
        · simp [he, getD_true_iff]
    · exact congrArg StructLog.memorySize hb
    · intro h
      apply hok.absent
      rcases h with h | h | h
      · exact Or.inr ((stepFor_fields (d := e1.depth + 1) prev hrec hs).2.2.2.2 (Or.inr h))
      · left
        cases hx : opts.isStorageEnabled with
        | false => rfl
        | true => exact absurd h (hen.1 hx)
      · right
        cases hd : cfg.recordStateDiff with
        | false => exact (stepFor_fields (d := e1.depth + 1) prev hrec hs).2.2.2.2 (Or.inr hd)
        | true =>
          have := (hch hd).1
          rw [h] at this
          simpa using this
    · intro hd hst hne
      have hne' : (stepFor cfg (e1.depth + 1) e2 prev).storageChange ≠ none := by
        intro h0
        have := (hch hd).1
        rw [h0] at this
        exact hne this.symm
      obtain ⟨m, hm1, hm2, hm3⟩ := hok.present (hen.2 hst) hne'
      refine ⟨m, hm1, hm2, ?_⟩
      intro key value
      have hmem : (key, value) ∈ m ↔ OMap.get? m key = some value :=
        ⟨fun hx => OMap.get?_of_mem hm2 hx, OMap.mem_of_get?⟩
      rw [hmem, hm3, (hch hd).2]
      have hhist : stepWrite (stepFor cfg (e1.depth + 1) e2 prev) ::
          (((l.take k).map (fun e => stepWrite e.2.2)).reverse ++ []) =
          (((logged cfg t).take (k + 1)).map
            (fun e => (e.2.before.contract, reportedChange e.2))).reverse := by
        have hw : ∀ e ∈ l, stepWrite e.2.2 = (e.2.1.before.contract, reportedChange e.2.1) := by
          intro e he
          obtain ⟨r, s', pr, hpe⟩ := hspec e he
          rw [hpe]
          exact stepWrite_eq pr r hd s'
        rw [← hlog, ← List.map_take, List.map_map, List.take_add_one, hlk]
        simp only [Option.toList_some, List.map_append, List.map_cons, List.map_nil,
          List.reverse_append, List.reverse_cons, List.reverse_nil, List.nil_append,
          List.cons_append, List.append_nil, Function.comp, drop3]
        congr 1
        · exact hw _ hm
        · congr 1
          apply List.map_congr_left
          intro e he
          exact hw e (List.mem_of_mem_take he)
      rw [hhist]

/-- A filter that records these opcodes only. -/
def onlyOps (ops : List OpCode) : Option OpcodeFilter :=
  some (ops.foldl OpcodeFilter.enable OpcodeFilter.new)

/-- The example meets the hypotheses of `C72_exact` with a configuration that records only some
opcodes. -/
example : Example.tx.WF ∧
    Safe { Config.all with recordOpcodesFilter := onlyOps [Op.CALL, Op.ADD] } Example.tx.body :=
  ⟨Example.wf, Example.safe _⟩

theorem loggedBelow_noSub (cfg : Config) (b : Body) : ∀ d p v n, b.hasSub = false →
    loggedBelow cfg d p v n b = [] := by
  induction b with
  | nil => intros; rfl
  | act a rest ih => intro d p v n h; exact ih d p v n h
  | sub h b o rest => intro d p v n h; nomatch h

/-- Weaving follows the execution, if a pending call's list is given first. -/
theorem weave_chron (cfg : Config) (hc : ∀ op, entersFrame op = true → records cfg op = true)
    (b : Body) : ∀ (f : FrameCtx) (n : Nat) (pending : Bool), Attached pending b →
      (∀ g ∈ subFrames (f.depth + 1) f.index f.value n b, Spec.excluded cfg g = false) →
      (if pending = true then
        (loggedBelow cfg (f.depth + 1) f.index f.value n b).head?.getD [] ++
          weave f (instrs cfg b) (loggedBelow cfg (f.depth + 1) f.index f.value n b).tail
      else weave f (instrs cfg b) (loggedBelow cfg (f.depth + 1) f.index f.value n b)) =
      (chronBody f n b).filter (fun e => records cfg e.2.before.op) := by
  induction b with
  | nil => intro f n p _ _; cases p <;> rfl
  | act a rest ih =>
    intro f n p hat hex
    have hred : (if p = true then
        (loggedBelow cfg (f.depth + 1) f.index f.value n (.act a rest)).head?.getD [] ++
          weave f (instrs cfg (.act a rest))
            (loggedBelow cfg (f.depth + 1) f.index f.value n (.act a rest)).tail
      else weave f (instrs cfg (.act a rest))
        (loggedBelow cfg (f.depth + 1) f.index f.value n (.act a rest))) =
      weave f (instrs cfg (.act a rest)) (loggedBelow cfg (f.depth + 1) f.index f.value n rest) := by
      cases p with
      | false => rfl
      | true =>
        rw [if_pos rfl]
        have h0 := loggedBelow_noSub cfg rest (f.depth + 1) f.index f.value n (hat.1 rfl)
        simp only [loggedBelow, h0]
        rfl
    rw [hred]
    have ih' := ih f n (isCallStep a) hat.2 hex
    have hone : ∀ x : Instr, entersFrame x.before.op = isCallStep a →
        weave f ((if records cfg x.before.op then [x] else []) ++ instrs cfg rest)
          (loggedBelow cfg (f.depth + 1) f.index f.value n rest) =
        ((f, x) :: chronBody f n rest).filter (fun e => records cfg e.2.before.op) := by
      intro x hx
      rw [← hx] at ih'
      cases hr : records cfg x.before.op with
      | true =>
        rw [List.filter_cons_of_pos (by simpa using hr), ← ih']
        rfl
      | false =>
        have hn : entersFrame x.before.op = false := by
          cases he : entersFrame x.before.op with
          | false => rfl
          | true => rw [hc _ he] at hr; nomatch hr
        rw [List.filter_cons_of_neg (by simpa using hr), ← ih', hn]
        rfl
    cases a with
    | step i c i' c' => exact hone ⟨i, c, some (i', c')⟩ rfl
    | aborted i c => exact hone ⟨i, c, none⟩ rfl
    | _ => exact ih'
  | sub h b o rest ihb ihr =>
    intro f n p hat hex
    obtain ⟨rfl, hb, hrest⟩ := hat
    have hg : Spec.excluded cfg ⟨n, some f.index, f.depth + 1, some f.value, h, b, o⟩ = false :=
      hex _ (by simp [subFrames])
    have e1 := ihb ⟨n, some f.index, f.depth + 1, some f.value, h, b, o⟩ (n + 1) false hb
      (fun g hg' => hex g (by
        simp only [subFrames, List.mem_cons, List.mem_append]; exact Or.inr (Or.inl hg')))
    have e2 := ihr f (n + 1 + b.size) false hrest (fun g hg' => hex g (by
        simp only [subFrames, List.mem_cons, List.mem_append]; exact Or.inr (Or.inr hg')))
    rw [if_neg Bool.false_ne_true] at e1 e2
    rw [if_pos rfl]
    simp only [loggedBelow, hg, Bool.false_eq_true, if_false, chronBody, List.filter_append]
    rw [← e1, ← e2]
    rfl

/-- **C72.** If every CALL- and CREATE-like opcode is recorded and no frame is left out, the struct logs
list, in the order of execution, exactly the instructions whose opcode is recorded. What is missing for
the full statement: without these conditions it is false (`C72_refuted_lost`, `C72_refuted_order`). -/
theorem C72_filtered_partial (cfg : Config) (t : Tx) (opts : GethOptions) (gas : Nat) (ret : Bytes)
    (hwf : t.WF) (hsafe : Safe cfg t.body) (hatt : Attached false t.body)
    (hc : ∀ op, entersFrame op = true → records cfg op = true)
    (hcalls : ∀ f ∈ frames t, Spec.excluded cfg f = false) :
    ∃ s out, TI.run cfg TI.new t.events = .ok s ∧ gethTraces s.arena gas ret opts = .ok out ∧
      out.structLogs.map readLog =
        ((chron t).filter (fun e => records cfg e.2.before.op)).map expectedLog := by
  obtain ⟨s, out, hr, hg, _, _, _, hlen, h⟩ := C72_exact cfg t opts gas ret hwf hsafe
  refine ⟨s, out, hr, hg, ?_⟩
  have hw : logged cfg t = (chron t).filter (fun e => records cfg e.2.before.op) :=
    weave_chron cfg hc t.body (rootOf t) 1 false hatt (fun g hg => hcalls g (List.mem_cons_of_mem _ hg))
  rw [← hw]
  apply List.ext_getElem?
  intro k
  rw [List.getElem?_map, List.getElem?_map]
  cases hk : (logged cfg t)[k]? with
  | none =>
    rw [List.getElem?_eq_none_iff] at hk
    rw [List.getElem?_eq_none (by omega)]
    rfl
  | some e =>
    have hlt : k < out.structLogs.length := by
      rw [hlen]
      exact (List.getElem?_eq_some_iff.1 hk).1
    rw [List.getElem?_eq_getElem hlt]
    simp only [Option.map_some, Option.some.injEq]
    exact (h k e.1 e.2 _ hk (List.getElem?_eq_getElem hlt)).1

/-- The hypotheses are met with a filter that records the calls and the additions. -/
example : let cfg := { Config.all with recordOpcodesFilter :=
      (onlyOps [0xf0, 0xf1, 0xf2, 0xf4, 0xf5, 0xfa, Op.ADD]) }
    Example.tx.WF ∧ Safe cfg Example.tx.body ∧ Attached false Example.tx.body ∧
    (∀ op, entersFrame op = true → records cfg op = true) ∧
    (∀ f ∈ frames Example.tx, Spec.excluded cfg f = false) ∧
    ((chron Example.tx).filter (fun e => records cfg e.2.before.op)).length <
      (chron Example.tx).length := by
  refine ⟨Example.wf, Example.safe _, example_attached, ?_, fun _ _ => rfl, by decide⟩
  intro op h
  simp only [entersFrame, Bool.or_eq_true, beq_iff_eq] at h
  rcases h with ((((rfl | rfl) | rfl) | rfl) | rfl) | rfl <;> decide

/-- The logs of a run, as pairs of depth and opcode. -/
def logOps (cfg : Config) (t : Tx) : Option (List (Nat × OpCode)) :=
  match TI.run cfg TI.new t.events with
  | .ok s =>
    match gethTraces s.arena 5 [] {} with
    | .ok out => some (out.structLogs.map (fun l => (l.depth, l.op)))
    | _ => none
  | _ => none

set_option maxRecDepth 20000 in
open VmExample in
/-- **C72, refuted (lost).** With a filter that records additions only, the struct logs do not list the
addition of a called contract, although it is recorded. -/
theorem C72_refuted_lost : let cfg := { Config.all with recordOpcodesFilter := onlyOps [Op.ADD] }
    (tx2 flat nested).WF ∧ (∀ cfg, Safe cfg (tx2 flat nested).body) ∧
    Attached false (tx2 flat nested).body ∧
    logOps cfg (tx2 flat nested) = some [] ∧
    ((chron (tx2 flat nested)).filter (fun e => records cfg e.2.before.op)).map
      (fun e => (e.1.depth + 1, e.2.before.op)) = [(2, Op.ADD), (2, Op.ADD)] := by
  refine ⟨wf21, safe21, attached _ _ attached_flat attached_nested, ?_, ?_⟩
  · decide +kernel
  · decide +kernel

set_option maxRecDepth 20000 in
open VmExample in
/-- **C72, refuted (order).** When calls to precompiles are left out, the instructions of the contract
called second are listed after the call of the precompile, before the instruction that calls it. -/
theorem C72_refuted_order : let cfg := { Config.all with excludePrecompileCalls := true }
    txPre.WF ∧ (∀ cfg, Safe cfg txPre.body) ∧
    (chron txPre).map (fun e => (e.1.depth + 1, e.2.before.op)) =
      [(1, Op.CALL), (1, Op.CALL), (2, Op.ADD), (1, 0xf3)] ∧
    logOps cfg txPre = some [(1, Op.CALL), (2, Op.ADD), (1, Op.CALL), (1, 0xf3)] := by
  refine ⟨wfPre, safePre, ?_, ?_⟩
  · decide +kernel
  · decide +kernel

/-! ### Which recorded instructions are listed -/

theorem weave_perm (f : FrameCtx) (as : List Instr) : ∀ subs,
    ∃ missing, (weave f as subs ++ missing).Perm (as.map (fun a => (f, a)) ++ subs.flatten) ∧
      (subs.length ≤ (as.filter (fun a => entersFrame a.before.op)).length → missing = []) := by
  induction as with
  | nil =>
    intro subs
    refine ⟨subs.flatten, ?_, ?_⟩
    · simp [weave]
    · intro h
      cases subs with
      | nil => rfl
      | cons x y => simp at h
  | cons a as ih =>
    intro subs
    cases he : entersFrame a.before.op with
    | false =>
      obtain ⟨m, h1, h2⟩ := ih subs
      refine ⟨m, ?_, fun h => h2 ?_⟩
      · simp only [weave, he, Bool.false_eq_true, if_false, List.map_cons, List.cons_append]
        exact h1.cons _
      · simpa [List.filter_cons, he] using h
    | true =>
      cases subs with
      | nil =>
        obtain ⟨m, h1, h2⟩ := ih []
        refine ⟨m, ?_, fun _ => h2 (by simp)⟩
        simp only [weave, he, if_true, List.map_cons, List.cons_append, List.head?_nil,
          Option.getD_none, List.nil_append, List.tail_nil]
        exact h1.cons _
      | cons x subs =>
        obtain ⟨m, h1, h2⟩ := ih subs
        refine ⟨m, ?_, fun h => h2 ?_⟩
        · simp only [weave, he, if_true, List.map_cons, List.cons_append, List.head?_cons,
            Option.getD_some, List.tail_cons, List.flatten_cons]
          refine List.Perm.cons _ ?_
          rw [List.append_assoc]
          refine (h1.append_left x).trans ?_
          rw [← List.append_assoc, ← List.append_assoc]
          exact List.perm_append_comm.append_right _
        · simpa [List.filter_cons, he] using h

/-- A frame has at least as many recorded instructions that enter a frame as shown calls. -/
def CallsRecorded (cfg : Config) (f : FrameCtx) : Prop :=
  (shownCalls cfg f).length ≤
    ((instrs cfg f.body).filter (fun a => entersFrame a.before.op)).length

theorem loggedBelow_length (cfg : Config) (b : Body) : ∀ d p v n,
    (loggedBelow cfg d p v n b).length = (shownBelow cfg d p v n b).length := by
  induction b with
  | nil => intros; rfl
  | act a rest ih => intro d p v n; exact ih d p v n
  | sub h b o rest _ ih =>
    intro d p v n
    simp only [loggedBelow, shownBelow, List.length_append, ih]
    split <;> rfl

theorem locate_perm (cfg : Config) (b : Body) : ∀ d p v n path k,
    ∃ missing, ((loggedBelow cfg d p v n b).flatten ++ missing).Perm
        ((locate cfg d p v n path k b).flatMap
          (fun e => (instrs cfg e.2.body).map (fun a => (e.2, a)))) ∧
      ((∀ e ∈ locate cfg d p v n path k b, CallsRecorded cfg e.2) → missing = []) := by
  induction b with
  | nil => intros; exact ⟨[], List.Perm.refl _, fun _ => rfl⟩
  | act a rest ih => intro d p v n path k; exact ih d p v n path k
  | sub h b o rest ihb ihr =>
    intro d p v n path k
    cases hx : Spec.excluded cfg ⟨n, some p, d, some v, h, b, o⟩ with
    | true =>
      simp only [loggedBelow, locate, hx, if_true, List.nil_append]
      exact ihr d p v (n + 1 + b.size) path k
    | false =>
      simp only [loggedBelow, locate, hx, Bool.false_eq_true, if_false, List.cons_append,
        List.nil_append, List.flatten_cons, List.flatMap_cons, List.flatMap_append]
      obtain ⟨m1, p1, q1⟩ := ihb (d + 1) n (valueInScope (some v) h) (n + 1) (path ++ [k]) 0
      obtain ⟨m2, p2, q2⟩ := ihr d p v (n + 1 + b.size) path (k + 1)
      obtain ⟨m3, p3, q3⟩ := weave_perm ⟨n, some p, d, some v, h, b, o⟩ (instrs cfg b)
        (loggedBelow cfg (d + 1) n (valueInScope (some v) h) (n + 1) b)
      refine ⟨m3 ++ (m1 ++ m2), ?_, ?_⟩
      · have e1 := (p3.append_right m1)
        rw [List.append_assoc, List.append_assoc] at e1
        have e2 := e1.trans (p1.append_left _)
        have e3 := e2.append p2
        refine List.Perm.trans ?_ (List.Perm.trans e3 ?_)
        · generalize weave _ _ _ = w
          generalize (loggedBelow cfg d p v (n + 1 + b.size) rest).flatten = r
          rw [List.append_assoc, List.append_assoc, List.append_assoc]
          refine List.Perm.append_left w ?_
          rw [← List.append_assoc r m3]
          refine (List.perm_append_comm.append_right _).trans ?_
          rw [List.append_assoc]
          refine List.Perm.append_left m3 ?_
          rw [← List.append_assoc, ← List.append_assoc]
          exact List.perm_append_comm.append_right _
        · rw [List.append_assoc]
      · intro hall
        rw [q1 (fun e he => hall e (by simp [he])), q2 (fun e he => hall e (by simp [he])), q3]
        · rfl
        · rw [loggedBelow_length]
          exact hall (path ++ [k], ⟨n, some p, d, some v, h, b, o⟩) (by simp)

/-- **C72, once each.** The struct logs list recorded instructions of shown frames only and none twice;
they list all of them if every shown frame has at least as many recorded instructions that enter a frame
as shown calls. -/
theorem C72_once (cfg : Config) (t : Tx) (opts : GethOptions) (gas : Nat) (ret : Bytes)
    (hwf : t.WF) (hsafe : Safe cfg t.body) :
    ∃ s out listed missing, TI.run cfg TI.new t.events = .ok s ∧
      gethTraces s.arena gas ret opts = .ok out ∧
      out.structLogs.map readLog = listed.map expectedLog ∧
      (listed ++ missing).Perm (recordedInstrs cfg t) ∧
      ((∀ e ∈ located cfg t, CallsRecorded cfg e.2) → missing = []) := by
  obtain ⟨s, out, hr, hg, _, _, _, hlen, h⟩ := C72_exact cfg t opts gas ret hwf hsafe
  obtain ⟨m1, p1, q1⟩ := locate_perm cfg t.body 1 0 (valueInScope none t.hdr) 1 [] 0
  obtain ⟨m2, p2, q2⟩ := weave_perm (rootOf t) (instrs cfg t.body)
    (loggedBelow cfg 1 0 (valueInScope none t.hdr) 1 t.body)
  refine ⟨s, out, logged cfg t, m2 ++ m1, hr, hg, ?_, ?_, ?_⟩
  · apply List.ext_getElem?
    intro k
    rw [List.getElem?_map, List.getElem?_map]
    cases hk : (logged cfg t)[k]? with
    | none =>
      rw [List.getElem?_eq_none_iff] at hk
      rw [List.getElem?_eq_none (by omega)]
      rfl
    | some e =>
      have hlt : k < out.structLogs.length := by
        rw [hlen]
        exact (List.getElem?_eq_some_iff.1 hk).1
      rw [List.getElem?_eq_getElem hlt]
      simp only [Option.map_some, Option.some.injEq]
      exact (h k e.1 e.2 _ hk (List.getElem?_eq_getElem hlt)).1
  · have e1 := (p2.append_right m1)
    rw [List.append_assoc, List.append_assoc] at e1
    exact e1.trans (p1.append_left _)
  · intro hall
    rw [q1 (fun e he => hall e (List.mem_cons_of_mem _ he)), q2]
    · rfl
    · rw [loggedBelow_length]
      exact hall _ (List.mem_cons_self ..)

/-- Both cases occur: with all opcodes recorded the example has its calls recorded, with additions only
it has not. -/
example : (∀ e ∈ located Config.all Example.tx, CallsRecorded Config.all e.2) ∧
    ¬ CallsRecorded { Config.all with recordOpcodesFilter := onlyOps [Op.ADD] } (rootOf Example.tx) := by
  unfold CallsRecorded
  decide +kernel

end Verif.Props
