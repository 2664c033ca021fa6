import Verif.Props.Steps
import Verif.Lemmas.StructLogs
import Verif.Spec.Changes
/-!
# Geth struct logs: C16 (order), C17 (options), C18 (storage), C19 (error and return data)
-/
namespace Verif.Props
open Spec Rec

/-! ## Helpers -/

theorem seqBody_all (cfg : Config) {P : Interp → Ctx → Interp → Ctx → Prop} (b : Body)
    (h : b.AllSteps P) : ∀ f n prev, ∀ e ∈ seqBody cfg f n prev b, ∀ i' c',
      e.2.1.after = some (i', c') → P e.2.1.before e.2.1.ctx i' c' := by
  induction b with
  | nil => intro f n prev e he; simp [seqBody] at he
  | act a rest ih =>
    intro f n prev e he i' c' ha
    cases a with
    | step i c i' c' =>
      simp only [seqBody, List.mem_cons] at he
      rcases he with rfl | he
      · simp only [Option.some.injEq, Prod.mk.injEq] at ha
        obtain ⟨rfl, rfl⟩ := ha
        exact h.1
      · exact ih h.2 _ _ _ e he _ _ ha
    | aborted i c =>
      simp only [seqBody, List.mem_cons] at he
      rcases he with rfl | he
      · nomatch ha
      · exact ih h _ _ _ e he _ _ ha
    | log c l => exact ih h _ _ _ e he _ _ ha
    | selfdestruct x y z => exact ih h _ _ _ e he _ _ ha
  | sub hd b o rest ihb ihr =>
    intro f n prev e he i' c' ha
    simp only [seqBody, List.mem_append] at he
    rcases he with he | he
    · exact ihb h.1 _ _ _ e he _ _ ha
    · exact ihr h.2 _ _ _ e he _ _ ha

/-- The storage change of a step is the reported change of the instruction. -/
theorem stepWrite_eq {cfg : Config} {d : Nat} {a : Instr} (prev : Option CallTraceStep)
    (hr : records cfg a.before.op = true) (hd : cfg.recordStateDiff = true)
    (hs : ∀ i' c', a.after = some (i', c') → StepSafe cfg a.before a.ctx i' c') :
    stepWrite (stepFor cfg d a prev) = (a.before.contract, reportedChange a) := by
  obtain ⟨_, _, _, h3, h4⟩ := stepFor_fields (d := d) prev hr hs
  unfold stepWrite
  rw [(stepFor_op cfg d a prev).2]
  congr 1
  cases ha : a.after with
  | none => rw [h4 (Or.inl ha)]; simp [reportedChange, ha]
  | some p =>
    obtain ⟨i', c'⟩ := p
    have h := h3 i' c' ha hd
    have hj := (hs i' c' ha).2 hd
    simp only [TI.stepStorageChange, Ctx.at] at h
    simp only [reportedChange, ha]
    have e1 : Op.SLOAD = 0x54 := rfl
    have e2 : Op.SSTORE = 0x55 := rfl
    rw [e1, e2] at h
    obtain ⟨entries, hl, _⟩ := hj
    rw [hl] at h ⊢
    dsimp only at h ⊢
    split at h
    · rename_i hop
      rw [if_pos hop]
      split at h
      · rename_i x k hv hlast
        rw [hlast]
        dsimp only
        split at h
        · nomatch h
        · rename_i v hv
          simp only [Except.ok.injEq] at h
          rw [← h]; simp [hv]
      · rename_i hne
        simp only [Except.ok.injEq] at h
        rw [← h]
        dsimp only [Option.map]
        split
        · rename_i x k hv hlast
          exact absurd hlast (hne x k hv)
        · rfl
    · rename_i hop
      rw [if_neg hop]
      simp only [Except.ok.injEq] at h
      rw [← h]; rfl

/-- The `k`-th struct log belongs to the `k`-th executed instruction. -/
theorem structLogs_run (cfg : Config) (t : Tx) (opts : GethOptions) (gas : Nat) (ret : Bytes)
    (hwf : t.WF) (hsafe : Safe cfg t.body) (hatt : Attached false t.body)
    (hsteps : cfg.recordSteps = true) (hfilter : cfg.recordOpcodesFilter = none)
    (hcalls : ∀ f ∈ frames t, Spec.excluded cfg f = false) :
    ∃ s out, TI.run cfg TI.new t.events = .ok s ∧ gethTraces s.arena gas ret opts = .ok out ∧
      out.failed = !t.out.result.result.isOk ∧ out.gas = gas ∧ out.returnValue = ret ∧
      out.structLogs.length = (chron t).length ∧
      ∀ (k : Nat) (f : FrameCtx) (a : Instr) (log : StructLog),
        (chron t)[k]? = some (f, a) → out.structLogs[k]? = some log →
        (∀ i' c', a.after = some (i', c') → StepSafe cfg a.before a.ctx i' c') ∧
        ∃ prev hist, LogOK cfg opts hist (f, a, stepFor cfg (f.depth + 1) a prev) log ∧
          (cfg.recordStateDiff = true →
            stepWrite (stepFor cfg (f.depth + 1) a prev) = (a.before.contract, reportedChange a) ∧
            (a.before.contract, reportedChange a) :: hist = history t k) := by
  have hall : RecordsAll cfg := fun op => by simp [records, hsteps, hfilter]
  obtain ⟨s, hr, _, har, _⟩ := run_frames cfg t hwf hsafe
  have hg := gethTraces_run cfg t opts gas ret hwf hall hatt hcalls
  rw [← har] at hg
  have hchron := seqBody_chron cfg t.body ⟨0, none, 0, none, t.hdr, t.body, t.out⟩ 1 none
  have hstep := seqBody_step cfg t.body ⟨0, none, 0, none, t.hdr, t.body, t.out⟩ 1 none
  have hss := seqBody_all cfg t.body hsafe ⟨0, none, 0, none, t.hdr, t.body, t.out⟩ 1 none
  generalize seqBody cfg ⟨0, none, 0, none, t.hdr, t.body, t.out⟩ 1 none t.body = l at *
  obtain ⟨L, h1, h2, h3⟩ := processAll_spec cfg opts l {} [] (fun _ =>
    ⟨OMap.sorted_nil, fun a cs h => by simp [OMap.get?] at h, fun a k => rfl⟩)
  refine ⟨s, _, hr, hg, rfl, rfl, rfl, ?_, ?_⟩
  · simp only [h1, List.nil_append, h2, chron, ← hchron, List.length_map]
  · intro k f a log hk hlog
    simp only [h1, List.nil_append] at hlog
    rw [chron, ← hchron, List.getElem?_map] at hk
    cases hl : l[k]? with
    | none => rw [hl] at hk; nomatch hk
    | some e =>
      rw [hl] at hk
      simp only [Option.map_some, Option.some.injEq, Prod.mk.injEq] at hk
      have hm := List.mem_of_getElem? hl
      obtain ⟨prev, hp⟩ := hstep e hm
      obtain ⟨e1, e2, e3⟩ := e
      obtain ⟨rfl, rfl⟩ := hk
      dsimp only at hp
      subst hp
      refine ⟨fun i' c' ha => hss _ hm i' c' ha, prev, _, h3 k _ log hl hlog, ?_⟩
      intro hd
      have hw : ∀ e ∈ l, stepWrite e.2.2 = (e.2.1.before.contract, reportedChange e.2.1) := by
        intro e he
        obtain ⟨pr, hp⟩ := hstep e he
        rw [hp]
        exact stepWrite_eq pr (hall _) hd (fun i' c' ha => hss e he i' c' ha)
      refine ⟨hw _ hm, ?_⟩
      rw [history, chron, ← hchron, ← List.map_take, List.map_map, List.take_add_one, hl]
      simp only [Option.toList_some, List.map_append, List.map_cons, List.map_nil,
        List.reverse_append, List.reverse_cons, List.reverse_nil, List.nil_append,
        List.cons_append, List.append_nil, Function.comp]
      congr 2
      apply List.map_congr_left
      intro e he
      exact hw e (List.mem_of_mem_take he)

/-! ## C16 -/

/-- What a struct log shows of the instruction itself. -/
structure LogView where
  depth : Nat
  pc : Nat
  op : OpCode
  gas : Nat
  gasCost : Nat
  refund : Option Nat
  deriving DecidableEq

/-- Read it off a log. -/
def readLog (l : StructLog) : LogView := ⟨l.depth, l.pc, l.op, l.gas, l.gasCost, l.refundCounter⟩

/-- What should be shown for an instruction: the root executes at depth 1; an instruction that was
never completed cost nothing; the refund counter is shown if positive (as the 64-bit pattern of the
signed counter). -/
def expectedLog (e : FrameCtx × Instr) : LogView where
  depth := e.1.depth + 1
  pc := e.2.before.pc
  op := e.2.before.op
  gas := e.2.before.gas.remaining
  gasCost := match e.2.after with
    | some (i', _) => e.2.before.gas.remaining - i'.gas.remaining
    | none => 0
  refund := if e.2.before.gas.refunded % 2 ^ 64 = 0 then none
    else some (e.2.before.gas.refunded % 2 ^ 64).toNat

/-- **C16.** If all instructions and all calls are recorded, `geth_traces` succeeds and lists exactly
one log per executed instruction of the whole transaction, in the order of execution across all
nested calls (`chron`), each with depth, pc, opcode, gas and gas cost of that instruction. -/
theorem C16_chronological (cfg : Config) (t : Tx) (opts : GethOptions) (gas : Nat) (ret : Bytes)
    (hwf : t.WF) (hsafe : Safe cfg t.body) (hatt : Attached false t.body)
    (hsteps : cfg.recordSteps = true) (hfilter : cfg.recordOpcodesFilter = none)
    (hcalls : ∀ f ∈ frames t, Spec.excluded cfg f = false) :
    ∃ s out, TI.run cfg TI.new t.events = .ok s ∧ gethTraces s.arena gas ret opts = .ok out ∧
      out.failed = !t.out.result.result.isOk ∧ out.gas = gas ∧ out.returnValue = ret ∧
      out.structLogs.map readLog = (chron t).map expectedLog := by
  obtain ⟨s, out, hr, hg, h1, h2, h3, hlen, h⟩ :=
    structLogs_run cfg t opts gas ret hwf hsafe hatt hsteps hfilter hcalls
  refine ⟨s, out, hr, hg, h1, h2, h3, ?_⟩
  apply List.ext_getElem?
  intro k
  rw [List.getElem?_map, List.getElem?_map]
  cases hk : (chron t)[k]? with
  | none =>
    have := List.getElem?_eq_none_iff.1 hk
    rw [List.getElem?_eq_none (by omega)]; rfl
  | some e =>
    obtain ⟨f, a⟩ := e
    have hlt := (List.getElem?_eq_some_iff.1 hk).1
    have hlog := List.getElem?_eq_getElem (l := out.structLogs) (i := k) (by omega)
    rw [hlog]
    obtain ⟨hs, prev, hist, hok, _⟩ := h k f a _ hk hlog
    generalize out.structLogs[k]'_ = log at hok
    have hb := hok.base
    have : readLog log = readLog { log with storage := none, returnData := none } := rfl
    simp only [Option.map_some, Option.some.injEq]
    rw [this, hb]
    have hrec : records cfg a.before.op = true := by simp [records, hsteps, hfilter]
    have hrf := (stepFor_fields (d := f.depth + 1) prev hrec hs).2.2.1
    have hview : readStep (stepFor cfg (f.depth + 1) a prev) =
        match a.after with
        | some (i', _) => stepView cfg (f.depth + 1) a.before (if cfg.recordStackSnapshots = .Pushes
              then some (topItems (Op.stackPushCount a.before.op) i'.stack) else none)
            (a.before.gas.remaining - i'.gas.remaining) i'.result
        | none => stepView cfg (f.depth + 1) a.before none 0 .Continue := by
      unfold stepFor
      cases ha : a.after with
      | none => exact readStep_newStep ..
      | some p =>
        obtain ⟨i', c'⟩ := p
        exact readStep_finishStep hrec (hs i' c' ha)
    generalize stepFor cfg (f.depth + 1) a prev = st at hrf hview
    simp only [readLog, CallTraceStep.toStructLog, expectedLog, LogView.mk.injEq]
    have hrfe : (if st.gasRefundCounter > 0 then some st.gasRefundCounter else none) =
        if a.before.gas.refunded % 2 ^ 64 = 0 then none
          else some (a.before.gas.refunded % 2 ^ 64).toNat := by
      rw [hrf, i64AsU64]
      by_cases h0 : a.before.gas.refunded % 2 ^ 64 = 0
      · rw [if_neg (by omega), if_pos h0]
      · rw [if_pos (by omega), if_neg h0]
    refine ⟨?_, ?_, ?_, ?_, ?_, hrfe⟩
    all_goals
      cases ha : a.after with
      | none =>
        rw [ha] at hview
        simp only [readStep, stepView, StepView.mk.injEq] at hview
        simp [hview]
      | some p =>
        rw [ha] at hview
        simp only [readStep, stepView, StepView.mk.injEq] at hview
        simp [hview]

/-- The geth configuration records all instructions and all calls. -/
theorem fromGethConfig_records (opts : GethOptions) (t : Tx) :
    (Config.fromGethConfig opts).recordSteps = true ∧
    (Config.fromGethConfig opts).recordOpcodesFilter = none ∧
    ∀ f ∈ frames t, Spec.excluded (Config.fromGethConfig opts) f = false := by
  refine ⟨rfl, rfl, fun f _ => ?_⟩
  simp [Spec.excluded, Config.fromGethConfig, Config.defaultGeth]

theorem example_attached : Attached false Example.tx.body := by
  simp [Attached, Example.tx, Example.body, Example.callee, Example.lib, isCallStep, entersFrame,
    Example.stepAct, Example.interp, Op.ADD, Op.CALL, Op.STATICCALL, Op.CREATE, Op.DELEGATECALL,
    Op.LOG0, Op.STOP, Op.SSTORE]

/-- The example meets the hypotheses, for every option set; its order of instructions. -/
example (opts : GethOptions) : ∃ s out,
    TI.run (Config.fromGethConfig opts) TI.new Example.tx.events = .ok s ∧
    gethTraces s.arena 5 [] opts = .ok out ∧
    out.structLogs.map (fun l => (l.depth, l.op)) =
      [(1, Op.ADD), (1, Op.CALL), (2, Op.DELEGATECALL), (3, Op.LOG0), (1, Op.STATICCALL),
       (1, Op.CREATE), (2, Op.STOP), (1, Op.SSTORE), (1, Op.STOP)] := by
  obtain ⟨h1, h2, h3⟩ := fromGethConfig_records opts Example.tx
  obtain ⟨s, out, hr, hg, _, _, _, h⟩ := C16_chronological (Config.fromGethConfig opts) Example.tx
    opts 5 [] Example.wf (Example.safe _) example_attached h1 h2 h3
  refine ⟨s, out, hr, hg, ?_⟩
  have := congrArg (List.map (fun v : LogView => (v.depth, v.op))) h
  rw [List.map_map, List.map_map] at this
  exact this

/-! ## C17 -/

/-- **C17.** Recording with the configuration made from the options and building with the same
options: every log has the stack before the instruction iff stacks are not disabled, a memory
iff memory is enabled, no storage map if storage is disabled, and return data iff enabled. -/
theorem C17_options (t : Tx) (opts : GethOptions) (gas : Nat) (ret : Bytes)
    (hwf : t.WF) (hsafe : Safe (Config.fromGethConfig opts) t.body) (hatt : Attached false t.body) :
    ∃ s out, TI.run (Config.fromGethConfig opts) TI.new t.events = .ok s ∧
      gethTraces s.arena gas ret opts = .ok out ∧ out.structLogs.length = (chron t).length ∧
      ∀ (k : Nat) (f : FrameCtx) (a : Instr) (log : StructLog),
        (chron t)[k]? = some (f, a) → out.structLogs[k]? = some log →
        log.stack = (if opts.disableStack = some true then none else some a.before.stack) ∧
        (log.memory.isSome ↔ opts.enableMemory = some true) ∧
        (opts.disableStorage = some true → log.storage = none) ∧
        (log.returnData.isSome ↔ opts.enableReturnData = some true) := by
  obtain ⟨h1, h2, h3⟩ := fromGethConfig_records opts t
  obtain ⟨s, out, hr, hg, _, _, _, hlen, h⟩ :=
    structLogs_run (Config.fromGethConfig opts) t opts gas ret hwf hsafe hatt h1 h2 h3
  refine ⟨s, out, hr, hg, hlen, ?_⟩
  intro k f a log hk hl
  obtain ⟨hs, prev, hist, hok, _⟩ := h k f a log hk hl
  have hrec : records (Config.fromGethConfig opts) a.before.op = true := by simp [records, h1, h2]
  have hview : (readStep (stepFor (Config.fromGethConfig opts) (f.depth + 1) a prev)).stack =
        (if (Config.fromGethConfig opts).recordStackSnapshots = .Full then some a.before.stack
          else none) ∧
      (readStep (stepFor (Config.fromGethConfig opts) (f.depth + 1) a prev)).hasMemory =
        (Config.fromGethConfig opts).recordMemorySnapshots := by
    unfold stepFor
    cases ha : a.after with
    | none => dsimp only; rw [readStep_newStep]; exact ⟨rfl, rfl⟩
    | some p =>
      obtain ⟨i', c'⟩ := p
      dsimp only
      rw [readStep_finishStep hrec (hs i' c' ha)]; exact ⟨rfl, rfl⟩
  have hb := hok.base
  have hb1 := congrArg StructLog.stack hb
  have hb2 := congrArg StructLog.memory hb
  have hret := hok.ret
  have hno := hok.absent
  clear hok hb
  generalize stepFor (Config.fromGethConfig opts) (f.depth + 1) a prev = st at *
  simp only [readStep, CallTraceStep.toStructLog] at hview hb1 hb2
  obtain ⟨v1, v2⟩ := hview
  obtain ⟨em, ds, dst, er⟩ := opts
  simp only [Config.fromGethConfig, Config.defaultGeth, GethOptions.isStackEnabled,
    GethOptions.isMemoryEnabled, GethOptions.isStorageEnabled, GethOptions.isReturnDataEnabled]
    at v1 v2 hb1 hb2 hret hno ⊢
  refine ⟨?_, ?_, ?_, ?_⟩
  · rw [hb1]
    rcases ds with _ | _ | _ <;> simp_all
  · rw [hb2]
    rcases em with _ | _ | _ <;> simp_all
  · intro hd
    apply hno
    subst hd
    exact Or.inl rfl
  · rw [hret]
    rcases er with _ | _ | _ <;> simp

/-- The example meets the hypotheses. -/
example (opts : GethOptions) : Example.tx.WF ∧ Safe (Config.fromGethConfig opts) Example.tx.body ∧
    Attached false Example.tx.body := ⟨Example.wf, Example.safe _, example_attached⟩

/-! ## C18 -/

/-- **C18, exactly.** With storage enabled, the log of an instruction reported with a change (of
whatever contract, see C08) shows the map of all slots reported so far as changed by instructions of the
executing contract (this instruction included), each with the value last reported, and no other slots; an
instruction reported without a change shows no map; with storage disabled no log shows a map. -/
theorem C18_exact (cfg : Config) (t : Tx) (opts : GethOptions) (gas : Nat) (ret : Bytes)
    (hwf : t.WF) (hsafe : Safe cfg t.body) (hatt : Attached false t.body)
    (hsteps : cfg.recordSteps = true) (hfilter : cfg.recordOpcodesFilter = none)
    (hcalls : ∀ f ∈ frames t, Spec.excluded cfg f = false) (hdiff : cfg.recordStateDiff = true) :
    ∃ s out, TI.run cfg TI.new t.events = .ok s ∧ gethTraces s.arena gas ret opts = .ok out ∧
      out.structLogs.length = (chron t).length ∧
      ∀ (k : Nat) (f : FrameCtx) (a : Instr) (log : StructLog),
        (chron t)[k]? = some (f, a) → out.structLogs[k]? = some log →
        (opts.disableStorage = some true ∨ reportedChange a = none → log.storage = none) ∧
        (opts.disableStorage ≠ some true → reportedChange a ≠ none → ∃ m, log.storage = some m ∧
          m.Pairwise (fun x y => x.1.toNat < y.1.toNat) ∧
          ∀ key value, (key, value) ∈ m ↔
            latestWrite a.before.contract key (history t k) = some value) := by
  obtain ⟨s, out, hr, hg, _, _, _, hlen, h⟩ :=
    structLogs_run cfg t opts gas ret hwf hsafe hatt hsteps hfilter hcalls
  refine ⟨s, out, hr, hg, hlen, ?_⟩
  intro k f a log hk hl
  obtain ⟨hs, prev, hist, hok, hh⟩ := h k f a log hk hl
  obtain ⟨hw, hhist⟩ := hh hdiff
  have hch : (stepFor cfg (f.depth + 1) a prev).storageChange.map (fun c => (c.key, c.value)) =
      reportedChange a := congrArg Prod.snd hw
  have hc : (stepFor cfg (f.depth + 1) a prev).contract = a.before.contract :=
    congrArg Prod.fst hw
  have hen : opts.isStorageEnabled = true ↔ opts.disableStorage ≠ some true := by
    unfold GethOptions.isStorageEnabled
    rcases opts.disableStorage with _ | _ | _ <;> simp
  refine ⟨?_, ?_⟩
  · rintro (hd | hd)
    · apply hok.absent
      left
      cases he : opts.isStorageEnabled with
      | false => rfl
      | true => exact absurd hd (hen.1 he)
    · apply hok.absent
      right
      rw [hd] at hch
      simpa using hch
  · intro hd hne
    obtain ⟨m, hm, hsort, hget⟩ := hok.present (hen.2 hd) (by
      intro h0; dsimp only at h0; rw [h0] at hch; exact hne hch.symm)
    refine ⟨m, hm, hsort, ?_⟩
    intro key value
    have := hget key
    dsimp only at this
    rw [hw, hhist, hc] at this
    rw [← this]
    exact ⟨fun hx => OMap.get?_of_mem hsort hx, OMap.mem_of_get?⟩

/-- The example meets the hypotheses: an SSTORE reports a change of its contract. -/
example : Example.tx.WF ∧ Safe Config.defaultGeth Example.tx.body ∧ Attached false Example.tx.body ∧
    Config.defaultGeth.recordStateDiff = true ∧
    (∀ f ∈ frames Example.tx, Spec.excluded Config.defaultGeth f = false) ∧
    ((chron Example.tx)[7]?.map (fun e => reportedChange e.2)) = some (some (5, 9)) :=
  ⟨Example.wf, Example.safe _, example_attached, rfl,
    (fromGethConfig_records {} Example.tx).2.2, by decide⟩

theorem chronBody_all {P : Interp → Ctx → Interp → Ctx → Prop} (b : Body)
    (h : b.AllSteps P) : ∀ f n, ∀ e ∈ chronBody f n b, ∀ i' c',
      e.2.after = some (i', c') → P e.2.before e.2.ctx i' c' := by
  induction b with
  | nil => intro f n e he; simp [chronBody] at he
  | act a rest ih =>
    intro f n e he i' c' ha
    cases a with
    | step i c i' c' =>
      simp only [chronBody, List.mem_cons] at he
      rcases he with rfl | he
      · simp only [Option.some.injEq, Prod.mk.injEq] at ha
        obtain ⟨rfl, rfl⟩ := ha
        exact h.1
      · exact ih h.2 _ _ e he _ _ ha
    | aborted i c =>
      simp only [chronBody, List.mem_cons] at he
      rcases he with rfl | he
      · nomatch ha
      · exact ih h _ _ e he _ _ ha
    | log c l => exact ih h _ _ e he _ _ ha
    | selfdestruct x y z => exact ih h _ _ e he _ _ ha
  | sub hd b o rest ihb ihr =>
    intro f n e he i' c' ha
    simp only [chronBody, List.mem_append] at he
    rcases he with he | he
    · exact ihb h.1 _ _ e he _ _ ha
    · exact ihr h.2 _ _ e he _ _ ha

/-- Where the end of the journal is not ambiguous, the reported change is the one made. -/
theorem reported_eq_made (a : Instr) (hu : Unambiguous a)
    (hl : ∀ i' c', a.after = some (i', c') → StorageLaw a.before a.ctx i' c') :
    reportedChange a = madeChange a := by
  obtain ⟨i, c, after⟩ := a
  cases after with
  | none => simp [reportedChange, madeChange]
  | some p =>
    obtain ⟨i', c'⟩ := p
    by_cases hop : i.op = 0x54 ∨ i.op = 0x55
    · obtain ⟨before, access, hb, hacc, hj⟩ := hl i' c' rfl hop
      have hu' := hu i' c' before rfl hop hb
      dsimp only at hb hu' hj
      have none_of : c'.journal.getLast? = some (before ++ access) →
          reportedChange ⟨i, c, some (i', c')⟩ = madeChange ⟨i, c, some (i', c')⟩ := by
        intro hj
        simp only [reportedChange, madeChange, hb, hj, if_pos hop, List.drop_left]
        rcases hacc with rfl | rfl
        · rw [List.append_nil] at hj
          have hu' := hu' hj
          simp only [List.append_nil, List.any_nil, Bool.false_eq_true, and_false, if_false]
          cases hlast : before.getLast? with
          | none => rfl
          | some e =>
            have := hu' e hlast
            cases e with
            | other => rfl
            | storageChanged x k v => nomatch this
        · simp [isChange]
      rcases hj with hj | ⟨h55, key, value, rest, old, hst, _, hv, hj⟩
      · exact none_of hj
      · simp only [reportedChange, madeChange, hb, hj, if_pos hop, List.append_assoc, List.drop_left]
        have hgl : (before ++ (access ++ [JournalEntry.storageChanged i.contract key old])).getLast? =
            some (.storageChanged i.contract key old) := by
          rw [← List.append_assoc, List.getLast?_concat]
        rw [hgl]
        simp [hv, h55, hst, isChange]
    · have h55 : i.op ≠ 0x55 := fun h => hop (Or.inr h)
      simp only [reportedChange, madeChange, if_neg hop]
      cases c.journal.getLast? with
      | none => rfl
      | some b =>
        dsimp only
        cases c'.journal.getLast? with
        | none => rfl
        | some e => simp [h55]

/-- **C18** (partial: missing are executions in which an SLOAD or SSTORE that journals nothing runs
while the journal ends with an earlier change, see the refutation). With storage enabled, the log of an
instruction that changed a slot shows the map of all slots of the executing contract changed so far (this
instruction included), each with the value last stored, and no slots of other contracts; an instruction
that changed nothing shows no map; with storage disabled no log shows a map. -/
theorem C18_storage_partial (cfg : Config) (t : Tx) (opts : GethOptions) (gas : Nat) (ret : Bytes)
    (hwf : t.WF) (hsafe : Safe cfg t.body) (hatt : Attached false t.body)
    (hsteps : cfg.recordSteps = true) (hfilter : cfg.recordOpcodesFilter = none)
    (hcalls : ∀ f ∈ frames t, Spec.excluded cfg f = false) (hdiff : cfg.recordStateDiff = true)
    (hlaw : t.body.AllSteps StorageLaw) (hclear : ∀ e ∈ chron t, Unambiguous e.2) :
    ∃ s out, TI.run cfg TI.new t.events = .ok s ∧ gethTraces s.arena gas ret opts = .ok out ∧
      out.structLogs.length = (chron t).length ∧
      ∀ (k : Nat) (f : FrameCtx) (a : Instr) (log : StructLog),
        (chron t)[k]? = some (f, a) → out.structLogs[k]? = some log →
        (opts.disableStorage = some true ∨ madeChange a = none → log.storage = none) ∧
        (opts.disableStorage ≠ some true → madeChange a ≠ none → ∃ m, log.storage = some m ∧
          m.Pairwise (fun x y => x.1.toNat < y.1.toNat) ∧
          ∀ key value, (key, value) ∈ m ↔
            latestWrite a.before.contract key (madeHistory t k) = some value) := by
  have heq : ∀ e ∈ chron t, reportedChange e.2 = madeChange e.2 := fun e he =>
    reported_eq_made e.2 (hclear e he) (fun i' c' ha => chronBody_all t.body hlaw _ _ e he i' c' ha)
  have hhist : ∀ k, history t k = madeHistory t k := by
    intro k
    unfold history madeHistory
    congr 1
    apply List.map_congr_left
    intro e he
    rw [heq e (List.mem_of_mem_take he)]
  obtain ⟨s, out, hr, hg, hlen, h⟩ :=
    C18_exact cfg t opts gas ret hwf hsafe hatt hsteps hfilter hcalls hdiff
  refine ⟨s, out, hr, hg, hlen, ?_⟩
  intro k f a log hk hl
  have := h k f a log hk hl
  rw [hhist k, heq (f, a) (List.mem_of_getElem? hk)] at this
  exact this

/-- Contract 0xa calls 0xb, which stores 9 in its slot 5, and then reads its own slot 1. `own`: reading
it is the first access of the slot. -/
def twoStores (own : Bool) : Tx where
  hdr := Example.callHdr .Call 0x99 0xa 0xa 0
  body :=
    .act (.step (Example.interp Op.CALL 0 100 .Continue) (cx [.other] 7)
        (Example.interp Op.CALL 1 90 .CallOrCreate) (cx [.other] 7))
      (.sub (Example.callHdr .Call 0xa 0xb 0xb 0)
        (.act (.step { Example.interp Op.SSTORE 0 80 .Continue with stack := [9, 5], contract := 0xb }
            (cx [.other] 7)
            { Example.interp Op.SSTORE 1 70 .Continue with stack := [], contract := 0xb }
            (cx ([.other] ++ [.other] ++ [.storageChanged 0xb 5 7]) 9)) .nil)
        (Example.out .Stop)
        (.act (.step { Example.interp Op.SLOAD 1 60 .Continue with stack := [1] }
            (cx [.other, .other, .storageChanged 0xb 5 7] 9)
            { Example.interp Op.SLOAD 2 50 .Continue with stack := [0] }
            (cx ([.other, .other, .storageChanged 0xb 5 7] ++ (if own then [.other] else [])) 9)) .nil))
  out := Example.out .Stop
where
  cx (j : List JournalEntry) (v : U256) : Ctx :=
    { Example.ctx with
      journal := [j], storage := fun a k => if a = 0xb ∧ k = 5 then some v else none }

theorem twoStores_wf (own : Bool) : (twoStores own).WF ∧ Attached false (twoStores own).body := by
  refine ⟨⟨fun _ => rfl, fun h => absurd h (by simp [twoStores, Example.callHdr, Header.isPrecompile,
    Example.ctx]), ?_⟩, ?_⟩
  · exact ⟨fun _ => rfl, fun h => absurd h (by decide), trivial, trivial⟩
  · simp [Attached, twoStores, isCallStep, entersFrame, Example.interp, Op.CALL, Op.SSTORE, Op.SLOAD]

theorem twoStores_law (own : Bool) : (twoStores own).body.AllSteps StorageLaw := by
  refine ⟨fun h => ?_, ⟨fun _ => ?_, trivial⟩, fun _ => ?_, trivial⟩
  · rcases h with h | h <;> exact absurd h (by decide)
  · exact ⟨[.other], [.other], rfl, Or.inr rfl, Or.inr ⟨rfl, 5, 9, [], 7, rfl, by decide, by decide, rfl⟩⟩
  · refine ⟨[.other, .other, .storageChanged 0xb 5 7], if own then [.other] else [], rfl, ?_, Or.inl rfl⟩
    cases own
    · exact Or.inl rfl
    · exact Or.inr rfl

theorem twoStores_safe (own : Bool) : Safe Config.defaultGeth (twoStores own).body := by
  refine ⟨⟨fun _ h => ?_, fun _ => ?_⟩, ⟨⟨fun _ h => ?_, fun _ => ?_⟩, trivial⟩,
    ⟨fun _ h => ?_, fun _ => ?_⟩, trivial⟩
  · simp [Config.defaultGeth, StackSnapshotType.isPushes] at h
  · exact ⟨_, rfl, fun a k v hm => by simp at hm⟩
  · simp [Config.defaultGeth, StackSnapshotType.isPushes] at h
  · refine ⟨_, rfl, fun a k v hm => ?_⟩
    simp at hm
    obtain ⟨rfl, rfl, rfl⟩ := hm
    decide
  · simp [Config.defaultGeth, StackSnapshotType.isPushes] at h
  · refine ⟨_, rfl, fun a k v hm => ?_⟩
    cases own <;>
    · simp at hm
      obtain ⟨rfl, rfl, rfl⟩ := hm
      decide

/-- If 0xa reads its slot for the first time, the hypotheses of the theorem are met, and 0xb made a
change. -/
example : (twoStores true).WF ∧ Safe Config.defaultGeth (twoStores true).body ∧
    Attached false (twoStores true).body ∧ (twoStores true).body.AllSteps StorageLaw ∧
    (∀ e ∈ chron (twoStores true), Unambiguous e.2) ∧
    (chron (twoStores true)).map (fun e => madeChange e.2) = [none, some (5, 9), none] := by
  refine ⟨(twoStores_wf true).1, twoStores_safe true, (twoStores_wf true).2, twoStores_law true, ?_,
    by decide⟩
  intro e he
  simp only [chron, chronBody, twoStores, List.cons_append, List.nil_append,
    List.mem_cons, List.not_mem_nil, or_false] at he
  rcases he with rfl | rfl | rfl
  · intro _ _ _ _ h; rcases h with h | h <;> exact absurd h (by decide)
  · intro i' c' b h1 _ h2 h3
    simp only [Option.some.injEq, Prod.mk.injEq] at h1
    obtain ⟨rfl, rfl⟩ := h1
    have h2 : [JournalEntry.other] = b := Option.some.inj h2
    subst h2
    exact absurd (Option.some.inj h3) (by decide)
  · intro i' c' b h1 _ h2 h3
    simp only [Option.some.injEq, Prod.mk.injEq] at h1
    obtain ⟨rfl, rfl⟩ := h1
    have h2 : [JournalEntry.other, .other, .storageChanged 0xb 5 7] = b := Option.some.inj h2
    subst h2
    exact absurd (Option.some.inj h3) (by decide)

/-- **C18, refuted**: contract 0xa, whose storage nobody changed, is shown with the slot 5 of the
contract 0xb it called, as its SLOAD of slot 1 is taken for that change. -/
theorem C18_refuted :
    (twoStores false).WF ∧ Safe Config.defaultGeth (twoStores false).body ∧
    Attached false (twoStores false).body ∧ (twoStores false).body.AllSteps StorageLaw ∧
    (chron (twoStores false)).map (fun e => (e.2.before.contract, madeChange e.2)) =
      [(0xa, none), (0xb, some (5, 9)), (0xa, none)] ∧
    ∃ s out, TI.run Config.defaultGeth TI.new (twoStores false).events = .ok s ∧
      gethTraces s.arena 0 [] {} = .ok out ∧
      out.structLogs.map (·.storage) = [none, some [(5, 9)], some [(5, 9)]] :=
  ⟨(twoStores_wf false).1, twoStores_safe false, (twoStores_wf false).2, twoStores_law false,
    by decide, _, _, rfl, rfl, by decide⟩

/-! ## C19 -/

/-- The instruction failed: it ended in a status that is neither success nor the pause of a call
instruction that entered a frame. -/
def instrFailed (a : Instr) : Bool :=
  match a.after with
  | some (i', _) => !i'.result.isOk && i'.result != .CallOrCreate
  | none => false

/-- The instruction entered a frame. -/
def instrPaused (a : Instr) : Bool :=
  match a.after with
  | some (i', _) => i'.result == .CallOrCreate
  | none => false

theorem error_iff (r : InstructionResult) : (r == .CallOrCreate) = false →
    ((if decide (InstructionResult.Revert.toU8 ≤ r.toU8) = true then some r.debug else none).isSome =
      true ↔ (!r.isOk && r != .CallOrCreate) = true) := by
  cases r <;> decide

/-- **C19** (partial: what fails is the error of instructions that enter a frame, and the return
data, see the refutations). The log of every instruction that does not enter a frame carries an error
iff the instruction failed; an instruction that does enter one carries the error "CallOrCreate"; the
return data is the output its frame had at the end. -/
theorem C19_error_and_return_data_partial (cfg : Config) (t : Tx) (opts : GethOptions) (gas : Nat)
    (ret : Bytes) (hwf : t.WF) (hsafe : Safe cfg t.body) (hatt : Attached false t.body)
    (hsteps : cfg.recordSteps = true) (hfilter : cfg.recordOpcodesFilter = none)
    (hcalls : ∀ f ∈ frames t, Spec.excluded cfg f = false) :
    ∃ s out, TI.run cfg TI.new t.events = .ok s ∧ gethTraces s.arena gas ret opts = .ok out ∧
      out.structLogs.length = (chron t).length ∧
      ∀ (k : Nat) (f : FrameCtx) (a : Instr) (log : StructLog),
        (chron t)[k]? = some (f, a) → out.structLogs[k]? = some log →
        (instrPaused a = false → (log.error.isSome ↔ instrFailed a = true)) ∧
        (instrPaused a = true → log.error = some "CallOrCreate") ∧
        (opts.enableReturnData = some true → log.returnData = some f.out.result.output) := by
  obtain ⟨s, out, hr, hg, _, _, _, hlen, h⟩ :=
    structLogs_run cfg t opts gas ret hwf hsafe hatt hsteps hfilter hcalls
  refine ⟨s, out, hr, hg, hlen, ?_⟩
  intro k f a log hk hl
  obtain ⟨hs, prev, hist, hok, hh⟩ := h k f a log hk hl
  have hrec : records cfg a.before.op = true := by simp [records, hsteps, hfilter]
  have hstatus : (stepFor cfg (f.depth + 1) a prev).status =
      match a.after with | some (i', _) => i'.result | none => .Continue := by
    unfold stepFor
    cases ha : a.after with
    | none => rfl
    | some p =>
      obtain ⟨i', c'⟩ := p
      dsimp only
      exact congrArg StepView.status (readStep_finishStep hrec (hs i' c' ha))
  have hb1 : log.error = (stepFor cfg (f.depth + 1) a prev).asError := congrArg StructLog.error hok.base
  have hret := hok.ret
  rw [CallTraceStep.asError, CallTraceStep.isError, hstatus] at hb1
  refine ⟨?_, ?_, ?_⟩
  · rw [hb1]
    unfold instrPaused instrFailed
    cases ha : a.after with
    | none => intro _; simp [InstructionResult.toU8]
    | some p =>
      obtain ⟨i', c'⟩ := p
      dsimp only
      exact error_iff i'.result
  · rw [hb1]
    unfold instrPaused
    cases ha : a.after with
    | none => intro h; nomatch h
    | some p =>
      obtain ⟨i', c'⟩ := p
      dsimp only
      intro h
      simp [eq_of_beq h, InstructionResult.toU8, InstructionResult.debug]
  · intro he
    rw [hret]
    have : opts.isReturnDataEnabled = true := by rw [GethOptions.isReturnDataEnabled, he]; rfl
    rw [if_pos this]
    simp only [nodeOf, leaveNode, TI.fillTrace]
    split <;> rfl

/-- **C19, refuted**: in the example the CALL at position 1 succeeds and its log carries an error,
and with return data enabled its log shows the final output [7, 8] of its frame instead of the
return-data buffer [4] the instruction saw. -/
theorem C19_refuted :
    Example.tx.WF ∧ Safe Config.defaultGeth Example.tx.body ∧ Attached false Example.tx.body ∧
    ∃ s out, TI.run Config.defaultGeth TI.new Example.tx.events = .ok s ∧
      gethTraces s.arena 0 [] { enableReturnData := some true } = .ok out ∧
      (out.structLogs[1]?.map (fun l => (l.op, l.error, l.returnData))) =
        some (Op.CALL, some "CallOrCreate", some [7, 8]) ∧
      ((chron Example.tx)[1]?.map (fun e => (instrFailed e.2, e.2.before.returnData))) =
        some (false, [4]) :=
  ⟨Example.wf, Example.safe _, example_attached, _, _, rfl, rfl, by decide, by decide⟩

end Verif.Props
