import Verif.Props.StructLogsExact
import Verif.Props.JsTracer
import Verif.Props.Memory
/-! C88: the struct logs and the `step` callbacks tell of the same instructions. -/
namespace Verif.Props
open Spec Rec

/-- The instructions as a JavaScript tracer hears of them are those of the transaction in the order of
execution. -/
theorem started_chron (b : Body) : ∀ (f : FrameCtx) (n : Nat),
    (started (f.depth + 1) (jsFrame f.hdr) b).map (fun x => (x.1, x.2.1, x.2.2.1)) =
      (chronBody f n b).map (fun e => (e.1.depth + 1, jsFrame e.1.hdr, e.2.before)) := by
  induction b with
  | nil => intro f n; rfl
  | act a rest ih =>
    intro f n
    cases a with
    | step i c i' c' => simp only [started, chronBody, List.map_cons, ih f n]
    | aborted i c => simp only [started, chronBody, List.map_cons, ih f n]
    | log c l => exact ih f n
    | selfdestruct x y z => exact ih f n
  | sub h b o rest ihb ihr =>
    intro f n
    simp only [started, chronBody, List.map_append]
    rw [← ihr f (n + 1 + b.size), ← ihb ⟨n, some f.index, f.depth + 1, some f.value, h, b, o⟩ (n + 1)]

theorem chronBody_mem (b : Body) : ∀ (f : FrameCtx) (n : Nat) (e : FrameCtx × Instr), e ∈ chronBody f n b →
    e.1 = f ∨ e.1 ∈ subFrames (f.depth + 1) f.index f.value n b := by
  induction b with
  | nil => intro f n e h; cases h
  | act a rest ih =>
    intro f n e h
    cases a with
    | step i c i' c' =>
      rcases List.mem_cons.mp h with rfl | h
      · exact .inl rfl
      · exact ih f n e h
    | aborted i c =>
      rcases List.mem_cons.mp h with rfl | h
      · exact .inl rfl
      · exact ih f n e h
    | log c l => exact ih f n e h
    | selfdestruct x y z => exact ih f n e h
  | sub h b o rest ihb ihr =>
    intro f n e he
    simp only [chronBody, List.mem_append] at he
    simp only [subFrames, List.mem_cons, List.mem_append]
    rcases he with he | he
    · rcases ihb _ _ _ he with he | he
      · exact .inr (.inl he)
      · exact .inr (.inr (.inl he))
    · rcases ihr f _ _ he with he | he
      · exact .inl he
      · exact .inr (.inr (.inr he))

theorem chron_frames (t : Tx) (e : FrameCtx × Instr) (h : e ∈ chron t) : e.1 ∈ frames t := by
  rcases chronBody_mem t.body _ _ _ h with h | h
  · rw [h]; exact List.mem_cons_self ..
  · exact List.mem_cons_of_mem _ h

/-- **C88, in part.** For every execution and all options: a JavaScript tracer with `step` is called once for
each struct log of the default tracer, in the same order, with the same depth, program counter, opcode, gas,
refund (which struct logs leave out if it is zero) and stack, and with the same memory if no KECCAK256, LOGn,
CREATE or CREATE2 expanded it (C07). Missing: the cost, see `C88_refuted`. -/
theorem C88_steps_partial (t : Tx) (opts : GethOptions) (gas : Nat) (ret : Bytes) (hwf : t.WF)
    (hsafe : Safe (Config.fromGethConfig opts) t.body) (hatt : Attached false t.body)
    (shape : JsShape) (fails : JsFails) (hstep : shape.hasStep = true)
    (hex : shape.hasExit = true → shape.hasEnter = true) (js : JsInsp)
    (hjs : runHooks (JsInsp.hook shape fails) {} t.events = .ok js) :
    ∃ s out, TI.run (Config.fromGethConfig opts) TI.new t.events = .ok s ∧
      gethTraces s.arena gas ret opts = .ok out ∧
      out.structLogs.length = (js.calls.filter isStep).length ∧
      ∀ (k : Nat) (log : StructLog) (v : JsStepLog), out.structLogs[k]? = some log →
        (js.calls.filter isStep)[k]? = some (.step v) →
        log.depth = v.depth ∧ log.pc = v.pc ∧ log.op = v.op ∧ log.gas = v.gas ∧
        log.refundCounter = (if v.refund = 0 then none else some v.refund) ∧ v.error = none ∧
        log.stack = (if opts.disableStack = some true then none else some v.stack) ∧
        ((∀ f ∈ frames t, MemoryLaw (instrs (Config.fromGethConfig opts) f.body) ∧
            NoHiddenExpansion (instrs (Config.fromGethConfig opts) f.body)) →
          if opts.enableMemory = some true then
            ∃ words, log.memory = some words ∧ words.length = (v.memory.length + 31) / 32 ∧
              (∀ w ∈ words, w.length = 64) ∧
              hexDecode words.flatten = some (v.memory ++ List.replicate (32 * words.length - v.memory.length) 0)
          else log.memory = none) := by
  obtain ⟨h1, h2, h3⟩ := fromGethConfig_records opts t
  obtain ⟨s, out, hr, hg, _, _, _, hlen, h⟩ := C72_exact (Config.fromGethConfig opts) t opts gas ret hwf hsafe
  have hall : ∀ op, records (Config.fromGethConfig opts) op = true := fun op => by simp [records, h1, h2]
  have hw : logged (Config.fromGethConfig opts) t = chron t := by
    have := weave_chron (Config.fromGethConfig opts) (fun op _ => hall op) t.body (rootOf t) 1 false hatt
      (fun g hg => h3 g (List.mem_cons_of_mem _ hg))
    refine Eq.trans this ?_
    rw [List.filter_eq_self.mpr (fun e _ => hall _)]
    rfl
  rw [hw] at hlen h
  have hst := C63_steps_partial shape fails hstep hex t js hjs
  have hch := started_chron t.body (rootOf t) 1
  have hch' : (started 1 (jsFrame t.hdr) t.body).map (fun x => (x.1, x.2.1, x.2.2.1)) =
      (chron t).map (fun e => (e.1.depth + 1, jsFrame e.1.hdr, e.2.before)) := hch
  have hst' : js.calls.filter isStep = (chron t).map (fun e =>
      .step (jsView (e.1.depth + 1) (jsFrame e.1.hdr) e.2.before none)) := by
    rw [hst]
    have := congrArg (List.map fun y : Nat × JsFrameItem × Interp => JsCallback.step (jsView y.1 y.2.1 y.2.2 none)) hch'
    rw [List.map_map, List.map_map] at this
    exact this
  refine ⟨s, out, hr, hg, by rw [hst', List.length_map, hlen], ?_⟩
  intro k log v hk hv
  rw [hst', List.getElem?_map] at hv
  cases he : (chron t)[k]? with
  | none => rw [he] at hv; cases hv
  | some e =>
    rw [he] at hv
    simp only [Option.map_some, Option.some.injEq, JsCallback.step.injEq] at hv
    subst hv
    obtain ⟨a1, _, _, a2, ⟨x, j, st, b1, b2, b3, b4, b5⟩, _⟩ := h k e.1 e.2 log he hk
    have q1 := congrArg LogView.depth a1
    have q2 := congrArg LogView.pc a1
    have q3 := congrArg LogView.op a1
    have q4 := congrArg LogView.gas a1
    have q5 := congrArg LogView.refund a1
    simp only [readLog, expectedLog] at q1 q2 q3 q4 q5
    refine ⟨q1, q2, q3, q4, ?_, rfl, ?_, ?_⟩
    · rw [q5]
      have hnn : 0 ≤ e.2.before.gas.refunded % 2 ^ 64 := Int.emod_nonneg _ (by decide)
      have hv : (jsView (e.1.depth + 1) (jsFrame e.1.hdr) e.2.before none).refund =
        (e.2.before.gas.refunded % 2 ^ 64).toNat := rfl
      rw [hv]
      generalize e.2.before.gas.refunded % 2 ^ 64 = r at hnn ⊢
      by_cases hz : r = 0
      · simp [hz]
      · have hz' : r.toNat ≠ 0 := by omega
        rw [if_neg hz, if_neg hz']
    · rw [a2]
      simp only [jsView]
      obtain ⟨em, ds, dst, er⟩ := opts
      simp only [Config.fromGethConfig, Config.defaultGeth]
      rcases ds with _ | _ | _ <;> simp
    · intro hmem
      rw [b5]
      by_cases hen : opts.enableMemory = some true
      · rw [if_pos hen, if_pos hen]
        have hcfg : (Config.fromGethConfig opts).recordMemorySnapshots = true := by
          obtain ⟨em, ds, dst, er⟩ := opts
          simp only at hen
          subst hen
          rfl
        obtain ⟨s', hr', _, h7⟩ := C07_memory_partial (Config.fromGethConfig opts) hcfg t hwf hsafe fun _ => hmem
        obtain rfl : s = s' := by rw [hr] at hr'; simpa using hr'
        have hf : (frames t)[e.1.index]? = some e.1 := by
          obtain ⟨i, hi⟩ := List.mem_iff_getElem?.mp (chron_frames t e (List.mem_of_getElem? he))
          rw [frames_index hi]
          exact hi
        have hm := congrArg (·[j]?) (h7 e.1.index e.1 x hf b1)
        simp only [List.getElem?_map, b2, b3, Option.map_some, Option.some.injEq] at hm
        rw [hm]
        obtain ⟨w1, w2, w3⟩ := C44_memory_chunks e.2.before.memory
        refine ⟨_, rfl, w1, w2, ?_⟩
        rw [w1]
        exact w3
      · rw [if_neg hen, if_neg hen]

/-- **C88, the cost.** Struct logs show what the instruction cost, `step` is given what the frame spent before
it. -/
theorem C88_cost (t : Tx) (opts : GethOptions) (gas : Nat) (ret : Bytes) (hwf : t.WF)
    (hsafe : Safe (Config.fromGethConfig opts) t.body) (hatt : Attached false t.body)
    (shape : JsShape) (fails : JsFails) (hstep : shape.hasStep = true)
    (hex : shape.hasExit = true → shape.hasEnter = true) (js : JsInsp)
    (hjs : runHooks (JsInsp.hook shape fails) {} t.events = .ok js) :
    ∃ s out, TI.run (Config.fromGethConfig opts) TI.new t.events = .ok s ∧
      gethTraces s.arena gas ret opts = .ok out ∧
      ∀ (k : Nat) (f : FrameCtx) (a : Instr) (log : StructLog) (v : JsStepLog), (chron t)[k]? = some (f, a) →
        out.structLogs[k]? = some log → (js.calls.filter isStep)[k]? = some (.step v) →
        log.gasCost = (match a.after with
          | some (i', _) => a.before.gas.remaining - i'.gas.remaining
          | none => 0) ∧
        v.cost = a.before.gas.limit - a.before.gas.remaining := by
  obtain ⟨h1, h2, h3⟩ := fromGethConfig_records opts t
  obtain ⟨s, out, hr, hg, _, _, _, h⟩ := C16_chronological (Config.fromGethConfig opts) t opts gas ret hwf hsafe hatt
    h1 h2 h3
  refine ⟨s, out, hr, hg, ?_⟩
  intro k f a log v hk hl hv
  have hq := congrArg (·[k]?) h
  simp only [List.getElem?_map, hl, hk, Option.map_some, Option.some.injEq] at hq
  have hst := C63_steps_partial shape fails hstep hex t js hjs
  have hch : (started 1 (jsFrame t.hdr) t.body).map (fun x => (x.1, x.2.1, x.2.2.1)) =
      (chron t).map (fun e => (e.1.depth + 1, jsFrame e.1.hdr, e.2.before)) := started_chron t.body (rootOf t) 1
  have hst' : js.calls.filter isStep = (chron t).map (fun e =>
      .step (jsView (e.1.depth + 1) (jsFrame e.1.hdr) e.2.before none)) := by
    rw [hst]
    have := congrArg (List.map fun y : Nat × JsFrameItem × Interp => JsCallback.step (jsView y.1 y.2.1 y.2.2 none)) hch
    rw [List.map_map, List.map_map] at this
    exact this
  rw [hst', List.getElem?_map, hk] at hv
  simp only [Option.map_some, Option.some.injEq, JsCallback.step.injEq] at hv
  subst hv
  exact ⟨congrArg LogView.gasCost hq, rfl⟩

/-- A tracer with `step` and no other optional function. -/
abbrev stepOnly : JsShape := ⟨false, false, true, true⟩

/-- The hypotheses hold in the example with its nested frames, and there are instructions to compare. -/
example : Example.tx.WF ∧ Safe (Config.fromGethConfig {}) Example.tx.body ∧ Attached false Example.tx.body ∧
    ∃ js, runHooks (JsInsp.hook stepOnly (fun _ => none)) {} Example.tx.events = .ok js ∧
      (js.calls.filter isStep).length = (chron Example.tx).length ∧ 1 < (chron Example.tx).length :=
  ⟨Example.wf, Example.safe _, example_attached, _, rfl, by decide, by decide⟩

/-- C88 fails for the cost: the struct log shows the three units the first instruction costs, `step` is told
that it costs nothing. -/
theorem C88_refuted : ∃ (t : Tx) (s : TI) (out : DefaultFrame) (js : JsInsp) (log : StructLog) (v : JsStepLog),
    t.WF ∧ Safe (Config.fromGethConfig {}) t.body ∧ Attached false t.body ∧
    TI.run (Config.fromGethConfig {}) TI.new t.events = .ok s ∧ gethTraces s.arena 0 [] {} = .ok out ∧
    runHooks (JsInsp.hook stepOnly (fun _ => none)) {} t.events = .ok js ∧
    out.structLogs[0]? = some log ∧ (js.calls.filter isStep)[0]? = some (.step v) ∧
    log.gasCost ≠ v.cost := by
  refine ⟨Example.tx, _, _, _, _, _, Example.wf, Example.safe _, example_attached, rfl, rfl, rfl, rfl, rfl, by decide⟩

/-- C88 fails for the memory without the condition: after KECCAK256 expanded the memory, `step` is shown the
expanded memory and the struct log the memory from before. -/
theorem C88_refuted_memory : ∃ (t : Tx) (s : TI) (out : DefaultFrame) (js : JsInsp) (log : StructLog) (v : JsStepLog),
    t.WF ∧ Safe (Config.fromGethConfig { enableMemory := some true }) t.body ∧ Attached false t.body ∧
    TI.run (Config.fromGethConfig { enableMemory := some true }) TI.new t.events = .ok s ∧
    gethTraces s.arena 0 [] { enableMemory := some true } = .ok out ∧
    runHooks (JsInsp.hook stepOnly (fun _ => none)) {} t.events = .ok js ∧
    out.structLogs[1]? = some log ∧ (js.calls.filter isStep)[1]? = some (.step v) ∧
    log.memory = some [] ∧ v.memory = [1, 2, 3] := by
  refine ⟨memoryTx Op.KECCAK256, _, _, _, _, _, memoryTx_wf _, memoryTx_safe _ rfl _, ?_, rfl, rfl, rfl, rfl, rfl,
    rfl, rfl⟩
  simp [memoryTx, Attached, Example.stepAct, Body.hasSub]

end Verif.Props
