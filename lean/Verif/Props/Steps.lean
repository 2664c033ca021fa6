import Verif.Props.Arena
import Verif.Props.Links
import Verif.Props.Config
import Verif.Lemmas.Steps
/-!
# C02 (pushed items), C07 (memory snapshots), C08 (storage changes), refund counter of C06
-/
namespace Verif.Props
open Spec Rec

/-! ## C06, refund counter -/

/-- **C06** (refund counter). Every recorded step shows the refund counter revm had before the
instruction, as the 64-bit two's complement of the signed counter; a non-negative counter is shown
as it is. -/
theorem C06_refund_counter (cfg : Config) (t : Tx) (hwf : t.WF) (hsafe : Safe cfg t.body) :
    ∃ s, TI.run cfg TI.new t.events = .ok s ∧ s.arena.length = (frames t).length ∧
      ∀ (j : Nat) (f : FrameCtx) (x : Node), (frames t)[j]? = some f → s.arena[j]? = some x →
        x.trace.steps.length = (instrs cfg f.body).length ∧
        ∀ (k : Nat) (a : Instr) (st : CallTraceStep), (instrs cfg f.body)[k]? = some a →
          x.trace.steps[k]? = some st →
          (2 ^ 64 : Int) ∣ st.gasRefundCounter - a.before.gas.refunded ∧ st.gasRefundCounter < 2 ^ 64 ∧
          (0 ≤ a.before.gas.refunded → a.before.gas.refunded < 2 ^ 63 →
            (st.gasRefundCounter : Int) = a.before.gas.refunded) := by
  obtain ⟨s, hr, hl, h⟩ := steps_of_run cfg t hwf hsafe
  refine ⟨s, hr, hl, ?_⟩
  intro j f x hf hx
  have hst := h j f x hf hx
  have hm := List.mem_of_getElem? hf
  refine ⟨by rw [hst, stepsFor_length], ?_⟩
  intro k a st ha hk
  rw [hst, stepsFor_get, ha] at hk
  simp only [Option.map_some, Option.some.injEq] at hk
  obtain ⟨h1, h2⟩ := instrs_safe cfg f.body (frames_all hsafe hm) a (List.mem_of_getElem? ha)
  have := (stepFor_fields (d := f.depth + 1)
    (if k = 0 then none else (stepsFor cfg (f.depth + 1) (instrs cfg f.body) none)[k - 1]?) h1 h2).2.2.1
  rw [hk] at this
  rw [this]
  unfold i64AsU64
  refine ⟨?_, by omega, ?_⟩ <;> omega

/-! ## C02 -/

/-- **C02** (partial: what is missing is the case of failed instructions that leave too few items,
see the refutation). If every executed instruction left at least the items it places on the stack
when it succeeds (a fact about the EVM for the instructions that did succeed, so the hypothesis only
restricts the failed ones), then recording with pushed-items snapshots ends normally and the pushed items of every step are the topmost items of the stack after
the instruction, as many as `stack_push_count` says (C55 relates this number to the EVM). -/
theorem C02_pushed_items_partial (cfg : Config) (hcfg : cfg.recordStackSnapshots = .Pushes) (t : Tx)
    (hwf : t.WF) (hj : t.body.AllSteps (StorageSafe cfg))
    (hevm : t.body.AllSteps (fun i _ i' _ => evmPushes i.op.toNat ≤ i'.stack.length)) :
    ∃ s, TI.run cfg TI.new t.events = .ok s ∧ s.arena.length = (frames t).length ∧
      ∀ (j : Nat) (f : FrameCtx) (x : Node), (frames t)[j]? = some f → s.arena[j]? = some x →
        x.trace.steps.length = (instrs cfg f.body).length ∧
        ∀ (k : Nat) (a : Instr) (st : CallTraceStep) (i' : Interp) (c' : Ctx),
          (instrs cfg f.body)[k]? = some a → x.trace.steps[k]? = some st → a.after = some (i', c') →
          Op.stackPushCount a.before.op ≤ i'.stack.length ∧
          st.pushStack = some (i'.stack.drop (i'.stack.length - Op.stackPushCount a.before.op)) := by
  have hcount : ∀ op : OpCode, Op.stackPushCount op ≤ evmPushes op.toNat := by
    intro op
    by_cases h : op ≠ Op.TLOAD ∧ op ≠ Op.BLOBHASH ∧ op ≠ Op.BLOBBASEFEE
    · exact Nat.le_of_eq (C55_push_counts_partial op h.1 h.2.1 h.2.2)
    · have : op ∈ [Op.TLOAD, Op.BLOBHASH, Op.BLOBBASEFEE] := by
        by_cases h1 : op = Op.TLOAD
        · simp [h1]
        · by_cases h2 : op = Op.BLOBHASH
          · simp [h2]
          · by_cases h3 : op = Op.BLOBBASEFEE
            · simp [h3]
            · exact absurd ⟨h1, h2, h3⟩ h
      rw [(C55_refuted op this).1]; exact Nat.zero_le _
  have hpush : t.body.AllSteps (fun i _ i' _ => Op.stackPushCount i.op ≤ i'.stack.length) := by
    generalize t.body = b at hevm
    induction b with
    | nil => trivial
    | act a rest ih =>
      cases a with
      | step i c i' c' => exact ⟨Nat.le_trans (hcount _) hevm.1, ih hevm.2⟩
      | _ => exact ih hevm
    | sub h b o rest ihb ih => exact ⟨ihb hevm.1, ih hevm.2⟩
  have hps : t.body.AllSteps (PushesSafe cfg) := by
    clear hevm hj hwf
    generalize t.body = b at hpush
    induction b with
    | nil => trivial
    | act a rest ih =>
      cases a with
      | step i c i' c' => exact ⟨fun _ _ => hpush.1, ih hpush.2⟩
      | _ => exact ih hpush
    | sub h b o rest ihb ih => exact ⟨ihb hpush.1, ih hpush.2⟩
  have hsafe := (safe_iff cfg t.body).2 ⟨hps, hj⟩
  obtain ⟨s, hr, hl, h⟩ := steps_of_run cfg t hwf hsafe
  refine ⟨s, hr, hl, ?_⟩
  intro j f x hf hx
  have hst := h j f x hf hx
  have hm := List.mem_of_getElem? hf
  refine ⟨by rw [hst, stepsFor_length], ?_⟩
  intro k a st i' c' ha hk haf
  rw [hst, stepsFor_get, ha] at hk
  simp only [Option.map_some, Option.some.injEq] at hk
  obtain ⟨h1, h2⟩ := instrs_safe cfg f.body (frames_all hsafe hm) a (List.mem_of_getElem? ha)
  obtain ⟨_, h3⟩ := instrs_safe cfg f.body (frames_all hpush hm) a (List.mem_of_getElem? ha)
  refine ⟨h3 i' c' haf, ?_⟩
  have hss := h2 i' c' haf
  obtain ⟨sc, e1, _⟩ := finishStep_fields (cfg := cfg) (i' := i') (c' := c'.at (f.depth + 1))
    (st := TI.newStep cfg a.before (a.ctx.at (f.depth + 1)) (if k = 0 then none else
      (stepsFor cfg (f.depth + 1) (instrs cfg f.body) none)[k - 1]?)) (hss.1 h1) hss.2
  simp only [stepFor, haf] at hk
  rw [← hk, e1, drop_eq_topItems]
  simp [hcfg, TI.newStep]

/-- The example meets the hypotheses. -/
example : Example.tx.WF ∧
    Example.tx.body.AllSteps (StorageSafe (Config.fromParityConfig [.VmTrace])) ∧
    Example.tx.body.AllSteps (fun i _ i' _ => evmPushes i.op.toNat ≤ i'.stack.length) := by
  refine ⟨Example.wf, ((safe_iff _ _).1 (Example.safe _)).2, ?_⟩
  simp [Body.AllSteps, Example.tx, Example.body, Example.stepAct, Example.interp, Example.callee,
    Example.lib, evmPushes]
  decide

/-- A transaction whose only instruction is ADD on an empty stack, failing with StackUnderflow. -/
def addOnEmptyStack : Tx where
  hdr := Example.callHdr .Call 0x99 0xa 0xa 0
  body := .act (.step { Example.interp Op.ADD 0 100 .Continue with stack := [] } Example.ctx
    { Example.interp Op.ADD 1 97 .StackUnderflow with stack := [] } Example.ctx) .nil
  out := Example.out .StackUnderflow

/-- **C02, refuted** for failed instructions: with the vmTrace configuration the recorder panics
(arithmetic underflow in the slice bound) on a transaction that merely runs ADD on an empty stack. -/
theorem C02_refuted_failed_instruction :
    addOnEmptyStack.WF ∧
    TI.run (Config.fromParityConfig [.VmTrace]) TI.new addOnEmptyStack.events = .error .arith := by
  refine ⟨⟨fun _ => rfl, fun h => absurd h (by decide), trivial⟩, ?_⟩
  apply run_tx_err _ _ _ _ _ rfl rfl
  · trivial
  · exact ⟨fun _ => Example.journalOK, trivial⟩
  · intro h
    exact absurd (h.1 (by decide) (by decide)) (by decide)

/-! ## C07 -/

/-- Opcodes after which execution continues in the same frame and which can change the frame's
memory (write or expand), by the EVM specification, object format included. -/
def touchesMemory : List OpCode :=
  -- KECCAK256, CALLDATACOPY, CODECOPY, EXTCODECOPY, RETURNDATACOPY, MLOAD, MSTORE, MSTORE8, MCOPY,
  -- LOG0 to LOG4, DATACOPY, EOFCREATE, CREATE, CALL, CALLCODE, DELEGATECALL, CREATE2, EXTCALL,
  -- EXTDELEGATECALL, STATICCALL, EXTSTATICCALL
  [0x20, 0x37, 0x39, 0x3c, 0x3e, 0x51, 0x52, 0x53, 0x5e, 0xa0, 0xa1, 0xa2, 0xa3, 0xa4, 0xd3, 0xec,
   0xf0, 0xf1, 0xf2, 0xf4, 0xf5, 0xf8, 0xf9, 0xfa, 0xfb]

/-- Those of them that the code does not consider. DATACOPY writes to memory, the others only expand
it. -/
def missedMemory : List OpCode :=
  -- KECCAK256, LOG0 to LOG4, DATACOPY, EOFCREATE, CREATE, CREATE2, EXTCALL, EXTDELEGATECALL,
  -- EXTSTATICCALL
  [0x20, 0xa0, 0xa1, 0xa2, 0xa3, 0xa4, 0xd3, 0xec, 0xf0, 0xf5, 0xf8, 0xf9, 0xfb]

set_option maxRecDepth 20000 in
theorem touches_table : ∀ op : OpCode, op ∈ touchesMemory → op ∉ missedMemory →
    Op.mayModifyMemory op = true := by
  have h : ∀ n : Fin 256, UInt8.ofNat n.val ∈ touchesMemory → UInt8.ofNat n.val ∉ missedMemory →
      Op.mayModifyMemory (UInt8.ofNat n.val) = true := by decide
  intro op
  have := h ⟨op.toNat, op.toNat_lt⟩
  simpa using this

/-- Consecutive instructions of a frame: the memory before the second is that before the first,
unless the first can change memory. (A fact about the EVM.) -/
def MemoryLaw (l : List Instr) : Prop :=
  ∀ (k : Nat) (a b : Instr), l[k]? = some a → l[k + 1]? = some b → a.before.op ∉ touchesMemory →
    b.before.memory = a.before.memory

/-- No instruction of the missed kind changed the memory. -/
def NoHiddenExpansion (l : List Instr) : Prop :=
  ∀ (k : Nat) (a b : Instr), l[k]? = some a → l[k + 1]? = some b → a.before.op ∈ missedMemory →
    b.before.memory = a.before.memory

/-- **C07** (partial: without an opcode filter it requires that KECCAK256, LOGn, CREATE, CREATE2 and, in
the object format, EOFCREATE and EXTCALL and its relatives did not expand memory and that DATACOPY did not
change it; see the refutations). With memory snapshots on every recorded step carries
the memory as it was before the instruction. -/
theorem C07_memory_partial (cfg : Config) (hcfg : cfg.recordMemorySnapshots = true) (t : Tx)
    (hwf : t.WF) (hsafe : Safe cfg t.body)
    (hmem : cfg.recordOpcodesFilter = none → ∀ f ∈ frames t,
      MemoryLaw (instrs cfg f.body) ∧ NoHiddenExpansion (instrs cfg f.body)) :
    ∃ s, TI.run cfg TI.new t.events = .ok s ∧ s.arena.length = (frames t).length ∧
      ∀ (j : Nat) (f : FrameCtx) (x : Node), (frames t)[j]? = some f → s.arena[j]? = some x →
        x.trace.steps.map (·.memory) = (instrs cfg f.body).map (fun a => some a.before.memory) := by
  obtain ⟨s, hr, hl, h⟩ := steps_of_run cfg t hwf hsafe
  refine ⟨s, hr, hl, ?_⟩
  intro j f x hf hx
  have hm := List.mem_of_getElem? hf
  have hf2 : ∀ a ∈ instrs cfg f.body, records cfg a.before.op = true ∧
      ∀ i' c', a.after = some (i', c') → StepSafe cfg a.before a.ctx i' c' :=
    instrs_safe cfg f.body (frames_all hsafe hm)
  rw [h j f x hf hx]
  apply List.ext_getElem?
  intro k
  simp only [List.getElem?_map]
  have key : ∀ (k : Nat) (a : Instr), (instrs cfg f.body)[k]? = some a →
      ((stepsFor cfg (f.depth + 1) (instrs cfg f.body) none)[k]?).map (fun s : CallTraceStep => (s.op, s.memory)) =
        some (a.before.op, some a.before.memory) := by
    intro k
    induction k with
    | zero =>
      intro a ha
      rw [stepsFor_get, ha]
      obtain ⟨h1, h2⟩ := hf2 a (List.mem_of_getElem? ha)
      obtain ⟨e1, e2, _⟩ := stepFor_fields (d := f.depth + 1) (none : Option CallTraceStep) h1 h2
      simp only [Option.map_some, if_true, e1, e2]
      simp [TI.stepMemory, hcfg]
    | succ k ih =>
      intro a ha
      have hlt : k < (instrs cfg f.body).length := by
        have := (List.getElem?_eq_some_iff.1 ha).1; omega
      have hb : ∃ b, (instrs cfg f.body)[k]? = some b := ⟨_, List.getElem?_eq_getElem hlt⟩
      obtain ⟨b, hb⟩ := hb
      have hprev := ih b hb
      rw [stepsFor_get, ha]
      simp only [Nat.add_one_ne_zero, if_false, Nat.add_sub_cancel, Option.map_some]
      generalize hp : (stepsFor cfg (f.depth + 1) (instrs cfg f.body) none)[k]? = prev at hprev ⊢
      obtain ⟨h1, h2⟩ := hf2 a (List.mem_of_getElem? ha)
      obtain ⟨e1, e2, _⟩ := stepFor_fields (d := f.depth + 1) prev h1 h2
      simp only [e1, e2, Option.some.injEq, Prod.mk.injEq, true_and]
      cases prev with
      | none => simp at hprev
      | some p =>
        simp only [Option.map_some, Option.some.injEq, Prod.mk.injEq] at hprev
        simp only [TI.stepMemory, hcfg, if_true, hprev.1, hprev.2, Option.some.injEq]
        cases hfi : cfg.recordOpcodesFilter with
        | some fl => simp
        | none =>
          simp only [Option.isNone_none, if_true]
          split
          · rename_i hno
            obtain ⟨m1, m2⟩ := hmem hfi f hm
            by_cases hmiss : b.before.op ∈ missedMemory
            · exact (m2 k b a hb ha hmiss).symm
            · refine (m1 k b a hb ha ?_).symm
              intro ht
              have := touches_table _ ht hmiss
              simp [this] at hno
          · rfl
  cases ha : (instrs cfg f.body)[k]? with
  | none =>
    have : (stepsFor cfg (f.depth + 1) (instrs cfg f.body) none)[k]? = none := by
      rw [stepsFor_get, ha]; rfl
    rw [this]; rfl
  | some a =>
    have := key k a ha
    generalize (stepsFor cfg (f.depth + 1) (instrs cfg f.body) none)[k]? = q at this
    cases q with
    | none => simp at this
    | some q => simp_all

/-- Two instructions: MSTORE writes memory, POP follows with the memory changed; the hypotheses of
C07 hold for it. -/
def memoryTx (op : OpCode) : Tx where
  hdr := Example.callHdr .Call 0x99 0xa 0xa 0
  body := .act (.step { Example.interp op 0 100 .Continue with memory := [] } Example.ctx
    { Example.interp op 1 97 .Continue with memory := [1, 2, 3] } Example.ctx)
    (.act (Example.stepAct Op.POP 1 97) .nil)
  out := Example.out .Stop

theorem memoryTx_wf (op : OpCode) : (memoryTx op).WF :=
  ⟨fun _ => rfl,
   fun h => absurd h (by simp [memoryTx, Example.callHdr, Header.isPrecompile, Example.ctx]), trivial⟩

theorem memoryTx_safe (cfg : Config) (h : cfg.recordStackSnapshots = .Full) (op : OpCode) :
    Safe cfg (memoryTx op).body :=
  ⟨⟨fun _ h' => by simp [h, StackSnapshotType.isPushes] at h', fun _ => Example.journalOK⟩,
   Example.stepSafe _ _ _ _ (by decide), trivial⟩

example : (memoryTx Op.MSTORE).WF ∧ Safe Config.all (memoryTx Op.MSTORE).body ∧
    (∀ f ∈ frames (memoryTx Op.MSTORE),
      MemoryLaw (instrs Config.all f.body) ∧ NoHiddenExpansion (instrs Config.all f.body)) := by
  refine ⟨memoryTx_wf _, memoryTx_safe _ rfl _, ?_⟩
  intro f hf
  simp only [frames, memoryTx, subFrames, List.mem_cons, List.not_mem_nil, or_false] at hf
  subst hf
  refine ⟨?_, ?_⟩
  · intro k a b ha hb hop
    cases k with
    | zero =>
      simp [instrs, records, Config.all] at ha hb
      subst ha
      exact absurd (by decide : Op.MSTORE ∈ touchesMemory) hop
    | succ k => simp [instrs, records, Config.all, Example.stepAct] at hb
  · intro k a b ha hb hop
    cases k with
    | zero =>
      simp [instrs, records, Config.all] at ha hb
      subst ha
      exact absurd hop (by simp [Example.interp]; decide)
    | succ k => simp [instrs, records, Config.all, Example.stepAct] at hb

/-- **C07, refuted** without that condition: KECCAK256 expands the memory of a frame, and the step
recorded after it still shows the memory from before the expansion. -/
theorem C07_refuted_keccak :
    (memoryTx Op.KECCAK256).WF ∧ Safe Config.all (memoryTx Op.KECCAK256).body ∧
    ∃ s x, TI.run Config.all TI.new (memoryTx Op.KECCAK256).events = .ok s ∧ s.arena[0]? = some x ∧
      x.trace.steps.map (·.memory) = [some [], some []] ∧
      (instrs Config.all (memoryTx Op.KECCAK256).body).map (·.before.memory) = [[], [1, 2, 3]] := by
  refine ⟨memoryTx_wf _, memoryTx_safe _ rfl _, ?_⟩
  exact ⟨_, _, rfl, rfl, by decide, by decide⟩

/-- **C07, refuted** (DATACOPY): in a contract in the object format DATACOPY writes data into memory, and the
step recorded after it shows the memory without them. -/
theorem C07_refuted_datacopy :
    (memoryTx 0xd3).WF ∧ Safe Config.all (memoryTx 0xd3).body ∧
    ∃ s x, TI.run Config.all TI.new (memoryTx 0xd3).events = .ok s ∧ s.arena[0]? = some x ∧
      x.trace.steps.map (·.memory) = [some [], some []] ∧
      (instrs Config.all (memoryTx 0xd3).body).map (·.before.memory) = [[], [1, 2, 3]] := by
  refine ⟨memoryTx_wf _, memoryTx_safe _ rfl _, ?_⟩
  exact ⟨_, _, rfl, rfl, by decide, by decide⟩

/-! ## C08 -/

/-- The storage change an instruction made itself: SSTORE of a new value to the slot on top of the
stack appends a change entry for the executing contract and that slot; its value afterwards is
`new`. -/
def OwnChange (a : Instr) (c' : Ctx) (key old new : U256) : Prop :=
  a.before.peek 0 = some key ∧
  (∃ pre, c'.journal.getLast? = some (pre ++ [.storageChanged a.before.contract key old])) ∧
  c'.storage a.before.contract key = some new

/-- The instruction appended a journal entry that is no storage change (e.g. SLOAD of a cold slot)
or the journal holds none as its last entry. -/
def NoChangeLast (c' : Ctx) : Prop :=
  ∃ entries, c'.journal.getLast? = some entries ∧
    ∀ x k v, entries.getLast? ≠ some (.storageChanged x k v)

/-- **C08** (partial: missing is the case of an SLOAD, or an SSTORE without effect, whose journal
list ends with a change made by an earlier instruction; see the refutation). An SSTORE that journaled
its own change reports exactly that change with the values before and after; an SSTORE or SLOAD at
whose end the journal does not end with a change reports none; no other step reports any, and none
is reported with state-diff recording off. -/
theorem C08_storage_change_partial (cfg : Config) (t : Tx) (hwf : t.WF) (hsafe : Safe cfg t.body) :
    ∃ s, TI.run cfg TI.new t.events = .ok s ∧ s.arena.length = (frames t).length ∧
      ∀ (j : Nat) (f : FrameCtx) (x : Node), (frames t)[j]? = some f → s.arena[j]? = some x →
        x.trace.steps.length = (instrs cfg f.body).length ∧
        ∀ (k : Nat) (a : Instr) (st : CallTraceStep),
          (instrs cfg f.body)[k]? = some a → x.trace.steps[k]? = some st →
          (∀ i' c' key old new, a.after = some (i', c') → cfg.recordStateDiff = true →
            a.before.op = 0x55 → OwnChange a c' key old new →
            st.storageChange = some ⟨key, new, some old, .SSTORE⟩) ∧
          (∀ i' c', a.after = some (i', c') → NoChangeLast c' → st.storageChange = none) ∧
          ((a.before.op ≠ 0x55 ∧ a.before.op ≠ 0x54) ∨ cfg.recordStateDiff = false ∨
            a.after = none → st.storageChange = none) := by
  obtain ⟨s, hr, hl, h⟩ := steps_of_run cfg t hwf hsafe
  refine ⟨s, hr, hl, ?_⟩
  intro j f x hf hx
  have hst := h j f x hf hx
  have hm := List.mem_of_getElem? hf
  refine ⟨by rw [hst, stepsFor_length], ?_⟩
  intro k a st ha hk
  rw [hst, stepsFor_get, ha] at hk
  simp only [Option.map_some, Option.some.injEq] at hk
  obtain ⟨h1, h2⟩ := instrs_safe cfg f.body (frames_all hsafe hm) a (List.mem_of_getElem? ha)
  obtain ⟨_, _, _, h3, h4⟩ := stepFor_fields (d := f.depth + 1)
    (if k = 0 then none else (stepsFor cfg (f.depth + 1) (instrs cfg f.body) none)[k - 1]?) h1 h2
  rw [hk] at h3 h4
  refine ⟨?_, ?_, ?_⟩
  · intro i' c' key old new haf hcfg hop ⟨_, ⟨pre, hj⟩, hv⟩
    have hop : a.before.op = Op.SSTORE := hop
    have := h3 i' c' haf hcfg
    simp only [TI.stepStorageChange, Ctx.at, hj, hop, or_true, if_true, List.getLast?_concat, hv] at this
    simp only [Except.ok.injEq] at this
    rw [← this]
    rfl
  · intro i' c' haf ⟨entries, hj, hno⟩
    by_cases hcfg : cfg.recordStateDiff = true
    · have := h3 i' c' haf hcfg
      simp only [TI.stepStorageChange, Ctx.at, hj] at this
      split at this
      · simp only [Except.ok.injEq] at this
        exact this.symm
      · simp only [Except.ok.injEq] at this
        exact this.symm
    · exact h4 (Or.inr (by simpa using hcfg))
  · rintro (hop | hcfg | haf)
    · by_cases hcfg : cfg.recordStateDiff = true
      · cases haf : a.after with
        | none => exact h4 (Or.inl haf)
        | some p =>
          obtain ⟨i', c'⟩ := p
          have := h3 i' c' haf hcfg
          unfold TI.stepStorageChange at this
          split at this
          · simp at this
          · rw [if_neg (fun h => h.elim hop.2 hop.1)] at this
            simp only [Except.ok.injEq] at this
            exact this.symm
      · exact h4 (Or.inr (by simpa using hcfg))
    · exact h4 (Or.inr hcfg)
    · exact h4 (Or.inl haf)

/-- SSTORE to slot 5 (old value 7, new value 9) followed by SLOAD of slot `key`. -/
def storageTx (key : U256) : Tx where
  hdr := Example.callHdr .Call 0x99 0xa 0xa 0
  body := .act (.step { Example.interp Op.SSTORE 0 100 .Continue with stack := [9, 5] }
      { Example.ctx with journal := [[]] }
      { Example.interp Op.SSTORE 1 97 .Continue with stack := [] } Example.ctx)
    (.act (.step { Example.interp Op.SLOAD 1 97 .Continue with stack := [key] } Example.ctx
      { Example.interp Op.SLOAD 2 94 .Continue with stack := [0] } Example.ctx) .nil)
  out := Example.out .Stop

def storageCfg : Config := { Config.all with recordStateDiff := true }

theorem storageTx_ok (key : U256) : (storageTx key).WF ∧ Safe storageCfg (storageTx key).body :=
  ⟨⟨fun _ => rfl, fun h => absurd h (by simp [storageTx, Example.callHdr, Header.isPrecompile,
      Example.ctx]), trivial⟩,
    ⟨fun _ h => by simp [storageCfg, Config.all, StackSnapshotType.isPushes] at h, fun _ => Example.journalOK⟩,
    ⟨fun _ h => by simp [storageCfg, Config.all, StackSnapshotType.isPushes] at h, fun _ => Example.journalOK⟩,
    trivial⟩

/-- The SSTORE of the example journaled its own change. -/
example : OwnChange ⟨{ Example.interp Op.SSTORE 0 100 .Continue with stack := [9, 5] },
    { Example.ctx with journal := [[]] },
    some ({ Example.interp Op.SSTORE 1 97 .Continue with stack := [] }, Example.ctx)⟩
    Example.ctx 5 7 9 := ⟨by decide, ⟨[], rfl⟩, by decide⟩

/-- **C08, refuted** for reads: an SLOAD of slot 1, which changes nothing, is reported as a change
of slot 5 from 7 to 9 (the change the preceding SSTORE made). -/
theorem C08_refuted_stale_entry :
    (storageTx 1).WF ∧ Safe storageCfg (storageTx 1).body ∧
    ∃ s x, TI.run storageCfg TI.new (storageTx 1).events = .ok s ∧ s.arena[0]? = some x ∧
      x.trace.steps.map (fun st => (st.op, st.storageChange)) =
        [(Op.SSTORE, some ⟨5, 9, some 7, .SSTORE⟩), (Op.SLOAD, some ⟨5, 9, some 7, .SLOAD⟩)] := by
  refine ⟨(storageTx_ok 1).1, (storageTx_ok 1).2, ?_⟩
  exact ⟨_, _, rfl, rfl, by decide⟩

end Verif.Props
