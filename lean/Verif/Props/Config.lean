import Verif.Spec.Frames
/-!
# C40 (opcode filter), C41 (presets and setters), C12 (gas arithmetic), C53 (error texts),
C55 (pushed-item counts)
-/
namespace Verif.Props
open Spec

/-! ## C40 -/

theorem fromLimbs_get (l0 l1 l2 l3 : BitVec 64) (i : Nat) :
    (OpcodeFilter.fromLimbs [l0, l1, l2, l3]).getLsbD i =
      if i < 64 then l0.getLsbD i else if i < 128 then l1.getLsbD (i - 64)
      else if i < 192 then l2.getLsbD (i - 128) else l3.getLsbD (i - 192) := by
  simp only [OpcodeFilter.fromLimbs, BitVec.getLsbD_append]
  by_cases h0 : i < 64
  · simp [h0]
  · by_cases h1 : i < 128
    · simp [h0, h1, show i - 64 < 64 by omega]
    · by_cases h2 : i < 192
      · simp [h0, h1, h2, show ¬ i - 64 < 64 by omega, show i - 64 - 64 = i - 128 by omega,
          show i - 128 < 64 by omega]
      · simp [h0, h1, h2, show ¬ i - 64 < 64 by omega, show ¬ i - 64 - 64 < 64 by omega,
          show i - 64 - 64 - 64 = i - 192 by omega]

theorem limb_get (x : U256) (s i : Nat) :
    (x.extractLsb' s 64).getLsbD i = (decide (i < 64) && x.getLsbD (s + i)) := by
  simp [BitVec.getLsbD_extractLsb']

theorem shl_get (b i : Nat) (hb : b < 64) :
    (1#64 <<< b).getLsbD i = decide (i = b) := by
  simp only [BitVec.getLsbD_shiftLeft, BitVec.getLsbD_one]
  by_cases h : i = b
  · subst h; simp [hb]
  · by_cases h1 : i < b
    · simp [h1, h]
    · have : ¬ i - b = 0 := by omega
      simp [h, this]

theorem enabled_isEnabled (f : OpcodeFilter) (op op' : OpCode) :
    (f.enabled op).isEnabled op' = (f.isEnabled op' || op == op') := by
  have hop : op.toNat < 256 := op.toNat_lt
  have hop' : op'.toNat < 256 := op'.toNat_lt
  have heq : (op == op') = decide (op'.toNat = op.toNat) := by
    by_cases h : op = op'
    · subst h; simp
    · have : ¬ op'.toNat = op.toNat := fun hh => h (UInt8.toNat_inj.1 hh.symm)
      simp [h, this]
  rw [heq]
  simp only [OpcodeFilter.isEnabled, OpcodeFilter.enabled, OpcodeFilter.intoLimbs]
  have hc : op.toNat / 64 = 0 ∨ op.toNat / 64 = 1 ∨ op.toNat / 64 = 2 ∨ op.toNat / 64 = 3 := by omega
  have hb : op.toNat % 64 < 64 := by omega
  generalize op.toNat = a at *
  generalize op'.toNat = i at *
  rcases hc with h | h | h | h <;>
    simp only [h, List.modify_succ_cons, List.modify_cons, fromLimbs_get,
      BitVec.getLsbD_or, limb_get, shl_get _ _ hb, Nat.zero_add,
      reduceIte, Nat.reduceSub] <;>
    (by_cases h0 : i < 64
     · simp [h0] <;> first | omega | (cases BitVec.getLsbD f.bits i <;> simp <;> omega)
     · by_cases h1 : i < 128
       · simp [h0, h1, show i - 64 < 64 by omega, show 64 + (i - 64) = i by omega] <;>
           first | omega | (cases BitVec.getLsbD f.bits i <;> simp <;> omega)
       · by_cases h2 : i < 192
         · simp [h0, h1, h2, show i - 128 < 64 by omega, show 128 + (i - 128) = i by omega] <;>
             first | omega | (cases BitVec.getLsbD f.bits i <;> simp <;> omega)
         · simp [h0, h1, h2, show i - 192 < 64 by omega, show 192 + (i - 192) = i by omega] <;>
             first | omega | (cases BitVec.getLsbD f.bits i <;> simp <;> omega))

theorem enable_isEnabled (f : OpcodeFilter) (op op' : OpCode) :
    (f.enable op).isEnabled op' = (f.isEnabled op' || op == op') := by
  have hop : op.toNat < 256 := op.toNat_lt
  have hop' : op'.toNat < 256 := op'.toNat_lt
  have heq : (op == op') = decide (op'.toNat = op.toNat) := by
    by_cases h : op = op'
    · subst h; simp
    · have : ¬ op'.toNat = op.toNat := fun hh => h (UInt8.toNat_inj.1 hh.symm)
      simp [h, this]
  rw [heq]
  simp only [OpcodeFilter.isEnabled, OpcodeFilter.enable, BitVec.getLsbD_or,
    BitVec.getLsbD_shiftLeft, BitVec.getLsbD_one]
  congr 1
  by_cases h : op'.toNat = op.toNat
  · simp [h, hop]
  · by_cases h1 : op'.toNat < op.toNat
    · simp [h1, h]
    · have : ¬ op'.toNat - op.toNat = 0 := by omega
      simp [h, this]

/-- The filter built by a sequence of builder calls; `true` stands for `enable`, `false` for
`enabled`. -/
def buildFilter (calls : List (Bool × OpCode)) : OpcodeFilter :=
  calls.foldl (fun f c => if c.1 then f.enable c.2 else f.enabled c.2) OpcodeFilter.new

/-- **C40.** For every sequence of `enable`/`enabled` calls the filter enables exactly the opcodes
named. -/
theorem C40_filter_is_set (calls : List (Bool × OpCode)) (op : OpCode) :
    (buildFilter calls).isEnabled op = true ↔ ∃ how, (how, op) ∈ calls := by
  have gen : ∀ (calls : List (Bool × OpCode)) (f : OpcodeFilter),
      ((calls.foldl (fun f c => if c.1 then f.enable c.2 else f.enabled c.2) f).isEnabled op = true
        ↔ f.isEnabled op = true ∨ ∃ how, (how, op) ∈ calls) := by
    intro calls
    induction calls with
    | nil => intro f; simp
    | cons c calls ih =>
      intro f
      rw [List.foldl_cons, ih]
      have : (if c.1 then f.enable c.2 else f.enabled c.2).isEnabled op =
          (f.isEnabled op || c.2 == op) := by
        split
        · exact enable_isEnabled ..
        · exact enabled_isEnabled ..
      rw [this]
      obtain ⟨how, o⟩ := c
      simp only [Bool.or_eq_true, beq_iff_eq, List.mem_cons, Prod.mk.injEq]
      constructor
      · rintro ((h | h) | ⟨w, h⟩)
        · exact Or.inl h
        · exact Or.inr ⟨how, Or.inl ⟨rfl, h.symm⟩⟩
        · exact Or.inr ⟨w, Or.inr h⟩
      · rintro (h | ⟨w, ⟨_, h⟩ | h⟩)
        · exact Or.inl (Or.inl h)
        · exact Or.inl (Or.inr h.symm)
        · exact Or.inr ⟨w, h⟩
  have := gen calls OpcodeFilter.new
  rw [buildFilter, this]
  simp [OpcodeFilter.new, OpcodeFilter.isEnabled]

/-- The two builder methods compute the same filter, for every filter and opcode. -/
theorem C40_enable_eq_enabled (f : OpcodeFilter) (op : OpCode) : f.enable op = f.enabled op := by
  have : ∀ a b : OpcodeFilter, (∀ o, a.isEnabled o = b.isEnabled o) → a = b := by
    intro a b h
    have : a.bits = b.bits := by
      apply BitVec.eq_of_getLsbD_eq
      intro i hi
      have := h (UInt8.ofNat i)
      simp only [OpcodeFilter.isEnabled] at this
      rwa [show (UInt8.ofNat i).toNat = i by simp [Nat.mod_eq_of_lt hi]] at this
    cases a; cases b; simp_all
  apply this
  intro o
  rw [enable_isEnabled, enabled_isEnabled]

/-- Order and multiplicity are irrelevant: filters built from call sequences naming the same opcodes
are equal. -/
theorem C40_order_irrelevant (c1 c2 : List (Bool × OpCode))
    (h : ∀ op, (∃ how, (how, op) ∈ c1) ↔ (∃ how, (how, op) ∈ c2)) :
    buildFilter c1 = buildFilter c2 := by
  have : (buildFilter c1).bits = (buildFilter c2).bits := by
    apply BitVec.eq_of_getLsbD_eq
    intro i hi
    have h1 := C40_filter_is_set c1 (UInt8.ofNat i)
    have h2 := C40_filter_is_set c2 (UInt8.ofNat i)
    rw [h, ← h2] at h1
    simp only [OpcodeFilter.isEnabled, show (UInt8.ofNat i).toNat = i by simp [Nat.mod_eq_of_lt hi]] at h1
    exact Bool.eq_iff_iff.2 h1
  generalize buildFilter c1 = a at *
  generalize buildFilter c2 = b at *
  cases a; cases b; simp_all

/-- The filter decides which opcodes a configuration records; without one it records all. -/
theorem C40_config (cfg : Config) (calls : List (Bool × OpCode)) (op : OpCode) :
    ({ cfg with recordOpcodesFilter := some (buildFilter calls) }.shouldRecordOpcode op = true ↔
      ∃ how, (how, op) ∈ calls) ∧
    (cfg.recordOpcodesFilter = none → cfg.shouldRecordOpcode op = true) := by
  refine ⟨C40_filter_is_set calls op, fun h => ?_⟩
  simp [Config.shouldRecordOpcode, h]

example : (buildFilter [(true, Op.CALL), (false, Op.SLOAD), (false, Op.CALL)]).isEnabled Op.SLOAD = true ∧
    (buildFilter [(true, Op.CALL), (false, Op.SLOAD)]).isEnabled Op.SSTORE = false := by decide

/-! ## C41 -/

/-- **C41** (parity). Steps, memory and pushed stack items are recorded exactly if vmTrace is
requested; nothing else but precompile exclusion is ever on. -/
theorem C41_parity (types : List TraceType) :
    let c := Config.fromParityConfig types
    (c.recordSteps = true ↔ .VmTrace ∈ types) ∧
    (c.recordMemorySnapshots = true ↔ .VmTrace ∈ types) ∧
    (c.recordStackSnapshots = .Pushes ↔ .VmTrace ∈ types) ∧
    (c.recordStackSnapshots = .None ↔ .VmTrace ∉ types) ∧
    c.recordStateDiff = false ∧ c.recordReturndataSnapshots = false ∧ c.recordLogs = false ∧
    c.recordOpcodesFilter = none ∧ c.excludePrecompileCalls = true := by
  by_cases h : TraceType.VmTrace ∈ types <;>
    simp [Config.fromParityConfig, Config.setMemorySnapshots, Config.setStackSnapshots,
      Config.setSteps, Config.defaultParity, h]

/-- The request is a set: order and duplicates do not matter. -/
theorem C41_parity_set (a b : List TraceType) (h : ∀ x, x ∈ a ↔ x ∈ b) :
    Config.fromParityConfig a = Config.fromParityConfig b := by
  have : a.contains .VmTrace = b.contains .VmTrace := by
    apply Bool.eq_iff_iff.2; simp [h]
  simp only [Config.fromParityConfig, this]

/-- **C41** (geth). Steps are always recorded; stack unless disabled, storage changes unless
disabled, memory only if enabled; no logs, no returndata, no filter, no exclusion. -/
theorem C41_geth (o : GethOptions) :
    let c := Config.fromGethConfig o
    c.recordSteps = true ∧
    (c.recordStackSnapshots = .Full ↔ o.disableStack ≠ some true) ∧
    (c.recordStackSnapshots = .None ↔ o.disableStack = some true) ∧
    (c.recordStateDiff = true ↔ o.disableStorage ≠ some true) ∧
    (c.recordMemorySnapshots = true ↔ o.enableMemory = some true) ∧
    c.recordReturndataSnapshots = false ∧ c.recordLogs = false ∧
    c.recordOpcodesFilter = none ∧ c.excludePrecompileCalls = false := by
  obtain ⟨m, st, sto, r⟩ := o
  rcases m with _ | _ | _ <;> rcases st with _ | _ | _ <;> rcases sto with _ | _ | _ <;>
    simp [Config.fromGethConfig, Config.defaultGeth]

/-- **C41** (call tracer and prestate tracer). Only logs, and only if asked for. -/
theorem C41_geth_call (c : CallConfig) (p : PreStateConfig) :
    let l := Config.fromGethCallConfig c
    let q := Config.fromGethPrestateConfig p
    (l.recordLogs = true ↔ c.withLog = some true) ∧ q.recordLogs = false ∧
    ∀ d, d = l ∨ d = q → d.recordSteps = false ∧ d.recordMemorySnapshots = false ∧
      d.recordStackSnapshots = .None ∧ d.recordStateDiff = false ∧
      d.recordReturndataSnapshots = false ∧ d.recordOpcodesFilter = none ∧
      d.excludePrecompileCalls = false := by
  intro l q
  refine ⟨?_, rfl, ?_⟩
  · obtain ⟨a, b⟩ := c
    rcases b with _ | _ | _ <;> simp [l, Config.fromGethCallConfig, Config.setRecordLogs]
  · rintro d (rfl | rfl) <;>
      exact ⟨rfl, rfl, rfl, rfl, rfl, rfl, rfl⟩

/-- **C41** (presets). What the four ready-made configurations record; the one documented as having
everything enabled records no storage changes. -/
theorem C41_presets :
    (Config.all.recordSteps ∧ Config.all.recordMemorySnapshots ∧ Config.all.recordStackSnapshots = .Full ∧
      Config.all.recordReturndataSnapshots ∧ Config.all.recordLogs ∧
      Config.all.recordOpcodesFilter = none ∧ ¬ Config.all.excludePrecompileCalls ∧
      Config.all.recordStateDiff = false) ∧
    Config.none = {} ∧ Config.defaultParity = { excludePrecompileCalls := true } ∧
    Config.defaultGeth =
      { recordSteps := true, recordStackSnapshots := .Full, recordStateDiff := true } := by
  refine ⟨by decide, rfl, rfl, rfl⟩

/-- **C41** (setters). Each setter changes its field and no other. -/
theorem C41_setters (c : Config) (b : Bool) (t : StackSnapshotType) :
    c.setSteps b = { c with recordSteps := b } ∧
    c.steps = { c with recordSteps := true } ∧ c.disableSteps = { c with recordSteps := false } ∧
    c.setMemorySnapshots b = { c with recordMemorySnapshots := b } ∧
    c.memorySnapshots = { c with recordMemorySnapshots := true } ∧
    c.disableMemorySnapshots = { c with recordMemorySnapshots := false } ∧
    c.setStackSnapshots t = { c with recordStackSnapshots := t } ∧
    c.stackSnapshots = { c with recordStackSnapshots := .Full } ∧
    c.disableStackSnapshots = { c with recordStackSnapshots := .None } ∧
    c.setStateDiffs b = { c with recordStateDiff := b } ∧
    c.disableStateDiffs = { c with recordStateDiff := false } ∧
    c.setStepsAndStateDiffs b = { c with recordSteps := b, recordStateDiff := b } ∧
    c.withStateDiffs = { c with recordSteps := true, recordStateDiff := true } ∧
    c.setRecordLogs b = { c with recordLogs := b } ∧
    c.withRecordLogs = { c with recordLogs := true } ∧
    c.disableRecordLogs = { c with recordLogs := false } ∧
    c.setExcludePrecompileCalls b = { c with excludePrecompileCalls := b } := by
  refine ⟨rfl, rfl, rfl, rfl, rfl, rfl, rfl, rfl, rfl, rfl, rfl, rfl, rfl, rfl, rfl, rfl, rfl⟩

/-- A setter application. -/
inductive Setter where
  | steps (b : Bool) | memory (b : Bool) | stack (t : StackSnapshotType) | diffs (b : Bool)
  | logs (b : Bool) | exclude (b : Bool)
  deriving DecidableEq

/-- Which field it sets. -/
def Setter.field : Setter → Nat
  | .steps _ => 0 | .memory _ => 1 | .stack _ => 2 | .diffs _ => 3 | .logs _ => 4 | .exclude _ => 5

def Setter.apply (c : Config) : Setter → Config
  | .steps b => c.setSteps b
  | .memory b => c.setMemorySnapshots b
  | .stack t => c.setStackSnapshots t
  | .diffs b => c.setStateDiffs b
  | .logs b => c.setRecordLogs b
  | .exclude b => c.setExcludePrecompileCalls b

/-- **C41** (setters commute; the last one to a field wins), for any sequences around them. -/
theorem C41_setters_commute (c : Config) (s1 s2 : Setter) :
    (s1.field ≠ s2.field → s2.apply (s1.apply c) = s1.apply (s2.apply c)) ∧
    (s1.field = s2.field → s2.apply (s1.apply c) = s2.apply c) := by
  cases s1 <;> cases s2 <;> simp [Setter.field, Setter.apply, Config.setSteps,
    Config.setMemorySnapshots, Config.setStackSnapshots, Config.setStateDiffs,
    Config.setRecordLogs, Config.setExcludePrecompileCalls]

/-! ## C12 -/

/-- **C12.** For all spent and refunded gas: the result is at most the spent gas, at least spent
minus the capped share, antitone in the refund and monotone in the spent gas; the underlying
subtraction never underflows; the cap is a fifth from London on and a half before. -/
theorem C12_gas_used (spec : SpecId) (spent refund : Nat) :
    let q := if LONDON ≤ spec then 5 else 2
    min refund (spent / q) ≤ spent ∧
    Verif.gasUsed spec spent refund + min refund (spent / q) = spent ∧
    spent - spent / q ≤ Verif.gasUsed spec spent refund ∧
    Verif.gasUsed spec spent refund ≤ spent ∧
    (∀ refund', refund ≤ refund' → Verif.gasUsed spec spent refund' ≤ Verif.gasUsed spec spent refund) ∧
    (∀ spent', spent ≤ spent' → Verif.gasUsed spec spent refund ≤ Verif.gasUsed spec spent' refund) := by
  have hq : ∀ s : SpecId, (if s.enabled LONDON then 5 else 2) = if LONDON ≤ s then 5 else 2 := by
    intro s; simp [SpecId.enabled]
  simp only [Verif.gasUsed, hq]
  have hmono : ∀ q, (q = 5 ∨ q = 2) → ∀ a b r : Nat, a ≤ b → a - min r (a / q) ≤ b - min r (b / q) := by
    intro q hq a b r hab
    rcases hq with rfl | rfl <;> omega
  have hq2 : (if LONDON ≤ spec then 5 else 2) = 5 ∨ (if LONDON ≤ spec then 5 else 2) = 2 := by
    split <;> simp
  generalize (if LONDON ≤ spec then 5 else 2) = q at *
  have hle : spent / q ≤ spent := Nat.div_le_self _ _
  clear hq
  generalize hd : spent / q = d at *
  refine ⟨by omega, by omega, by omega, by omega, ?_, ?_⟩
  · intro r hr; omega
  · intro s hs
    rw [← hd]
    exact hmono q hq2 spent s refund hs

example : Verif.gasUsed 17 1000 100 = 900 ∧ Verif.gasUsed 17 1000 900 = 800 ∧
    Verif.gasUsed 11 1000 900 = 500 := by decide

/-! ## C53 -/

/-- **C53.** A text is produced exactly for statuses that are not successes (none for the five
success codes), and it is the documented one. -/
theorem C53_error_text (t : CallTrace) (style : TraceStyle) :
    (t.asErrorMsg style = none ↔ t.status ∈ [InstructionResult.Continue, .Stop, .Return,
      .SelfDestruct, .ReturnContract]) ∧
    (∀ m, t.asErrorMsg style = some m → m = errorText style t.status) ∧
    (t.status = .Revert ↔ t.asErrorMsg style = some (errorText style .Revert)) := by
  obtain ⟨_, _, _, _, _, _, _, _, _, _, _, _, _, st, _, _⟩ := t
  cases st <;> cases style <;>
    simp [CallTrace.asErrorMsg, CallTrace.isError, InstructionResult.isOk, errorText,
      InstructionResult.debug]

/-- Texts of different named classes differ in either style, so a user can tell them apart. -/
theorem C53_distinct (style : TraceStyle) (a b : InstructionResult)
    (h : errorText style a = errorText style b) :
    a = b ∨ (a = .OutOfGas ∧ b = .MemoryOOG) ∨ (a = .MemoryOOG ∧ b = .OutOfGas) := by
  cases style <;> cases a <;> cases b <;> simp [errorText, InstructionResult.debug] at h ⊢

example : ({ status := .OutOfGas } : CallTrace).asErrorMsg .Geth = some "out of gas" := by decide

/-! ## C55 -/

/-- Items an instruction leaves on the stack by the EVM specification (legacy bytecode), for
instructions that complete within the frame; `DUPn`/`SWAPn` by the parity convention `n + 1`
(the touched items). Indexed by the numeric opcode, independent of the code's table. -/
def evmPushes (op : Nat) : Nat :=
  if 0x01 ≤ op ∧ op ≤ 0x0b then 1            -- arithmetic
  else if 0x10 ≤ op ∧ op ≤ 0x1d then 1       -- comparison, bitwise
  else if op = 0x20 then 1                   -- KECCAK256
  else if op = 0x37 ∨ op = 0x39 ∨ op = 0x3c ∨ op = 0x3e then 0   -- the copying ones
  else if 0x30 ≤ op ∧ op ≤ 0x4a then 1       -- environment and block
  else if op = 0x51 ∨ op = 0x54 ∨ op = 0x58 ∨ op = 0x59 ∨ op = 0x5a ∨ op = 0x5c then 1
  else if 0x5f ≤ op ∧ op ≤ 0x7f then 1       -- PUSH0..PUSH32
  else if 0x80 ≤ op ∧ op ≤ 0x8f then op - 0x80 + 2   -- DUPn
  else if 0x90 ≤ op ∧ op ≤ 0x9f then op - 0x90 + 2   -- SWAPn
  else 0

set_option maxRecDepth 20000 in
/-- **C55** (partial: TLOAD, BLOBHASH and BLOBBASEFEE are excepted, see the refutation; opcodes that
enter a frame and EOF-only opcodes are outside the claim). For every opcode byte the count is the
EVM's. The domain is finite, so the kernel decides it completely. -/
theorem C55_push_counts_partial : ∀ op : OpCode,
    op ≠ 0x5c → op ≠ 0x49 → op ≠ 0x4a →
    Op.stackPushCount op = evmPushes op.toNat := by
  have h : ∀ n : Fin 256, let op := UInt8.ofNat n.val
      op ≠ 0x5c → op ≠ 0x49 → op ≠ 0x4a →
      Op.stackPushCount op = evmPushes op.toNat := by decide
  intro op
  have := h ⟨op.toNat, op.toNat_lt⟩
  simpa using this

/-- **C55, refuted** for three opcodes that push one item and are counted as pushing none. -/
theorem C55_refuted : ∀ op ∈ [0x5c, 0x49, 0x4a],
    Op.stackPushCount op = 0 ∧ evmPushes op.toNat = 1 := by decide

/-- **C55, exactly:** the count is the EVM's for all opcodes but these three, and never too high. -/
theorem C55_exact (op : OpCode) :
    (Op.stackPushCount op = evmPushes op.toNat ↔ op ∉ [0x5c, 0x49, 0x4a]) ∧
    Op.stackPushCount op ≤ evmPushes op.toNat := by
  by_cases h : op ∈ [0x5c, 0x49, 0x4a]
  · obtain ⟨h1, h2⟩ := C55_refuted op h
    rw [h1, h2]
    simp [h]
  · have : Op.stackPushCount op = evmPushes op.toNat := by
      simp only [List.mem_cons, List.not_mem_nil, or_false, not_or] at h
      exact C55_push_counts_partial op h.1 h.2.1 h.2.2
    rw [this]
    simp only [true_iff, Nat.le_refl, and_true]
    exact h

end Verif.Props
