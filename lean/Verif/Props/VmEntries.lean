import Verif.Spec.VmEntries
import Verif.Props.VmExact
import Verif.Props.StepsExact
import Verif.Props.Cross
/-!
# C80: what the entries of the `vmTrace` say about their instructions
-/
namespace Verif.Props
open Spec Rec Parity Par

/-- What OpenEthereum documents of an executed operation: the gas left after it, the items it put on the
stack, the piece of memory it wrote as it is afterwards, the slot it wrote. -/
structure Describes (ex : Parity.VmExec) (a : Instr) (after : Interp) : Prop where
  used : ex.used = after.gas.remaining
  push : ex.push = topItems (evmPushes a.before.op.toNat) after.stack
  mem : ∀ off data, ex.mem = some (off, data) → MemoryHas after.memory off data
  store : ex.store = stored a

/-- The entries the code makes for a frame, without the sub-traces. -/
def listing (cfg : Config) (f : FrameCtx) : List VmInstruction :=
  List.zipWith vmEntry (instrs cfg f.body) (sharedMemory (instrs cfg f.body) none)

theorem noSub_vmInstr (st : CallTraceStep) (sub : Option VmTrace) :
    noSub (vmInstr st sub) = vmInstr st none := rfl

theorem handOut_noSub (ss : List CallTraceStep) : ∀ q : List VmTrace,
    (handOut ss q).map noSub = ss.map (vmInstr · none) := by
  induction ss with
  | nil => intro q; rfl
  | cons st ss ih =>
    intro q
    rw [handOut]
    split <;> simp [ih, noSub_vmInstr]

theorem parity_config {types : List TraceType} (h : TraceType.VmTrace ∈ types) :
    Config.fromParityConfig types = Config.fromParityConfig [.VmTrace] := by
  have : types.contains .VmTrace = true := by simpa using h
  simp only [Config.fromParityConfig, this]
  rfl

theorem stepsFor_entries {cfg : Config} (hst : cfg.recordStackSnapshots = .Pushes)
    (hd : cfg.recordStateDiff = false) (d : Nat) :
    ∀ (l : List Instr) (prev : Option CallTraceStep) (ms : List Bytes),
      (∀ a ∈ l, records cfg a.before.op = true ∧
        ∀ i' c', a.after = some (i', c') → StepSafe cfg a.before a.ctx i' c') →
      (stepsFor cfg d l prev).map (·.memory) = ms.map some →
      (stepsFor cfg d l prev).map (vmInstr · none) = List.zipWith vmEntry l ms := by
  intro l
  induction l with
  | nil => intro prev ms _ _; simp [stepsFor]
  | cons a l ih =>
    intro prev ms hl hm
    cases ms with
    | nil => simp [stepsFor] at hm
    | cons m ms =>
      simp only [stepsFor, List.map_cons, List.cons.injEq] at hm
      simp only [stepsFor, List.map_cons, List.zipWith_cons_cons, List.cons.injEq]
      refine ⟨?_, ih _ _ (fun b hb => hl b (by simp [hb])) hm.2⟩
      obtain ⟨h1, h2⟩ := hl a (by simp)
      obtain ⟨_, _, _, _, h5⟩ := stepFor_fields (d := d) prev h1 h2
      have h5 := h5 (Or.inr hd)
      rw [vmInstr, hm.1, h5, vmEntry]
      cases ha : a.after with
      | none =>
        simp only [stepFor, ha, TI.newStep]
        rfl
      | some r =>
        obtain ⟨i', c'⟩ := r
        have hss := h2 i' c' ha
        obtain ⟨sc, e1, _⟩ := finishStep_fields (cfg := cfg) (i' := i') (c' := c'.at d)
          (st := TI.newStep cfg a.before (a.ctx.at d) prev) (hss.1 h1) hss.2
        simp only [stepFor, ha]
        rw [e1]
        simp only [hst, if_true]
        rfl

/-- The sub-traces of the traces handed out are traces handed out. -/
theorem handOut_sub (ss : List CallTraceStep) : ∀ (q : List VmTrace) (x : VmInstruction) (w : VmTrace),
    x ∈ handOut ss q → x.sub = some w → w ∈ q := by
  induction ss with
  | nil => intro q x w hx; simp [handOut] at hx
  | cons st ss ih =>
    intro q x w hx hw
    rw [handOut] at hx
    split at hx
    · rcases List.mem_cons.1 hx with rfl | hx
      · cases q with
        | nil => simp [vmInstr, VmInstruction.sub] at hw
        | cons y q => simp [vmInstr, VmInstruction.sub] at hw; simp [hw]
      · exact List.mem_of_mem_tail (ih _ _ _ hx hw)
    · rcases List.mem_cons.1 hx with rfl | hx
      · simp [vmInstr, VmInstruction.sub] at hw
      · exact ih _ _ _ hx hw

theorem tracesOf_at {S : Nat → List CallTraceStep} {fs : List FrameCtx} {V : List VmTrace}
    (hl : V.length = fs.length) (h : TracesOf S fs V) : ∀ (p : List Nat) (v w : VmTrace), v ∈ V →
      v.at p = some w → w ∈ V := by
  intro p
  induction p with
  | nil => intro v w hv hw; simp only [VmTrace.at, Option.some.injEq] at hw; exact hw ▸ hv
  | cons k p ih =>
    intro v w hv hw
    obtain ⟨i, hi⟩ := List.mem_iff_getElem?.1 hv
    have hlt : i < fs.length := by
      have := (List.getElem?_eq_some_iff.1 hi).1
      omega
    have he := h i _ v (List.getElem?_eq_getElem hlt) hi
    obtain ⟨c, ops⟩ := v
    simp only [VmTrace.at] at hw
    simp only [VmTrace.mk.injEq] at he
    split at hw
    · rename_i pc cost ex sub op hk
      rw [he.2] at hk
      refine ih sub w ?_ hw
      have := handOut_sub _ _ _ sub (List.mem_of_getElem? hk) rfl
      exact List.mem_of_mem_take (List.mem_of_mem_drop this)
    · simp at hw

/-- **C80, exactly.** With the configuration made for the `vmTrace` type, outside the STOP case in which
the `vmTrace` is empty (C29): every trace in the result lists the entries of one of the shown frames, one
per instruction in order, the outermost those of the root. An entry has the instruction's position, opcode and gas cost, as `used` the gas
left *before* the instruction, as `push` the topmost items of the stack afterwards, as `mem` always the
whole memory *before* it (as far as looked at, C07) with its length as the offset, and never a `store`. -/
theorem C80_exact (types : List TraceType) (hv : TraceType.VmTrace ∈ types) (t : Tx) (hwf : t.WF)
    (hsafe : Safe (Config.fromParityConfig types) t.body) :
    ∃ s v, TI.run (Config.fromParityConfig types) TI.new t.events = .ok s ∧ vmTrace s.arena = .ok v ∧
      (¬ StopCase (Config.fromParityConfig types) t (stepsAt s.arena) →
        v.ops.map noSub = listing (Config.fromParityConfig types) (rootOf t) ∧
        ∀ (p : List Nat) (w : VmTrace), v.at p = some w →
          ∃ e ∈ located (Config.fromParityConfig types) t,
            w.ops.map noSub = listing (Config.fromParityConfig types) e.2) := by
  obtain ⟨s, v, hr, hvm, _, h⟩ := C29_exact _ t hwf hsafe
  refine ⟨s, v, hr, hvm, fun hn => ?_⟩
  obtain ⟨V, hl, hlast, hV⟩ := h hn
  obtain ⟨s', hr', _, ha, _⟩ := run_frames _ t hwf hsafe
  obtain rfl : s = s' := by rw [hr] at hr'; simpa using hr'
  have key : ∀ f ∈ leftOrder (Config.fromParityConfig types) t,
      (stepsAt s.arena f.index).map (vmInstr · none) = listing (Config.fromParityConfig types) f := by
    intro f hf
    obtain ⟨e, he, rfl⟩ := List.mem_map.1 ((leftOrder_perm _ t).mem_iff.1 hf)
    have hfr : e.2 ∈ frames t := by
      have : e.2 ∈ (located (Config.fromParityConfig types) t).map (·.2) := List.mem_map_of_mem he
      rw [(located_frames _ t hwf).1] at this
      exact (List.mem_filter.1 this).1
    rw [ha, stepsAt_frame _ t _ hfr]
    have hs := instrs_safe (Config.fromParityConfig types) e.2.body (frames_all hsafe hfr)
    have hc := parity_config hv
    refine stepsFor_entries (by rw [hc]; rfl) (by rw [hc]; rfl) _ _ _ _ hs ?_
    exact stepsFor_shared (by rw [hc]; rfl) (by rw [hc]; rfl) _ _ _ _ hs rfl
  have each : ∀ (i : Nat) (f : FrameCtx) (w : VmTrace), (leftOrder (Config.fromParityConfig types) t)[i]? = some f → V[i]? = some w →
      w.ops.map noSub = listing (Config.fromParityConfig types) f := by
    intro i f w hf hw
    rw [hV i f w hf hw, VmTrace.ops, handOut_noSub]
    exact key f (List.mem_of_getElem? hf)
  have hroot : (leftOrder (Config.fromParityConfig types) t).getLast? = some (rootOf t) := by
    simp [leftOrder]
  constructor
  · rw [List.getLast?_eq_getElem?] at hroot hlast
    rw [hl] at hlast
    exact each _ _ _ hroot hlast
  · intro p w hw
    obtain ⟨i, hi⟩ := List.mem_iff_getElem?.1 (tracesOf_at hl hV p v w (List.mem_of_getLast? hlast) hw)
    have hlt : i < (leftOrder (Config.fromParityConfig types) t).length := by
      have := (List.getElem?_eq_some_iff.1 hi).1
      omega
    have hf := List.getElem?_eq_getElem hlt
    obtain ⟨e, he, heq⟩ := List.mem_map.1 ((leftOrder_perm _ t).mem_iff.1 (List.mem_of_getElem? hf))
    exact ⟨e, he, by rw [heq]; exact each _ _ _ hf hi⟩

theorem shared_length : ∀ (l : List Instr) (p : Option (Instr × Bytes)),
    (sharedMemory l p).length = l.length := by
  intro l
  induction l with
  | nil => intro p; cases p <;> rfl
  | cons a l ih => intro p; cases p <;> simp [sharedMemory, ih]

/-- **C80** (partial: the gas left, the memory and the slot are not what OpenEthereum documents, see
`C80_right_iff` and the refutation). With the configuration made for the `vmTrace` type and outside the
STOP case of C29, every trace in the result has exactly one entry for each instruction of one of the shown
frames, in order (the outermost for those of the root): with the position and the opcode of the
instruction, the gas it consumed, and the items it put on the stack (except for TLOAD, BLOBHASH and
BLOBBASEFEE, C55). -/
theorem C80_entries_partial (types : List TraceType) (hv : TraceType.VmTrace ∈ types) (t : Tx) (hwf : t.WF)
    (hsafe : Safe (Config.fromParityConfig types) t.body) :
    ∃ s v, TI.run (Config.fromParityConfig types) TI.new t.events = .ok s ∧ vmTrace s.arena = .ok v ∧
      (¬ StopCase (Config.fromParityConfig types) t (stepsAt s.arena) →
        ∀ (p : List Nat) (w : VmTrace), v.at p = some w →
          ∃ e ∈ located (Config.fromParityConfig types) t, (p = [] → e.2 = rootOf t) ∧
            w.ops.length = (instrs (Config.fromParityConfig types) e.2.body).length ∧
            ∀ (k : Nat) (a : Instr) (pc cost : Nat) (ex : VmExec) (sub : Option VmTrace) (op : OpCode),
              (instrs (Config.fromParityConfig types) e.2.body)[k]? = some a →
              w.ops[k]? = some (.mk pc cost ex sub op) →
              pc = a.before.pc ∧ op = a.before.op ∧
              ∀ i' c', a.after = some (i', c') → cost = a.before.gas.remaining - i'.gas.remaining ∧
                (op ≠ 0x5c → op ≠ 0x49 → op ≠ 0x4a →
                  ex.push = topItems (evmPushes op.toNat) i'.stack)) := by
  obtain ⟨s, v, hr, hvm, h⟩ := C80_exact types hv t hwf hsafe
  refine ⟨s, v, hr, hvm, fun hn p w hw => ?_⟩
  obtain ⟨h1, h2⟩ := h hn
  have main : ∀ f : FrameCtx, w.ops.map noSub = listing (Config.fromParityConfig types) f →
      w.ops.length = (instrs (Config.fromParityConfig types) f.body).length ∧
            ∀ (k : Nat) (a : Instr) (pc cost : Nat) (ex : VmExec) (sub : Option VmTrace) (op : OpCode),
              (instrs (Config.fromParityConfig types) f.body)[k]? = some a →
              w.ops[k]? = some (.mk pc cost ex sub op) →
              pc = a.before.pc ∧ op = a.before.op ∧
              ∀ i' c', a.after = some (i', c') → cost = a.before.gas.remaining - i'.gas.remaining ∧
                (op ≠ 0x5c → op ≠ 0x49 → op ≠ 0x4a →
                  ex.push = topItems (evmPushes op.toNat) i'.stack) := by
    intro f hf
    refine ⟨?_, ?_⟩
    · have := congrArg List.length hf
      rw [List.length_map, listing, List.length_zipWith, shared_length, Nat.min_self] at this
      exact this
    · intro k a pc cost ex sub op ha hk
      have hg := congrArg (·[k]?) hf
      simp only [List.getElem?_map, hk, Option.map_some, listing, List.getElem?_zipWith, ha] at hg
      cases hm : (sharedMemory (instrs (Config.fromParityConfig types) f.body) none)[k]? with
      | none => rw [hm] at hg; simp at hg
      | some m =>
        rw [hm] at hg
        simp only [noSub, vmEntry, Option.some.injEq] at hg
        cases haf : a.after with
        | none =>
          rw [haf] at hg
          simp only [VmInstruction.mk.injEq] at hg
          exact ⟨hg.1, hg.2.2.2.2, fun _ _ h => nomatch h⟩
        | some r =>
          obtain ⟨i', c'⟩ := r
          rw [haf] at hg
          simp only [VmInstruction.mk.injEq] at hg
          obtain ⟨g1, g2, g3, _, g4⟩ := hg
          refine ⟨g1, g4, ?_⟩
          intro _ _ he
          simp only [Option.some.injEq, Prod.mk.injEq] at he
          obtain ⟨rfl, rfl⟩ := he
          refine ⟨g2, fun n1 n2 n3 => ?_⟩
          rw [g3, ← C55_push_counts_partial op n1 n2 n3, g4]
  cases p with
  | nil =>
    simp only [VmTrace.at, Option.some.injEq] at hw
    subst hw
    exact ⟨([], rootOf t), by simp [located], fun _ => rfl, main _ h1⟩
  | cons i p =>
    obtain ⟨e, he, hw'⟩ := h2 _ w hw
    exact ⟨e, he, fun h => (by simp at h), main _ hw'⟩

/-- **C80, when an entry is right.** The entry `C80_exact` gives for an instruction says what
OpenEthereum documents exactly if the instruction consumed no gas, was no SSTORE with its two operands,
and the memory shown for it occurs in the memory afterwards a second time, right behind itself (so if it
was not empty the memory grew to at least twice its length). -/
theorem C80_right_iff (a : Instr) (m : Bytes) (i' : Interp) (c' : Ctx) (ha : a.after = some (i', c'))
    (h1 : a.before.op ≠ 0x5c) (h2 : a.before.op ≠ 0x49) (h3 : a.before.op ≠ 0x4a) :
    ∃ pc cost ex op, vmEntry a m = .mk pc cost ex none op ∧
      (Describes ex a i' ↔ a.before.gas.remaining = i'.gas.remaining ∧ stored a = none ∧
        MemoryHas i'.memory m.length m) := by
  refine ⟨_, _, _, _, by rw [vmEntry, ha], ?_⟩
  constructor
  · intro h
    exact ⟨h.used, h.store.symm, h.mem _ _ rfl⟩
  · rintro ⟨e1, e2, e3⟩
    refine ⟨e1, ?_, ?_, e2.symm⟩
    · rw [← C55_push_counts_partial _ h1 h2 h3]
    · intro off data he
      simp only [Option.some.injEq, Prod.mk.injEq] at he
      obtain ⟨rfl, rfl⟩ := he
      exact e3

namespace VmExample
open Example
/-- An interpreter state with the given stack and memory. -/
def at_ (op : OpCode) (pc remaining : Nat) (stack : List U256) (memory : Bytes) : Interp :=
  { interp op pc remaining .Continue with stack := stack, memory := memory }

/-- MSTORE8 of 0xff at offset 1 into a memory of three bytes, then SSTORE of 9 to slot 5. -/
def txWrites : Tx where
  hdr := callHdr .Call 0x99 0xa 0xa 0
  body :=
    .act (.step (at_ 0x53 0 900 [9, 5, 0xff, 1] [1, 2, 3]) ctx (at_ 0x53 1 897 [9, 5] [1, 0xff, 3]) ctx)
      (.act (.step (at_ 0x55 1 897 [9, 5] [1, 0xff, 3]) ctx (at_ 0x55 2 400 [] [1, 0xff, 3]) ctx)
        (.act (.step (at_ 0x58 2 400 [] [1, 0xff, 3]) ctx (at_ 0x58 3 398 [2] [1, 0xff, 3]) ctx) .nil))
  out := out .Return

theorem wfWrites : txWrites.WF := ⟨fun _ => rfl, fun h => absurd h (by decide), trivial⟩

theorem safeWrites (cfg : Config) : Safe cfg txWrites.body :=
  ⟨stepSafe _ _ _ _ (by decide), stepSafe _ _ _ _ (by decide), stepSafe _ _ _ _ (by decide), trivial⟩
end VmExample

/-- The fields of an entry. -/
def entryFields : VmInstruction → Nat × Nat × VmExec × OpCode
  | .mk pc cost ex _ op => (pc, cost, ex, op)

/-- **C80, refuted.** MSTORE8 of 0xff at offset 1 into a memory of three bytes, SSTORE of 9 to slot 5, PC:
the entries show the gas left before each instruction instead of 897, 400 and 398; the one of MSTORE8
shows the three bytes from before the write, at offset 3; that of SSTORE shows no slot; and all three show
a piece of memory, although only one wrote to it. No entry describes its instruction. -/
theorem C80_refuted : VmExample.txWrites.WF ∧ (∀ cfg, Safe cfg VmExample.txWrites.body) ∧
    ∃ s v, TI.run (Config.fromParityConfig [.VmTrace]) TI.new VmExample.txWrites.events = .ok s ∧
      vmTrace s.arena = .ok v ∧
      v.ops.map entryFields =
        [(0, 3, ⟨900, [], some (3, [1, 2, 3]), none⟩, 0x53),
         (1, 497, ⟨897, [], some (3, [1, 0xff, 3]), none⟩, 0x55),
         (2, 2, ⟨400, [2], some (3, [1, 0xff, 3]), none⟩, 0x58)] ∧
      (instrs (Config.fromParityConfig [.VmTrace]) VmExample.txWrites.body).map stored =
        [none, some (5, 9), none] ∧
      ∀ (k : Nat) (a : Instr) (x : VmInstruction) (i' : Interp) (c' : Ctx),
        (instrs (Config.fromParityConfig [.VmTrace]) VmExample.txWrites.body)[k]? = some a →
        v.ops[k]? = some x → a.after = some (i', c') → ¬ Describes (entryFields x).2.2.1 a i' := by
  refine ⟨VmExample.wfWrites, VmExample.safeWrites, _, _, rfl, rfl, by decide, by decide, ?_⟩
  intro k a x i' c' ha hx haf h
  have hk : k < 3 := (List.getElem?_eq_some_iff.1 ha).1
  have h0 := h.used
  clear h
  rcases k with _ | _ | _ | k
  · cases ha; cases hx; cases haf; exact absurd h0 (by decide)
  · cases ha; cases hx; cases haf; exact absurd h0 (by decide)
  · cases ha; cases hx; cases haf; exact absurd h0 (by decide)
  · omega

/-- The hypotheses of the theorems are met by this transaction, which is not in the STOP case, and by one
with calls. -/
example : ∃ s, TI.run (Config.fromParityConfig [.VmTrace]) TI.new VmExample.txWrites.events = .ok s ∧
    ¬ StopCase (Config.fromParityConfig [.VmTrace]) VmExample.txWrites (stepsAt s.arena) := by
  obtain ⟨s, hr, _, ha, _⟩ := run_frames (Config.fromParityConfig [.VmTrace]) VmExample.txWrites
    VmExample.wfWrites (VmExample.safeWrites _)
  refine ⟨s, hr, ?_⟩
  rw [ha]
  rintro ⟨_, e, he, st, h1, h2⟩
  have : ∀ e ∈ located (Config.fromParityConfig [.VmTrace]) VmExample.txWrites,
      ((stepsAt ((frames VmExample.txWrites).map (nodeOf (Config.fromParityConfig [.VmTrace])))
        e.2.index).head?.map (·.op)) ≠ some 0 := by decide +kernel
  exact this e he (by rw [h1, Option.map_some, h2])

/-- With two called contracts, of which the second calls a third. -/
example : ∃ s v, TI.run (Config.fromParityConfig [.VmTrace]) TI.new
      (VmExample.tx2 VmExample.flat VmExample.nested).events = .ok s ∧ vmTrace s.arena = .ok v ∧
    ((v.at [1, 0]).map (fun w => w.ops.map entryFields)) =
      some [(0, 3, ⟨100, [19], some (3, [1, 2, 3]), none⟩, Op.ADD)] := ⟨_, _, rfl, rfl, by decide⟩

end Verif.Props
