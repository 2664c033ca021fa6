import Verif.Props.Steps
/-!
# C07, C08: what the recorder shows, without conditions

`C07_memory_partial` and `C08_storage_change_partial` say when the recorded steps are right. Here is what
they show in every case, and that the conditions are exact.
-/
namespace Verif.Props
open Spec Rec

/-! ## C07 -/

/-- The memory a step shows when it is only looked at anew after the instructions that are known to
write to memory: the memory before the last instruction that follows one of those. `shown` is what the
step before shows. -/
def sharedMemory : List Instr → Option (Instr × Bytes) → List Bytes
  | [], _ => []
  | a :: rest, none => a.before.memory :: sharedMemory rest (some (a, a.before.memory))
  | a :: rest, some (prev, shown) =>
    let m := if prev.before.op ∈ touchesMemory ∧ prev.before.op ∉ missedMemory then a.before.memory
      else shown
    m :: sharedMemory rest (some (a, m))

set_option maxRecDepth 20000 in
theorem mayModify_iff : ∀ op : OpCode,
    Op.mayModifyMemory op = true ↔ op ∈ touchesMemory ∧ op ∉ missedMemory := by
  have h : ∀ n : Fin 256, Op.mayModifyMemory (UInt8.ofNat n.val) = true ↔
      UInt8.ofNat n.val ∈ touchesMemory ∧ UInt8.ofNat n.val ∉ missedMemory := by decide
  intro op
  have := h ⟨op.toNat, op.toNat_lt⟩
  simpa using this

theorem stepsFor_shared {cfg : Config} (hcfg : cfg.recordMemorySnapshots = true)
    (hfi : cfg.recordOpcodesFilter = none) (d : Nat) :
    ∀ (l : List Instr) (prev : Option CallTraceStep) (p : Option (Instr × Bytes)),
      (∀ a ∈ l, records cfg a.before.op = true ∧
        ∀ i' c', a.after = some (i', c') → StepSafe cfg a.before a.ctx i' c') →
      prev.map (fun s => (s.op, s.memory)) = p.map (fun q => (q.1.before.op, some q.2)) →
      (stepsFor cfg d l prev).map (·.memory) = (sharedMemory l p).map some := by
  intro l
  induction l with
  | nil => intro prev p _ _; cases p <;> rfl
  | cons a l ih =>
    intro prev p hl hp
    obtain ⟨h1, h2⟩ := hl a (by simp)
    obtain ⟨e1, e2, _⟩ := stepFor_fields (d := d) prev h1 h2
    have hl' : ∀ a ∈ l, records cfg a.before.op = true ∧
        ∀ i' c', a.after = some (i', c') → StepSafe cfg a.before a.ctx i' c' :=
      fun b hb => hl b (by simp [hb])
    cases p with
    | none =>
      cases prev with
      | some s => simp at hp
      | none =>
        simp only [stepsFor, sharedMemory, List.map_cons]
        have hm : (stepFor cfg d a none).memory = some a.before.memory := by
          rw [e1]; simp [TI.stepMemory, hcfg]
        rw [hm, ih _ (some (a, a.before.memory)) hl' (by simp [hm, e2])]
    | some q =>
      obtain ⟨b, shown⟩ := q
      cases prev with
      | none => simp at hp
      | some s =>
        simp only [Option.map_some, Option.some.injEq, Prod.mk.injEq] at hp
        simp only [stepsFor, sharedMemory, List.map_cons]
        have hm : (stepFor cfg d a (some s)).memory =
            some (if b.before.op ∈ touchesMemory ∧ b.before.op ∉ missedMemory then a.before.memory
              else shown) := by
          rw [e1]
          simp only [TI.stepMemory, hcfg, hfi, if_true, Option.isNone_none, hp.1, hp.2]
          congr 1
          by_cases hc : b.before.op ∈ touchesMemory ∧ b.before.op ∉ missedMemory
          · rw [if_pos hc, (mayModify_iff _).2 hc]; rfl
          · have : Op.mayModifyMemory b.before.op = false := by
              simpa using fun h => hc ((mayModify_iff _).1 h)
            rw [if_neg hc, this]; rfl
        rw [hm, ih (some (stepFor cfg d a (some s))) (some (a,
          if b.before.op ∈ touchesMemory ∧ b.before.op ∉ missedMemory then a.before.memory else shown))
          hl' (by rw [Option.map_some, Option.map_some, hm, e2])]

/-- If memory only changes by instructions that can change it, sharing shows the right memories exactly
if no instruction of the missed kind changed it. -/
theorem shared_right_iff (l : List Instr) (hlaw : MemoryLaw l) :
    sharedMemory l none = l.map (·.before.memory) ↔ NoHiddenExpansion l := by
  have key : ∀ (l : List Instr) (p : Instr), MemoryLaw (p :: l) →
      (sharedMemory l (some (p, p.before.memory)) = l.map (·.before.memory) ↔
        NoHiddenExpansion (p :: l)) := by
    intro l
    induction l with
    | nil =>
      intro p _
      simp only [sharedMemory, List.map_nil, true_iff]
      intro k a b _ hb
      simp at hb
    | cons a l ih =>
      intro p hlaw
      have hlaw' : MemoryLaw (a :: l) := fun k x y hx hy => hlaw (k + 1) x y hx hy
      have h0 := hlaw 0 p a rfl rfl
      simp only [sharedMemory, List.map_cons, List.cons.injEq]
      have split : NoHiddenExpansion (p :: a :: l) ↔
          (p.before.op ∈ missedMemory → a.before.memory = p.before.memory) ∧
          NoHiddenExpansion (a :: l) := by
        constructor
        · intro h
          exact ⟨h 0 p a rfl rfl, fun k x y hx hy => h (k + 1) x y hx hy⟩
        · rintro ⟨h1, h2⟩ k x y hx hy
          cases k with
          | zero =>
            simp only [List.getElem?_cons_zero, Option.some.injEq, Nat.zero_add,
              List.getElem?_cons_succ] at hx hy
            subst hx; subst hy
            exact h1
          | succ k => exact h2 k x y hx hy
      rw [split]
      by_cases hc : p.before.op ∈ touchesMemory ∧ p.before.op ∉ missedMemory
      · rw [if_pos hc, ih a hlaw']
        simp [hc.2]
      · rw [if_neg hc]
        constructor
        · rintro ⟨h1, h2⟩
          refine ⟨fun _ => h1.symm, ?_⟩
          rw [h1] at h2
          exact (ih a hlaw').1 h2
        · rintro ⟨h1, h2⟩
          have : p.before.memory = a.before.memory := by
            by_cases hmiss : p.before.op ∈ missedMemory
            · exact (h1 hmiss).symm
            · exact (h0 (fun ht => hc ⟨ht, hmiss⟩)).symm
          refine ⟨this, ?_⟩
          rw [this]
          exact (ih a hlaw').2 h2
  cases l with
  | nil =>
    simp only [sharedMemory, List.map_nil, true_iff]
    intro k a b ha
    simp at ha
  | cons a l =>
    simp only [sharedMemory, List.map_cons, List.cons.injEq, true_and]
    exact key l a hlaw

/-- **C07, exact.** Without an opcode filter every step shows the memory before the last instruction
that follows one known to write to memory; and, for executions in which memory only changes by
instructions that can change it, the steps of a frame show the right memories if and only if no
KECCAK256, LOGn, CREATE, CREATE2, DATACOPY, EOFCREATE, EXTCALL, EXTDELEGATECALL or EXTSTATICCALL of the
frame changed the memory. -/
theorem C07_exact (cfg : Config) (hcfg : cfg.recordMemorySnapshots = true)
    (hfi : cfg.recordOpcodesFilter = none) (t : Tx) (hwf : t.WF) (hsafe : Safe cfg t.body) :
    ∃ s, TI.run cfg TI.new t.events = .ok s ∧ s.arena.length = (frames t).length ∧
      ∀ (j : Nat) (f : FrameCtx) (x : Node), (frames t)[j]? = some f → s.arena[j]? = some x →
        x.trace.steps.map (·.memory) = (sharedMemory (instrs cfg f.body) none).map some ∧
        (MemoryLaw (instrs cfg f.body) →
          (x.trace.steps.map (·.memory) = (instrs cfg f.body).map (fun a => some a.before.memory) ↔
            NoHiddenExpansion (instrs cfg f.body))) := by
  obtain ⟨s, hr, hl, h⟩ := steps_of_run cfg t hwf hsafe
  refine ⟨s, hr, hl, ?_⟩
  intro j f x hf hx
  have hm := List.mem_of_getElem? hf
  have e := stepsFor_shared hcfg hfi (f.depth + 1) (instrs cfg f.body) none none
    (instrs_safe cfg f.body (frames_all hsafe hm)) rfl
  rw [h j f x hf hx]
  refine ⟨e, fun hlaw => ?_⟩
  rw [e, ← shared_right_iff _ hlaw]
  rw [show (instrs cfg f.body).map (fun a => some a.before.memory) =
    ((instrs cfg f.body).map (·.before.memory)).map some by rw [List.map_map]; rfl]
  exact List.map_inj_right (fun _ _ => Option.some.inj)

/-- The frame of `memoryTx KECCAK256` obeys the law and has a hidden expansion. -/
example : MemoryLaw (instrs Config.all (memoryTx Op.KECCAK256).body) ∧
    ¬ NoHiddenExpansion (instrs Config.all (memoryTx Op.KECCAK256).body) ∧
    sharedMemory (instrs Config.all (memoryTx Op.MSTORE).body) none = [[], [1, 2, 3]] := by
  refine ⟨?_, ?_, by decide⟩
  · intro k a b ha hb hop
    cases k with
    | zero =>
      simp [instrs, records, Config.all, memoryTx] at ha hb
      subst ha
      exact absurd (by decide : Op.KECCAK256 ∈ touchesMemory) hop
    | succ k => simp [instrs, records, Config.all, Example.stepAct, memoryTx] at hb
  · intro h
    exact absurd (h 0 _ _ rfl rfl (by decide)) (by decide)

/-! ## C08 -/

/-- The last entry of the journal's last list. -/
def lastEntry (c : Ctx) : Option JournalEntry :=
  c.journal.getLast?.bind (·.getLast?)

/-- **C08, exact.** With state-diff recording every finished SLOAD and SSTORE shows the last entry of
the journal if that is a storage change, with the value the slot has now and the one the entry saved,
whoever made the change; all else shows nothing. -/
theorem C08_exact (cfg : Config) (hcfg : cfg.recordStateDiff = true) (t : Tx) (hwf : t.WF)
    (hsafe : Safe cfg t.body) :
    ∃ s, TI.run cfg TI.new t.events = .ok s ∧ s.arena.length = (frames t).length ∧
      ∀ (j : Nat) (f : FrameCtx) (x : Node), (frames t)[j]? = some f → s.arena[j]? = some x →
        x.trace.steps.length = (instrs cfg f.body).length ∧
        ∀ (k : Nat) (a : Instr) (st : CallTraceStep) (i' : Interp) (c' : Ctx),
          (instrs cfg f.body)[k]? = some a → x.trace.steps[k]? = some st → a.after = some (i', c') →
          ∀ ch : StorageChange, st.storageChange = some ch ↔
            ∃ x old, lastEntry c' = some (.storageChanged x ch.key old) ∧
              c'.storage x ch.key = some ch.value ∧ ch.hadValue = some old ∧
              ((a.before.op = 0x54 ∧ ch.reason = .SLOAD) ∨
                (a.before.op = 0x55 ∧ ch.reason = .SSTORE)) := by
  obtain ⟨s, hr, hl, h⟩ := steps_of_run cfg t hwf hsafe
  refine ⟨s, hr, hl, ?_⟩
  intro j f x hf hx
  have hst := h j f x hf hx
  have hm := List.mem_of_getElem? hf
  refine ⟨by rw [hst, stepsFor_length], ?_⟩
  intro k a st i' c' ha hk haf ch
  rw [hst, stepsFor_get, ha] at hk
  simp only [Option.map_some, Option.some.injEq] at hk
  obtain ⟨h1, h2⟩ := instrs_safe cfg f.body (frames_all hsafe hm) a (List.mem_of_getElem? ha)
  obtain ⟨_, _, _, h3, _⟩ := stepFor_fields (d := f.depth + 1)
    (if k = 0 then none else (stepsFor cfg (f.depth + 1) (instrs cfg f.body) none)[k - 1]?) h1 h2
  rw [hk] at h3
  have h4 := h3 i' c' haf hcfg
  generalize st.storageChange = sc at h4 ⊢
  unfold TI.stepStorageChange at h4
  have hj : (c'.at (f.depth + 1)).journal = c'.journal := rfl
  have hs : (c'.at (f.depth + 1)).storage = c'.storage := rfl
  rw [hj, hs] at h4
  unfold lastEntry
  cases hl : c'.journal.getLast? with
  | none => simp [hl] at h4
  | some entries =>
    simp only [hl] at h4
    simp only [Option.bind_some]
    by_cases hop : a.before.op = Op.SLOAD ∨ a.before.op = Op.SSTORE
    · rw [if_pos hop] at h4
      split at h4
      · rename_i ad key had he
        split at h4
        · cases h4
        · rename_i value hv
          simp only [Except.ok.injEq] at h4
          rw [← h4, he]
          obtain ⟨k, v, hd, re⟩ := ch
          simp only [Option.some.injEq, StorageChange.mk.injEq, JournalEntry.storageChanged.injEq]
          constructor
          · rintro ⟨rfl, rfl, rfl, rfl⟩
            refine ⟨ad, had, ⟨rfl, rfl, rfl⟩, hv, rfl, ?_⟩
            rcases hop with hop | hop
            · left
              refine ⟨hop, ?_⟩
              rw [hop]; decide
            · right
              refine ⟨hop, ?_⟩
              rw [hop]; decide
          · rintro ⟨ad', had', ⟨rfl, rfl, rfl⟩, hv', rfl, hre⟩
            rw [hv] at hv'
            cases hv'
            refine ⟨rfl, rfl, rfl, ?_⟩
            rcases hre with ⟨h, rfl⟩ | ⟨h, rfl⟩
            · rw [h]; decide
            · rw [h]; decide
      · rename_i hne
        simp only [Except.ok.injEq] at h4
        rw [← h4]
        constructor
        · intro h; cases h
        · rintro ⟨ad, old, he, _⟩
          exact absurd he (hne _ _ _)
    · rw [if_neg hop] at h4
      simp only [Except.ok.injEq] at h4
      rw [← h4]
      constructor
      · intro h; cases h
      · rintro ⟨_, _, _, _, _, ⟨h, _⟩ | ⟨h, _⟩⟩
        · exact absurd (Or.inl h) hop
        · exact absurd (Or.inr h) hop

/-- The transaction of the refutation meets the hypotheses; both its steps end with the same entry. -/
example : (storageTx 1).WF ∧ Safe storageCfg (storageTx 1).body ∧
    (instrs storageCfg (storageTx 1).body).map (fun a => (a.before.op, a.after.bind (fun p => lastEntry p.2))) =
      [(Op.SSTORE, some (.storageChanged 0xa 5 7)), (Op.SLOAD, some (.storageChanged 0xa 5 7))] :=
  ⟨(storageTx_ok 1).1, (storageTx_ok 1).2, by decide⟩

end Verif.Props
