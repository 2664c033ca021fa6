import Verif.Spec.Options
/-! The recorder with fewer options follows the recorder with more. -/
namespace Verif
open Spec

/-- The state of the recorder with the options of `cfg`. -/
def TI.keepOnly (cfg : Config) (s : TI) : TI :=
  { s with arena := s.arena.map (Spec.keepOnly cfg)
           stepStack := if cfg.recordSteps then s.stepStack else [] }

section
variable {cfg : Config}

theorem set_self {α : Type} {l : List α} {i : Nat} {a : α} (h : l[i]? = some a) : l.set i a = l := by
  obtain ⟨hi, rfl⟩ := List.getElem?_eq_some_iff.1 h
  exact List.set_getElem_self hi

theorem keepOnly_attach (x : Node) (id : Nat) :
    keepOnly cfg (x.attach id) = (keepOnly cfg x).attach id := by
  simp [keepOnly, Node.attach, keepItem]

theorem pushTraceLoop_keepOnly (kind : PushTraceKind) (t : CallTrace) (ht : t.steps = [])
    (fuel : Nat) (arena : List Node) (entry : Nat) (arena' : List Node) (id : Nat)
    (h : pushTraceLoop kind t fuel arena entry = .ok (arena', id)) :
    pushTraceLoop kind t fuel (arena.map (keepOnly cfg)) entry = .ok (arena'.map (keepOnly cfg), id) := by
  induction fuel generalizing entry with
  | zero => simp [pushTraceLoop] at h
  | succ fuel ih =>
    rw [pushTraceLoop.eq_def] at h ⊢
    dsimp only at h ⊢
    by_cases hd : t.depth = 0
    · rw [if_pos hd] at h ⊢
      cases arena with
      | nil => simp at h
      | cons n rest =>
        simp only [Except.ok.injEq, Prod.mk.injEq] at h
        obtain ⟨rfl, rfl⟩ := h
        simp [keepOnly, ht, -CallTrace.mk.injEq]
        cases t; simp_all
    · rw [if_neg hd] at h ⊢
      rw [List.getElem?_map]
      cases he : arena[entry]? with
      | none => simp [he] at h
      | some e =>
        simp only [he] at h
        simp only [Option.map_some]
        have hdep : (keepOnly cfg e).trace.depth = e.trace.depth := rfl
        have hch : (keepOnly cfg e).children = e.children := rfl
        rw [hdep, hch]
        by_cases hdd : e.trace.depth = t.depth - 1
        · rw [if_pos hdd] at h ⊢
          have hnode : keepOnly cfg { parent := some entry, trace := t, idx := arena.length } =
              { parent := some entry, trace := t, idx := arena.length } := by
            simp [keepOnly, ht]
            cases t; simp_all
          cases kind with
          | pushOnly =>
            simp only [Except.ok.injEq, Prod.mk.injEq] at h ⊢
            obtain ⟨rfl, rfl⟩ := h
            simp [hnode]
          | pushAndAttachToParent =>
            simp only [Except.ok.injEq, Prod.mk.injEq] at h ⊢
            obtain ⟨rfl, rfl⟩ := h
            simp [hnode, List.map_set, keepOnly_attach]
        · rw [if_neg hdd] at h ⊢
          cases hc : e.children.getLast? with
          | none => simp [hc] at h
          | some c =>
            simp only [hc] at h
            exact ih c h

theorem startTraceOnCall_keepOnly (s s1 : TI) (c : Ctx) (address : Address) (inputData : Bytes)
    (value : U256) (kind : CallKind) (caller : Address) (gasLimit : Nat) (mp : Option Bool)
    (h : s.startTraceOnCall c address inputData value kind caller gasLimit mp = .ok s1) :
    (s.keepOnly cfg).startTraceOnCall c address inputData value kind caller gasLimit mp =
      .ok (s1.keepOnly cfg) := by
  unfold TI.startTraceOnCall at h ⊢
  have hts : (s.keepOnly cfg).traceStack = s.traceStack := rfl
  have hsp : (s.keepOnly cfg).specId = s.specId := rfl
  have har : (s.keepOnly cfg).arena = s.arena.map (keepOnly cfg) := rfl
  simp only [hts, hsp, har]
  unfold pushTrace at h ⊢
  generalize (if mp.getD false then PushTraceKind.pushOnly else PushTraceKind.pushAndAttachToParent) = pk
    at h ⊢
  rw [List.length_map]
  dsimp only at h ⊢
  generalize hp : pushTraceLoop pk _ (s.arena.length + 1) s.arena 0 = res at h
  cases res with
  | error e => simp at h
  | ok p =>
    obtain ⟨arena', id⟩ := p
    simp only [Except.ok.injEq] at h
    rw [pushTraceLoop_keepOnly _ _ rfl _ _ _ _ _ hp]
    subst h
    rfl

theorem fillTraceOnCallEnd_keepOnly (s s1 : TI) (c : Ctx) (r : InterpreterResult)
    (created : Option Address) (h : s.fillTraceOnCallEnd c r created = .ok s1) :
    (s.keepOnly cfg).fillTraceOnCallEnd c r created = .ok (s1.keepOnly cfg) := by
  unfold TI.fillTraceOnCallEnd at h ⊢
  have hts : (s.keepOnly cfg).traceStack = s.traceStack := rfl
  have har : (s.keepOnly cfg).arena = s.arena.map (keepOnly cfg) := rfl
  simp only [hts, har]
  cases htr : s.traceStack with
  | nil => simp [htr] at h
  | cons idx rest =>
    simp only [htr] at h
    dsimp only
    rw [List.getElem?_map]
    cases hn : s.arena[idx]? with
    | none => simp [hn] at h
    | some n =>
      simp only [hn, Except.ok.injEq] at h
      subst h
      simp only [Option.map_some, TI.keepOnly, List.map_set]
      congr 4
      cases created <;> rfl

theorem withLastTrace_keepOnly (s s1 : TI) (f : Nat → Node → Node)
    (hf : ∀ i x, keepOnly cfg (f i x) = f i (keepOnly cfg x))
    (h : s.withLastTrace f = .ok s1) : (s.keepOnly cfg).withLastTrace f = .ok (s1.keepOnly cfg) := by
  unfold TI.withLastTrace at h ⊢
  have hts : (s.keepOnly cfg).traceStack = s.traceStack := rfl
  have har : (s.keepOnly cfg).arena = s.arena.map (keepOnly cfg) := rfl
  simp only [hts, har]
  cases htr : s.traceStack with
  | nil => simp [htr] at h
  | cons idx rest =>
    simp only [htr] at h
    dsimp only
    rw [List.getElem?_map]
    cases hn : s.arena[idx]? with
    | none => simp [hn] at h
    | some n =>
      simp only [hn, Except.ok.injEq] at h
      subst h
      simp [TI.keepOnly, List.map_set, hf]

theorem withLastTrace_drop (s s1 : TI) (f : Nat → Node → Node)
    (hf : ∀ i x, keepOnly cfg (f i x) = keepOnly cfg x)
    (h : s.withLastTrace f = .ok s1) : s1.keepOnly cfg = s.keepOnly cfg := by
  unfold TI.withLastTrace at h
  cases htr : s.traceStack with
  | nil => simp [htr] at h
  | cons idx rest =>
    simp only [htr] at h
    cases hn : s.arena[idx]? with
    | none => simp [hn] at h
    | some n =>
      simp only [hn, Except.ok.injEq] at h
      subst h
      have : (s.arena.map (keepOnly cfg)).set idx (keepOnly cfg n) = s.arena.map (keepOnly cfg) :=
        set_self (by simp [hn])
      simp [TI.keepOnly, List.map_set, hf, this, htr]
end

/-! ### The hooks that record steps and logs -/

section
variable {less more : Config}

theorem keep_stack (hl : RecordsLess less more) (st : Option (List U256)) :
    (if less.recordStackSnapshots = .Full then if more.recordStackSnapshots.isFull then st else none else none) =
      if less.recordStackSnapshots.isFull then st else none := by
  rcases hl.stack with h | h
  · simp [h, StackSnapshotType.isFull]
  · rw [h]
    cases more.recordStackSnapshots <;> simp [StackSnapshotType.isFull]

theorem newStep_keep (hl : RecordsLess less more) (hs : less.recordSteps = true) (i : Interp) (c : Ctx) (prev : Option CallTraceStep) :
    TI.newStep less i c (prev.map (keepFields less)) = keepFields less (TI.newStep more i c prev) := by
  have hmem : TI.stepMemory less i (prev.map (keepFields less)) =
      if less.recordMemorySnapshots then TI.stepMemory more i prev else none := by
    unfold TI.stepMemory
    cases hm : less.recordMemorySnapshots with
    | false => rfl
    | true =>
      rw [hl.memory hm, hl.filter hs]
      cases prev with
      | none => simp
      | some p => simp [keepFields, hm]
  have hret : (if less.recordReturndataSnapshots then i.returnData else []) =
      if less.recordReturndataSnapshots then
        if more.recordReturndataSnapshots then i.returnData else [] else [] := by
    cases hm : less.recordReturndataSnapshots with
    | false => rfl
    | true => rw [hl.returndata hm]; rfl
  simp only [TI.newStep, keepFields, hmem, CallTraceStep.mk.injEq, true_and, and_true]
  refine ⟨(keep_stack hl _).symm, ?_, hret, ?_⟩
  · split <;> rfl
  · split <;> rfl

theorem fillStep_keep (hl : RecordsLess less more) (i : Interp) (c : Ctx) (st st1 : CallTraceStep)
    (h : TI.fillStep more i c st = .ok st1) :
    TI.fillStep less i c (keepFields less st) = .ok (keepFields less st1) := by
  have hpush : less.recordStackSnapshots.isPushes = true → more.recordStackSnapshots.isPushes = true ∧
      less.recordStackSnapshots = .Pushes := by
    intro hp
    rcases hl.stack with h' | h'
    · simp [h', StackSnapshotType.isPushes] at hp
    · rw [h'] at hp ⊢
      refine ⟨hp, ?_⟩
      cases hm : more.recordStackSnapshots <;> simp [hm, StackSnapshotType.isPushes] at hp ⊢
  have hnp : less.recordStackSnapshots.isPushes = false → less.recordStackSnapshots ≠ .Pushes := by
    intro hp he; simp [he, StackSnapshotType.isPushes] at hp
  unfold TI.fillStep at h ⊢
  dsimp only at h ⊢
  have hop : (keepFields less st).op = st.op := rfl
  rw [hop]
  -- the pushed items
  generalize hp : (if more.recordStackSnapshots.isPushes = true then _ else _ : R (Option (List U256))) = p at h
  cases p with
  | error e => simp at h
  | ok ps =>
    dsimp only at h
    generalize hc : (if more.recordStateDiff = true then _ else _ : R (Option StorageChange)) = q at h
    cases q with
    | error e => simp at h
    | ok ch =>
      simp only [Except.ok.injEq] at h
      have h1 : (if less.recordStackSnapshots.isPushes = true then
            if i.stack.length < Op.stackPushCount st.op then (.error .arith : R (Option (List U256)))
            else .ok (some (i.stack.drop (i.stack.length - Op.stackPushCount st.op)))
          else .ok (keepFields less st).pushStack) =
          .ok (if less.recordStackSnapshots = .Pushes then ps else none) := by
        cases hb : less.recordStackSnapshots.isPushes with
        | true =>
          obtain ⟨ha, hb'⟩ := hpush hb
          rw [ha] at hp
          simp only [if_true] at hp
          simp [hb', hp]
        | false => simp [keepFields, hnp hb]
      have h2 : (if less.recordStateDiff = true then TI.stepStorageChange st.op c
          else .ok (keepFields less st).storageChange) =
          .ok (if less.recordStateDiff = true then ch else none) := by
        cases hb : less.recordStateDiff with
        | true =>
          rw [hl.stateDiff hb] at hc
          simp only [if_true] at hc
          simp [hc]
        | false => simp [keepFields, hb]
      rw [h1]
      dsimp only
      rw [h2]
      subst h
      rfl

theorem startStepNode_keep (hl : RecordsLess less more) (hs : less.recordSteps = true) (i : Interp)
    (c : Ctx) (n : Node) :
    keepOnly less (TI.startStepNode more i c n) = TI.startStepNode less i c (keepOnly less n) := by
  have h1 : (keepOnly less n).trace.steps = n.trace.steps.map (keepFields less) := by
    simp [keepOnly, hs]
  unfold TI.startStepNode TI.pushStep
  rw [h1, List.getLast?_map, newStep_keep hl hs, List.length_map]
  simp [keepOnly, hs, keepItem]

theorem startStep_keep (hl : RecordsLess less more) (hs : less.recordSteps = true) (s s1 : TI)
    (i : Interp) (c : Ctx) (h : TI.startStep more s i c = .ok s1) :
    TI.startStep less (s.keepOnly less) i c = .ok (s1.keepOnly less) := by
  unfold TI.startStep at h ⊢
  have hts : (s.keepOnly less).traceStack = s.traceStack := rfl
  have har : (s.keepOnly less).arena = s.arena.map (keepOnly less) := rfl
  have hst : (s.keepOnly less).stepStack = s.stepStack := by simp [TI.keepOnly, hs]
  have hrec : less.shouldRecordOpcode i.op = more.shouldRecordOpcode i.op := by
    simp [Config.shouldRecordOpcode, hl.filter hs]
  simp only [hts, har, hst, hrec]
  cases htr : s.traceStack with
  | nil => simp [htr] at h
  | cons idx rest =>
    simp only [htr] at h
    dsimp only
    rw [List.getElem?_map]
    cases hn : s.arena[idx]? with
    | none => simp [hn] at h
    | some n =>
      simp only [hn] at h
      simp only [Option.map_some]
      have hlen : (keepOnly less n).trace.steps.length = n.trace.steps.length := by
        simp [keepOnly, hs]
      rw [hlen]
      cases hr : more.shouldRecordOpcode i.op with
      | false =>
        simp only [hr, Bool.not_false, if_true, Except.ok.injEq] at h ⊢
        subst h
        simp [TI.keepOnly, hs, htr]
      | true =>
        simp only [hr, Bool.not_true, Bool.false_eq_true, if_false, Except.ok.injEq] at h ⊢
        subst h
        simp [TI.keepOnly, hs, htr, List.map_set, startStepNode_keep hl hs]

theorem startStep_drop (hs : less.recordSteps = false) (s s1 : TI)
    (i : Interp) (c : Ctx) (h : TI.startStep more s i c = .ok s1) :
    s1.keepOnly less = s.keepOnly less := by
  unfold TI.startStep at h
  cases htr : s.traceStack with
  | nil => simp [htr] at h
  | cons idx rest =>
    simp only [htr] at h
    cases hn : s.arena[idx]? with
    | none => simp [hn] at h
    | some n =>
      simp only [hn] at h
      split at h
      · cases h
        simp [TI.keepOnly, hs, htr]
      · cases h
        have h1 : keepOnly less (TI.startStepNode more i c n) = keepOnly less n := by
          simp [TI.startStepNode, TI.pushStep, keepOnly, hs, keepItem]
        have : (s.arena.map (keepOnly less)).set idx (keepOnly less n) = s.arena.map (keepOnly less) :=
          set_self (by simp [hn])
        simp [TI.keepOnly, hs, htr, List.map_set, h1, this]

theorem fillStepOnStepEnd_keep (hl : RecordsLess less more) (hs : less.recordSteps = true) (s s1 : TI)
    (i : Interp) (c : Ctx) (h : TI.fillStepOnStepEnd more s i c = .ok s1) :
    TI.fillStepOnStepEnd less (s.keepOnly less) i c = .ok (s1.keepOnly less) := by
  unfold TI.fillStepOnStepEnd at h ⊢
  have har : (s.keepOnly less).arena = s.arena.map (keepOnly less) := rfl
  have hst : (s.keepOnly less).stepStack = s.stepStack := by simp [TI.keepOnly, hs]
  simp only [har, hst]
  cases hss : s.stepStack with
  | nil => simp [hss] at h
  | cons st rest =>
    simp only [hss] at h
    dsimp only
    cases hr : st.record with
    | false =>
      simp only [hr, Bool.not_false, if_true, Except.ok.injEq] at h ⊢
      subst h
      simp [TI.keepOnly, hs]
    | true =>
      simp only [hr, Bool.not_true, Bool.false_eq_true, if_false] at h ⊢
      rw [List.getElem?_map]
      cases hn : s.arena[st.traceIdx]? with
      | none => simp [hn] at h
      | some n =>
        simp only [hn] at h
        simp only [Option.map_some]
        have h1 : (keepOnly less n).trace.steps = n.trace.steps.map (keepFields less) := by
          simp [keepOnly, hs]
        rw [h1, List.getElem?_map]
        cases hk : n.trace.steps[st.stepIdx]? with
        | none => simp [hk] at h
        | some step =>
          simp only [hk] at h
          simp only [Option.map_some]
          cases hf : TI.fillStep more i c step with
          | error e => simp [hf] at h
          | ok step' =>
            simp only [hf, Except.ok.injEq] at h
            rw [fillStep_keep hl i c step step' hf]
            subst h
            simp [TI.keepOnly, hs, List.map_set, keepOnly]

theorem fillStepOnStepEnd_drop (hs : less.recordSteps = false) (s s1 : TI)
    (i : Interp) (c : Ctx) (h : TI.fillStepOnStepEnd more s i c = .ok s1) :
    s1.keepOnly less = s.keepOnly less := by
  unfold TI.fillStepOnStepEnd at h
  cases hss : s.stepStack with
  | nil => simp [hss] at h
  | cons st rest =>
    simp only [hss] at h
    split at h
    · cases h; simp [TI.keepOnly, hs]
    · cases hn : s.arena[st.traceIdx]? with
      | none => simp [hn] at h
      | some n =>
        simp only [hn] at h
        cases hk : n.trace.steps[st.stepIdx]? with
        | none => simp [hk] at h
        | some step =>
          simp only [hk] at h
          cases hf : TI.fillStep more i c step with
          | error e => simp [hf] at h
          | ok step' =>
            simp only [hf, Except.ok.injEq] at h
            subst h
            have : (s.arena.map (keepOnly less)).set st.traceIdx (keepOnly less n) =
                s.arena.map (keepOnly less) := set_self (by simp [hn])
            have h1 : keepOnly less { n with trace := { n.trace with steps := n.trace.steps.set st.stepIdx step' } } =
                keepOnly less n := by simp [keepOnly, hs]
            simp [TI.keepOnly, hs, List.map_set, h1, this]

theorem hook_keep (hl : RecordsLess less more) (s s1 : TI) (e : Event)
    (h : TI.hook more s e = .ok s1) : TI.hook less (s.keepOnly less) e = .ok (s1.keepOnly less) := by
  cases e with
  | step i c =>
    simp only [TI.hook] at h ⊢
    cases hs : less.recordSteps with
    | true =>
      rw [hl.steps hs] at h
      exact startStep_keep hl hs s s1 i c h
    | false =>
      simp only [Bool.false_eq_true, if_false, Except.ok.injEq]
      split at h
      · exact (startStep_drop hs s s1 i c h).symm
      · cases h; rfl
  | stepEnd i c =>
    simp only [TI.hook] at h ⊢
    cases hs : less.recordSteps with
    | true =>
      rw [hl.steps hs] at h
      exact fillStepOnStepEnd_keep hl hs s s1 i c h
    | false =>
      simp only [Bool.false_eq_true, if_false, Except.ok.injEq]
      split at h
      · exact (fillStepOnStepEnd_drop hs s s1 i c h).symm
      · cases h; rfl
  | log c l =>
    simp only [TI.hook] at h ⊢
    cases hs : less.recordLogs with
    | true =>
      rw [hl.logs hs] at h
      simp only [if_true] at h ⊢
      refine withLastTrace_keepOnly s s1 _ ?_ h
      intro _ x
      simp [TI.logNode, keepOnly, hs, keepItem]
    | false =>
      simp only [Bool.false_eq_true, if_false, Except.ok.injEq]
      split at h
      · refine (withLastTrace_drop s s1 _ ?_ h).symm
        intro _ x
        simp [TI.logNode, keepOnly, hs, keepItem]
      · cases h; rfl
  | call c inp =>
    simp only [TI.hook, TI.call] at h ⊢
    have hact : (s.keepOnly less).activeTrace = (match s.activeTrace with
        | .error e => .error e
        | .ok o => .ok (o.map (keepOnly less))) := by
      unfold TI.activeTrace
      have hts : (s.keepOnly less).traceStack = s.traceStack := rfl
      have har : (s.keepOnly less).arena = s.arena.map (keepOnly less) := rfl
      rw [hts, har]
      cases s.traceStack with
      | nil => rfl
      | cons idx rest =>
        dsimp only
        rw [List.getElem?_map]
        cases s.arena[idx]? <;> rfl
    rw [hl.exclude]
    cases hsch : inp.scheme with
    | DelegateCall =>
      simp only [hsch] at h ⊢
      rw [hact]
      cases ha : s.activeTrace with
      | error e => simp [ha] at h
      | ok o =>
        cases o with
        | none =>
          simp only [ha] at h
          exact startTraceOnCall_keepOnly s s1 _ _ _ _ _ _ _ _ h
        | some x =>
          simp only [ha] at h
          exact startTraceOnCall_keepOnly s s1 _ _ _ _ _ _ _ _ h
    | _ =>
      simp only [hsch] at h ⊢
      exact startTraceOnCall_keepOnly s s1 _ _ _ _ _ _ _ _ h
  | create c inp => exact startTraceOnCall_keepOnly s s1 _ _ _ _ _ _ _ _ h
  | callEnd c inp r => exact fillTraceOnCallEnd_keepOnly s s1 _ _ _ h
  | createEnd c inp r a => exact fillTraceOnCallEnd_keepOnly s s1 _ _ _ h
  | selfdestruct a b v =>
    exact withLastTrace_keepOnly s s1 _ (fun _ _ => rfl) h

theorem run_keep (hl : RecordsLess less more) (es : List Event) (s s1 : TI)
    (h : TI.run more s es = .ok s1) : TI.run less (s.keepOnly less) es = .ok (s1.keepOnly less) := by
  induction es generalizing s with
  | nil => cases h; rfl
  | cons e es ih =>
    rw [TI.run] at h ⊢
    cases hh : TI.hook more s e with
    | error p => simp [hh] at h
    | ok s' =>
      simp only [hh] at h
      rw [hook_keep hl s s' e hh]
      exact ih s' h

theorem keepOnly_new : TI.new.keepOnly less = TI.new := by
  simp [TI.keepOnly, TI.new, Arena.default, keepOnly]

end
end Verif
