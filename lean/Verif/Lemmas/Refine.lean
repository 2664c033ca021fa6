import Verif.Lemmas.Layout
/-! Running the hooks of an execution yields the layout of `Verif.Lemmas.Layout`. -/
namespace Verif
namespace Rec
open TI

theorem run_append (cfg : Config) (es : List Event) : ∀ (s : TI) (fs : List Event),
    TI.run cfg s (es ++ fs) = match TI.run cfg s es with
      | .error p => .error p
      | .ok s' => TI.run cfg s' fs := by
  induction es with
  | nil => intros; rfl
  | cons e es ih =>
    intro s fs
    simp only [List.cons_append, TI.run]
    cases hook cfg s e with
    | error p => rfl
    | ok s' => exact ih s' fs

theorem run_cons_ok {cfg : Config} {s s' : TI} {e : Event} {es : List Event}
    (h : hook cfg s e = .ok s') : TI.run cfg s (e :: es) = TI.run cfg s' es := by
  simp only [TI.run, h]

theorem run_append_ok {cfg : Config} {s s' : TI} {es fs : List Event}
    (h : TI.run cfg s es = .ok s') : TI.run cfg s (es ++ fs) = TI.run cfg s' fs := by
  rw [run_append, h]

theorem fillStep_ok {cfg : Config} {i' : Interp} {c' : Ctx} {st : CallTraceStep}
    (h1 : cfg.recordStackSnapshots.isPushes = true → Op.stackPushCount st.op ≤ i'.stack.length)
    (h2 : cfg.recordStateDiff = true → c'.JournalOK) :
    fillStep cfg i' c' st = .ok (finishStep cfg i' c' st) := by
  have h3 : ∃ s', fillStep cfg i' c' st = .ok s' := by
    unfold fillStep
    have hp : ∃ x, (if cfg.recordStackSnapshots.isPushes then
        if i'.stack.length < Op.stackPushCount st.op then (.error .arith : R (Option (List U256)))
        else .ok (some (i'.stack.drop (i'.stack.length - Op.stackPushCount st.op)))
      else .ok st.pushStack) = .ok x := by
      split
      · rename_i h
        have := h1 h
        rw [if_neg (by omega)]
        exact ⟨_, rfl⟩
      · exact ⟨_, rfl⟩
    have hc : ∃ y, (if cfg.recordStateDiff then stepStorageChange st.op c'
        else (.ok st.storageChange : R (Option StorageChange))) = .ok y := by
      split
      · rename_i h
        obtain ⟨entries, he, hs⟩ := h2 h
        unfold stepStorageChange
        rw [he]
        dsimp only
        split
        · split
          · rename_i a k hv hl
            have := hs a k hv (List.mem_of_getLast? hl)
            cases hst : c'.storage a k with
            | none => exact absurd hst this
            | some v => exact ⟨_, rfl⟩
          · exact ⟨_, rfl⟩
        · exact ⟨_, rfl⟩
      · exact ⟨_, rfl⟩
    obtain ⟨x, hx⟩ := hp
    obtain ⟨y, hy⟩ := hc
    simp only [hx, hy]
    exact ⟨_, rfl⟩
  obtain ⟨s', hs'⟩ := h3
  simp only [finishStep, hs']

theorem records_eq (cfg : Config) (i : Interp) : Spec.records cfg i.op = recorded cfg i := by
  unfold Spec.records recorded Config.shouldRecordOpcode OpcodeFilter.isEnabled
  cases cfg.recordOpcodesFilter <;> rfl

theorem list_set_set {α} (l : List α) (i : Nat) (a b : α) : (l.set i a).set i b = l.set i b := by
  simp

theorem set_self {α} {l : List α} {i : Nat} {x : α} (h : l[i]? = some x) : l.set i x = l := by
  obtain ⟨hi, hx⟩ := List.getElem?_eq_some_iff.1 h
  rw [← hx]; exact List.set_getElem_self hi

/-- An action keeps the stack of frames and rewrites the active node. -/
theorem run_act {cfg : Config} {a : Act} {d : Nat} {s : TI} {p : Nat} {stk : List Nat} {x : Node}
    (hstk : s.traceStack = p :: stk) (hx : s.arena[p]? = some x)
    (hsafe : ∀ i c i' c', a = .step i c i' c' → StepSafe cfg i c i' c') :
    ∃ s', TI.run cfg s (a.events d) = .ok s' ∧ s'.traceStack = p :: stk ∧
      s'.arena = s.arena.set p (actNode cfg d a x) ∧ s'.specId = s.specId := by
  have hlt := (List.getElem?_eq_some_iff.1 hx).1
  cases a with
  | step i c i' c' =>
    obtain ⟨hs1, hs2⟩ := hsafe i c i' c' rfl
    by_cases hr : cfg.recordSteps = true
    · by_cases hrec : cfg.shouldRecordOpcode i.op = true
      · have hfill := fillStep_ok (cfg := cfg) (i' := i') (c' := c'.at d)
          (st := newStep cfg i (c.at d) x.trace.steps.getLast?)
          (hs1 (by rw [records_eq]; simp [recorded, hr, hrec])) hs2
        simp only [Act.events, TI.run, hook, hr, if_true, startStep, hstk, hx, hrec,
          Bool.not_true, Bool.false_eq_true, if_false, fillStepOnStepEnd]
        have h1 : (s.arena.set p (startStepNode cfg i (c.at d) x))[p]? =
            some (startStepNode cfg i (c.at d) x) := by
          rw [List.getElem?_set_self hlt]
        have h2 : (startStepNode cfg i (c.at d) x).trace.steps[x.trace.steps.length]? =
            some (newStep cfg i (c.at d) x.trace.steps.getLast?) := by
          simp [startStepNode, pushStep]
        simp only [h1, h2, hfill]
        refine ⟨_, rfl, by first | exact hstk | rfl, ?_, rfl⟩
        simp only [list_set_set, actNode, recorded, hr, hrec, Bool.and_true, if_true]
        congr 1
        simp [startStepNode, pushStep]
      · simp only [Act.events, TI.run, hook, hr, if_true, startStep, hstk, hx, hrec,
          Bool.not_false, fillStepOnStepEnd]
        refine ⟨_, rfl, by first | exact hstk | rfl, ?_, rfl⟩
        simp [actNode, recorded, hrec, set_self hx]
    · simp only [Act.events, TI.run, hook, hr, Bool.false_eq_true, if_false]
      refine ⟨s, rfl, hstk, ?_, rfl⟩
      simp [actNode, recorded, hr, set_self hx]
  | aborted i c =>
    by_cases hr : cfg.recordSteps = true
    · by_cases hrec : cfg.shouldRecordOpcode i.op = true
      · simp only [Act.events, TI.run, hook, hr, if_true, startStep, hstk, hx, hrec,
          Bool.not_true, Bool.false_eq_true, if_false]
        refine ⟨_, rfl, by first | exact hstk | rfl, ?_, rfl⟩
        simp [actNode, recorded, hr, hrec, startStepNode]
      · simp only [Act.events, TI.run, hook, hr, if_true, startStep, hstk, hx, hrec,
          Bool.not_false]
        refine ⟨_, rfl, by first | exact hstk | rfl, ?_, rfl⟩
        simp [actNode, recorded, hrec, set_self hx]
    · simp only [Act.events, TI.run, hook, hr, Bool.false_eq_true, if_false]
      refine ⟨s, rfl, hstk, ?_, rfl⟩
      simp [actNode, recorded, hr, set_self hx]
  | log c l =>
    by_cases hr : cfg.recordLogs = true
    · simp only [Act.events, TI.run, hook, hr, if_true, withLastTrace, hstk, hx]
      exact ⟨_, rfl, by first | exact hstk | rfl, by simp [actNode, hr], rfl⟩
    · simp only [Act.events, TI.run, hook, hr, Bool.false_eq_true, if_false]
      refine ⟨s, rfl, hstk, ?_, rfl⟩
      simp [actNode, hr, set_self hx]
  | selfdestruct ct tg v =>
    simp only [Act.events, TI.run, hook, withLastTrace, hstk, hx]
    exact ⟨_, rfl, by first | exact hstk | rfl, rfl, rfl⟩

/-- An unsafe pushed-items snapshot panics. -/
theorem run_act_err {cfg : Config} {i i' : Interp} {c c' : Ctx} {d : Nat} {s : TI} {p : Nat}
    {stk : List Nat} {x : Node}
    (hstk : s.traceStack = p :: stk) (hx : s.arena[p]? = some x)
    (hbad : ¬ PushesSafe cfg i c i' c') :
    TI.run cfg s ((Act.step i c i' c').events d) = .error .arith := by
  have hlt := (List.getElem?_eq_some_iff.1 hx).1
  simp only [PushesSafe, Classical.not_imp, Nat.not_le] at hbad
  obtain ⟨h1, h2, h3⟩ := hbad
  rw [records_eq] at h1
  simp only [recorded, Bool.and_eq_true] at h1
  obtain ⟨hr, hrec⟩ := h1
  simp only [Act.events, TI.run, hook, hr, if_true, startStep, hstk, hx, hrec,
    Bool.not_true, Bool.false_eq_true, if_false, fillStepOnStepEnd]
  have e1 : (s.arena.set p (startStepNode cfg i (c.at d) x))[p]? =
      some (startStepNode cfg i (c.at d) x) := by
    rw [List.getElem?_set_self hlt]
  have e2 : (startStepNode cfg i (c.at d) x).trace.steps[x.trace.steps.length]? =
      some (newStep cfg i (c.at d) x.trace.steps.getLast?) := by
    simp [startStepNode, pushStep]
  simp only [e1, e2, fillStep, h2, if_true, show (newStep cfg i (c.at d) x.trace.steps.getLast?).op = i.op from rfl, h3]

/-- What the opening hook does, up to the arena search. -/
theorem hook_enter {cfg : Config} {s : TI} {h : Header} {d : Nat} {pval : Option U256}
    (hact : match s.traceStack with
      | [] => pval = none
      | p :: _ => ∃ x, s.arena[p]? = some x ∧ pval = some x.trace.value) :
    hook cfg s (h.enter d) =
      match pushTrace s.arena 0
          (if excluded (enterTrace cfg pval d h) then .pushOnly else .pushAndAttachToParent)
          (enterTrace cfg pval d h) with
      | .error e => .error e
      | .ok (arena, id) => .ok { s with
          arena := arena
          traceStack := id :: s.traceStack
          specId := if s.traceStack.isEmpty then
            some (match h with | .call c _ => c.specId | .create c _ => c.specId)
            else s.specId } := by
  have hempty : s.traceStack.isEmpty = !pval.isSome := by
    cases hs : s.traceStack with
    | nil => rw [hs] at hact; simp only at hact; rw [hact]; rfl
    | cons p stk => rw [hs] at hact; obtain ⟨x, _, hx⟩ := hact; rw [hx]; rfl
  have hval : ∃ o : Option Node, s.activeTrace = .ok o ∧ pval = o.map (·.trace.value) := by
    unfold activeTrace
    cases hs : s.traceStack with
    | nil => rw [hs] at hact; simp only at hact; exact ⟨none, rfl, hact⟩
    | cons p stk =>
      rw [hs] at hact; obtain ⟨x, hx, hv⟩ := hact
      exact ⟨some x, by simp only [hx], hv⟩
  obtain ⟨ao, hao, hpv⟩ := hval
  cases h with
  | create c inp =>
    simp only [Header.enter, hook, TI.create, startTraceOnCall, enterTrace, excluded, Ctx.at, hempty]
    cases pval <;> rfl
  | call c inp =>
    cases hsch : inp.scheme <;>
      simp only [Header.enter, hook, TI.call, startTraceOnCall, enterTrace, excluded, Ctx.at,
        hempty, hsch, hao, isPrecompileCall, isDeep, Bool.not_not] <;>
      subst hpv <;> cases ao <;> rfl

theorem hook_leave {cfg : Config} {s : TI} {h : Header} {d : Nat} {o : Outcome} {p : Nat}
    {stk : List Nat} {x : Node}
    (hstk : s.traceStack = p :: stk) (hx : s.arena[p]? = some x) :
    hook cfg s (h.leave d o) = .ok { s with
      arena := s.arena.set p (leaveNode p d h o x)
      traceStack := stk
      lastCallReturnData := some o.result.output } := by
  cases h <;> simp only [Header.leave, hook, fillTraceOnCallEnd, hstk, hx] <;> rfl

theorem excluded_precompile {cfg : Config} {pval : Option U256} {d : Nat} {h : Header}
    (hwf : h.WF) (he : excluded (enterTrace cfg pval d h) = true) : h.isPrecompile = true := by
  cases h with
  | create c inp => simp [excluded, enterTrace] at he
  | call c inp =>
    simp only [Header.isPrecompile]
    simp only [Header.WF] at hwf
    cases hs : inp.scheme <;> simp only [excluded, enterTrace, hs] at he hwf <;>
      cases hx : cfg.excludePrecompileCalls <;> simp [hx] at he hwf ⊢ <;> simp_all

theorem enterTrace_depth (cfg pval d h) : (enterTrace cfg pval d h).depth = d := by
  cases h <;> rfl

theorem own_depth (cfg : Config) (d : Nat) (b : Body) :
    ∀ n x, (own cfg d n b x).trace.depth = x.trace.depth := by
  induction b with
  | nil => intros; rfl
  | act a rest ih => intro n x; simp [own, ih]
  | sub h b o rest _ ih => intro n x; simp [own, ih]

/-- The stack of open frames is a chain of last children. -/
def ChainOK (A : List Node) (d : Nat) (stk : List Nat) : Prop :=
  ∃ r, stk.reverse = 0 :: r ∧ Path A 0 0 r ∧ d = r.length + 1

theorem lastOf_of_reverse {p : Nat} {stk r : List Nat} (h : (p :: stk).reverse = 0 :: r) :
    lastOf 0 r = p := by
  have h1 := lastOf_eq_getLast r 0
  rw [← h] at h1
  simpa using h1.symm

theorem run_body_both (cfg : Config) (b : Body) : ∀ (d : Nat) (s : TI) (p : Nat) (stk : List Nat)
    (x : Node), s.traceStack = p :: stk → s.arena[p]? = some x →
    (b.hasSub = true → ChainOK s.arena d (p :: stk)) → b.WF → b.AllSteps (StorageSafe cfg) →
    (b.AllSteps (PushesSafe cfg) → ∃ s', TI.run cfg s (b.events d) = .ok s' ∧ s'.traceStack = p :: stk ∧
      s'.arena = s.arena.set p (own cfg d s.arena.length b x) ++
        newNodes cfg d p x.trace.value s.arena.length b ∧ s'.specId = s.specId) ∧
    (¬ b.AllSteps (PushesSafe cfg) → TI.run cfg s (b.events d) = .error .arith) := by
  induction b with
  | nil =>
    intro d s p stk x hstk hx _ _ _
    exact ⟨fun _ => ⟨s, rfl, hstk, by simp [own, newNodes, set_self hx], rfl⟩, fun h => absurd trivial h⟩
  | act a rest ih =>
    intro d s p stk x hstk hx hch hwf hsafe
    have hlt := (List.getElem?_eq_some_iff.1 hx).1
    have hs1 : ∀ i c i' c', a = .step i c i' c' → StorageSafe cfg i c i' c' := by
      intro i c i' c' ha; subst ha; exact hsafe.1
    have hs2 : rest.AllSteps (StorageSafe cfg) := by
      cases a with
      | step i c i' c' => exact hsafe.2
      | _ => exact hsafe
    have hiff : (Body.act a rest).AllSteps (PushesSafe cfg) ↔
        (∀ i c i' c', a = .step i c i' c' → PushesSafe cfg i c i' c') ∧
          rest.AllSteps (PushesSafe cfg) := by
      cases a with
      | step i c i' c' =>
        refine ⟨fun h => ⟨fun _ _ _ _ ha => ?_, h.2⟩, fun h => ⟨h.1 _ _ _ _ rfl, h.2⟩⟩
        cases ha; exact h.1
      | _ => exact ⟨fun h => ⟨fun _ _ _ _ ha => (nomatch ha), h⟩, fun h => h.2⟩
    rw [hiff]
    by_cases hpa : ∀ i c i' c', a = .step i c i' c' → PushesSafe cfg i c i' c'
    case neg =>
      refine ⟨fun h => absurd h.1 hpa, fun _ => ?_⟩
      simp only [Classical.not_forall] at hpa
      obtain ⟨i, c, i', c', rfl, hbad⟩ := hpa
      simp only [Body.events]
      rw [run_append, run_act_err hstk hx hbad]
    replace hs1 : ∀ i c i' c', a = .step i c i' c' → StepSafe cfg i c i' c' :=
      fun i c i' c' ha => ⟨hpa i c i' c' ha, hs1 i c i' c' ha⟩
    obtain ⟨s1, hr1, hst1, har1, hsp1⟩ := run_act (d := d) hstk hx hs1
    have hx1 : s1.arena[p]? = some (actNode cfg d a x) := by
      rw [har1, List.getElem?_set_self hlt]
    obtain ⟨ihok, iherr⟩ := ih d s1 p stk _ hst1 hx1 (by
      intro hs
      obtain ⟨r, hr, hp, hd⟩ := hch hs
      refine ⟨r, hr, ?_, hd⟩
      have hl := lastOf_of_reverse hr
      refine hp.congr r ?_ ?_
      · intro i hi; rw [har1, List.getElem?_set_ne (by omega)]
      · intro y hy
        rw [hl] at hy ⊢
        rw [hx] at hy; cases hy
        exact ⟨_, hx1, by simp⟩) hwf hs2
    refine And.symm ⟨fun hN => ?_, fun hP => ?_⟩
    · have hN : ¬ rest.AllSteps (PushesSafe cfg) := fun h => hN ⟨hpa, h⟩
      simp only [Body.events]; rw [run_append_ok hr1]; exact iherr hN
    obtain ⟨s2, hr2, hst2, har2, hsp2⟩ := ihok hP.2
    refine ⟨s2, ?_, hst2, ?_, hsp2.trans hsp1⟩
    · simp only [Body.events]; rw [run_append_ok hr1]; exact hr2
    · rw [har2, har1]; simp [own, newNodes]
  | sub h b o rest ihb ihr =>
    intro d s p stk x hstk hx hch hwf hsafe
    obtain ⟨hwh, hpre, hwb, hwr⟩ := hwf
    obtain ⟨hsb, hsr⟩ := hsafe
    have hlt := (List.getElem?_eq_some_iff.1 hx).1
    obtain ⟨r, hr, hp, hd⟩ := hch rfl
    have hl := lastOf_of_reverse hr
    have hplen := hp.len r
    rw [hl] at hplen
    -- enter
    let t := enterTrace cfg (some x.trace.value) d h
    let x1 := attachIf t s.arena.length x
    let y : Node := { parent := some p, idx := s.arena.length, trace := t }
    have henter := hook_enter (cfg := cfg) (s := s) (h := h) (d := d) (pval := some x.trace.value)
      (by rw [hstk]; exact ⟨x, hx, rfl⟩)
    obtain ⟨x', hx', hpush⟩ := pushTraceLoop_path (A := s.arena)
      (kind := if excluded t then .pushOnly else .pushAndAttachToParent) (t := t) r
      (fuel := s.arena.length + 1) hp
      (by rw [show t.depth = d from enterTrace_depth ..]; omega) (by omega)
    rw [hl] at hx' hpush
    rw [hx] at hx'; cases hx'
    let s1 : TI := { s with
      arena := s.arena.set p x1 ++ [y]
      traceStack := s.arena.length :: s.traceStack }
    have h1 : hook cfg s (h.enter d) = .ok s1 := by
      rw [henter]
      simp only [pushTrace]
      rw [show enterTrace cfg (some x.trace.value) d h = t from rfl, hpush]
      simp only [hstk, List.isEmpty_cons, Bool.false_eq_true, if_false, s1, x1, y, attachIf]
      split <;> simp_all
    have hlen1 : s1.arena.length = s.arena.length + 1 := by simp [s1]
    have hy1 : s1.arena[s.arena.length]? = some y := by simp [s1]
    have hx1 : s1.arena[p]? = some x1 := by
      simp only [s1]
      rw [List.getElem?_append_left (by simpa using hlt), List.getElem?_set_self hlt]
    -- body
    obtain ⟨ihbok, ihberr⟩ := ihb (d + 1) s1 s.arena.length (p :: stk) y
      (by simp [s1, hstk]) hy1 (by
        intro hs
        have hne : excluded t = false := by
          cases he : excluded t with
          | false => rfl
          | true => rw [hpre (excluded_precompile hwh he)] at hs; exact absurd hs (by simp)
        refine ⟨r ++ [s.arena.length], ?_, ?_, by simp; omega⟩
        · rw [List.reverse_cons, hr]; rfl
        · refine hp.snoc r ?_ (by omega) ?_ ?_
          · intro i hi
            simp only [s1]
            rw [List.getElem?_append_left (by simp; omega), List.getElem?_set_ne (by omega)]
          · rw [hl]
            obtain ⟨z, hz, hzd⟩ := hp.last r
            rw [hl, hx] at hz; cases hz
            exact ⟨x1, hx1, by simpa [x1] using hzd, by simp [x1, attachIf, hne, Node.attach]⟩
          · exact ⟨y, hy1, by simp [y, t, enterTrace_depth]; omega⟩) hwb hsb
    by_cases hPb : b.AllSteps (PushesSafe cfg)
    case neg =>
      refine ⟨fun h => absurd h.1 hPb, fun _ => ?_⟩
      simp only [Body.events]
      rw [run_cons_ok h1, run_append, ihberr hPb]
    obtain ⟨s2, hr2, hst2, har2, hsp2⟩ := ihbok hPb
    -- leave
    have hlt2 : s.arena.length < s2.arena.length := by rw [har2]; simp; omega
    let y2 := own cfg (d + 1) s1.arena.length b y
    have hy2 : s2.arena[s.arena.length]? = some y2 := by
      rw [har2, List.getElem?_append_left (by simp; omega), List.getElem?_set_self (by omega)]
    have hleave := hook_leave (cfg := cfg) (h := h) (d := d) (o := o) hst2 hy2
    obtain ⟨s3, hs3, hs3stk, hs3ar, hs3sp⟩ : ∃ s3, hook cfg s2 (h.leave d o) = .ok s3 ∧
        s3.traceStack = p :: stk ∧
        s3.arena = s2.arena.set s.arena.length (leaveNode s.arena.length d h o y2) ∧
        s3.specId = s2.specId := ⟨_, hleave, rfl, rfl, rfl⟩
    have hs3ar' : s3.arena = s.arena.set p x1 ++ (leaveNode s.arena.length d h o y2 ::
        newNodes cfg (d + 1) s.arena.length t.value (s.arena.length + 1) b) := by
      rw [hs3ar, har2, hlen1]
      simp only [s1]
      rw [List.set_append_left _ _ (by simp)]
      rw [list_set_set]
      rw [List.set_append_right _ _ (by simp)]
      simp [y]
    have hlen3 : s3.arena.length = s.arena.length + 1 + b.size := by
      rw [hs3ar']; simp [length_newNodes]; omega
    have hx3 : s3.arena[p]? = some x1 := by
      rw [hs3ar', List.getElem?_append_left (by simpa using hlt), List.getElem?_set_self hlt]
    -- rest
    obtain ⟨ihrok, ihrerr⟩ := ihr d s3 p stk x1 hs3stk hx3 (by
        intro _
        refine ⟨r, hr, ?_, hd⟩
        refine hp.congr r ?_ ?_
        · intro i hi
          rw [hs3ar', List.getElem?_append_left (by simp; omega), List.getElem?_set_ne (by omega)]
        · intro z hz
          rw [hl] at hz ⊢
          rw [hx] at hz; cases hz
          exact ⟨_, hx3, by simp [x1]⟩) hwr hsr
    refine And.symm ⟨fun hN => ?_, fun hP => ?_⟩
    · have hN : ¬ rest.AllSteps (PushesSafe cfg) := fun h => hN ⟨hPb, h⟩
      simp only [Body.events]
      rw [run_cons_ok h1, run_append_ok hr2, run_cons_ok hs3]
      exact ihrerr hN
    obtain ⟨s4, hr4, hst4, har4, hsp4⟩ := ihrok hP.2
    refine ⟨s4, ?_, hst4, ?_, ?_⟩
    · simp only [Body.events]
      rw [run_cons_ok h1, run_append_ok hr2, run_cons_ok hs3]
      exact hr4
    · rw [har4, hlen3, hs3ar']
      rw [List.set_append_left _ _ (by simpa using hlt), list_set_set]
      have hv : x1.trace.value = x.trace.value := by simp [x1]
      simp only [own, newNodes, hv, List.append_assoc, List.cons_append, y2, y, hlen1, x1, t]
    · rw [hsp4, hs3sp, hsp2]

theorem allSteps_and {P Q : Interp → Ctx → Interp → Ctx → Prop} (b : Body) :
    b.AllSteps (fun i c i' c' => P i c i' c' ∧ Q i c i' c') ↔ b.AllSteps P ∧ b.AllSteps Q := by
  induction b with
  | nil => exact ⟨fun _ => ⟨trivial, trivial⟩, fun _ => trivial⟩
  | act a rest ih =>
    cases a with
    | step i c i' c' => simp only [Body.AllSteps, ih]; constructor <;> (intro h; simp_all)
    | _ => simpa only [Body.AllSteps] using ih
  | sub h b o rest ihb ihr => simp only [Body.AllSteps, ihb, ihr]; constructor <;> (intro h; simp_all)

theorem safe_iff (cfg : Config) (b : Body) :
    Safe cfg b ↔ b.AllSteps (PushesSafe cfg) ∧ b.AllSteps (StorageSafe cfg) := allSteps_and b

theorem run_body (cfg : Config) (b : Body) (d : Nat) (s : TI) (p : Nat) (stk : List Nat)
    (x : Node) (hstk : s.traceStack = p :: stk) (hx : s.arena[p]? = some x)
    (hch : b.hasSub = true → ChainOK s.arena d (p :: stk)) (hwf : b.WF) (hsafe : Safe cfg b) :
    ∃ s', TI.run cfg s (b.events d) = .ok s' ∧ s'.traceStack = p :: stk ∧
      s'.arena = s.arena.set p (own cfg d s.arena.length b x) ++
        newNodes cfg d p x.trace.value s.arena.length b ∧ s'.specId = s.specId :=
  have h := (safe_iff cfg b).1 hsafe
  (run_body_both cfg b d s p stk x hstk hx hch hwf h.2).1 h.1

/-- The root frame's header carries the spec id. -/
def hdrSpec : Header → SpecId
  | .call c _ => c.specId
  | .create c _ => c.specId

/-- The arena a transaction leaves behind when it starts on a node `n0` (with nodes `rest0`
after it). -/
def txArena (cfg : Config) (t : Tx) (n0 : Node) (rest0 : List Node) : List Node :=
  let tr := enterTrace cfg none 0 t.hdr
  leaveNode 0 0 t.hdr t.out (own cfg 1 (1 + rest0.length) t.body { n0 with trace := tr }) ::
    (rest0 ++ newNodes cfg 1 0 tr.value (1 + rest0.length) t.body)

/-- Running a transaction from any state in which no frame is open. -/
theorem run_tx_from (cfg : Config) (t : Tx) (s : TI) (n0 : Node) (rest0 : List Node)
    (hstk : s.traceStack = []) (har : s.arena = n0 :: rest0)
    (hwf : t.body.WF) (hsafe : Safe cfg t.body) :
    ∃ s', TI.run cfg s t.events = .ok s' ∧ s'.traceStack = [] ∧
      s'.arena = txArena cfg t n0 rest0 ∧ s'.specId = some (hdrSpec t.hdr) := by
  let tr := enterTrace cfg none 0 t.hdr
  let x : Node := { n0 with trace := tr }
  have henter := hook_enter (cfg := cfg) (s := s) (h := t.hdr) (d := 0) (pval := none)
    (by rw [hstk])
  have hpush : ∀ kind, pushTrace s.arena 0 kind tr = .ok (x :: rest0, 0) := by
    intro kind
    simp only [pushTrace, pushTraceLoop, show tr.depth = 0 from enterTrace_depth .., if_true, har, x]
  let s1 : TI := { s with arena := x :: rest0, traceStack := [0], specId := some (hdrSpec t.hdr) }
  have h1 : hook cfg s (t.hdr.enter 0) = .ok s1 := by
    rw [henter, show enterTrace cfg none 0 t.hdr = tr from rfl, hpush]
    simp only [hstk, List.isEmpty_nil, if_true, s1, hdrSpec]
  obtain ⟨s2, hr2, hst2, har2, hsp2⟩ := run_body cfg t.body 1 s1 0 [] x rfl rfl (by
    intro _
    exact ⟨[], rfl, ⟨x, rfl, by simp [x, tr, enterTrace_depth]⟩, rfl⟩) hwf hsafe
  have hlen1 : s1.arena.length = 1 + rest0.length := by simp [s1]; omega
  have hx2 : s2.arena[0]? = some (own cfg 1 s1.arena.length t.body x) := by
    rw [har2]; simp [s1]
  have hleave := hook_leave (cfg := cfg) (h := t.hdr) (d := 0) (o := t.out) hst2 hx2
  obtain ⟨s3, hs3, hs3stk, hs3ar, hs3sp⟩ : ∃ s3, hook cfg s2 (t.hdr.leave 0 t.out) = .ok s3 ∧
      s3.traceStack = [] ∧
      s3.arena = s2.arena.set 0 (leaveNode 0 0 t.hdr t.out (own cfg 1 s1.arena.length t.body x)) ∧
      s3.specId = s2.specId := ⟨_, hleave, rfl, rfl, rfl⟩
  refine ⟨s3, ?_, hs3stk, ?_, hs3sp.trans hsp2⟩
  · simp only [Tx.events]
    rw [run_cons_ok h1, run_append_ok hr2, run_cons_ok hs3]
    rfl
  · rw [hs3ar, har2, hlen1]
    simp [txArena, s1, x, tr]

/-- A transaction with an unsafe pushed-items snapshot panics. -/
theorem run_tx_err (cfg : Config) (t : Tx) (s : TI) (n0 : Node) (rest0 : List Node)
    (hstk : s.traceStack = []) (har : s.arena = n0 :: rest0)
    (hwf : t.body.WF) (hst : t.body.AllSteps (StorageSafe cfg))
    (hbad : ¬ t.body.AllSteps (PushesSafe cfg)) :
    TI.run cfg s t.events = .error .arith := by
  let tr := enterTrace cfg none 0 t.hdr
  let x : Node := { n0 with trace := tr }
  have henter := hook_enter (cfg := cfg) (s := s) (h := t.hdr) (d := 0) (pval := none)
    (by rw [hstk])
  have hpush : ∀ kind, pushTrace s.arena 0 kind tr = .ok (x :: rest0, 0) := by
    intro kind
    simp only [pushTrace, pushTraceLoop, show tr.depth = 0 from enterTrace_depth .., if_true, har, x]
  let s1 : TI := { s with arena := x :: rest0, traceStack := [0], specId := some (hdrSpec t.hdr) }
  have h1 : hook cfg s (t.hdr.enter 0) = .ok s1 := by
    rw [henter, show enterTrace cfg none 0 t.hdr = tr from rfl, hpush]
    simp only [hstk, List.isEmpty_nil, if_true, s1, hdrSpec]
  have h2 := (run_body_both cfg t.body 1 s1 0 [] x rfl rfl (by
    intro _
    exact ⟨[], rfl, ⟨x, rfl, by simp [x, tr, enterTrace_depth]⟩, rfl⟩) hwf hst).2 hbad
  simp only [Tx.events]
  rw [run_cons_ok h1, run_append, h2]

theorem run_tx (cfg : Config) (t : Tx) (hwf : t.body.WF) (hsafe : Safe cfg t.body) :
    ∃ s', TI.run cfg TI.new t.events = .ok s' ∧ s'.traceStack = [] ∧
      s'.arena = txArena cfg t {} [] ∧ s'.specId = some (hdrSpec t.hdr) :=
  run_tx_from cfg t TI.new {} [] rfl rfl hwf hsafe

end Rec
end Verif
