import Verif.Spec.Unfused
import Verif.Props.Links
import Verif.Props.Arena
import Verif.Spec.CallFrames
/-! C120: two transactions recorded without `fuse` in between. -/
namespace Verif.Props
open Spec

/-- A node of the second transaction in the shared arena. -/
def place (n : Nat) (o : Node) (i : Nat) (x : Node) : Node :=
  if i = 0 then sharedRoot n o x else movedNode n x

theorem place_trace (n : Nat) (o : Node) (i : Nat) (x : Node) : (place n o i x).trace = x.trace := by
  unfold place; split <;> rfl

theorem movedTo_zero (n i : Nat) : movedTo n i = 0 ↔ i = 0 := by
  unfold movedTo; split <;> omega

theorem together_get {o : Node} {os second : List Node} {i : Nat} {x : Node}
    (h : second[i]? = some x) :
    (together (o :: os) second)[movedTo os.length i]? = some (place os.length o i x) := by
  cases second with
  | nil => simp at h
  | cons y ys =>
    cases i with
    | zero =>
      simp only [List.getElem?_cons_zero, Option.some.injEq] at h
      subst h
      rfl
    | succ i =>
      simp only [List.getElem?_cons_succ] at h
      have e : movedTo os.length (i + 1) = (os.length + i) + 1 := by unfold movedTo; simp; omega
      rw [e, together, List.getElem?_cons_succ, List.getElem?_append_right (by omega)]
      have e2 : os.length + i - os.length = i := by omega
      rw [e2, List.getElem?_map, h]
      rfl

theorem together_set {o : Node} {os second : List Node} {i : Nat} (x : Node) (hi : i < second.length) :
    (together (o :: os) second).set (movedTo os.length i) (place os.length o i x) =
      together (o :: os) (second.set i x) := by
  cases second with
  | nil => simp at hi
  | cons y ys =>
    cases i with
    | zero => rfl
    | succ i =>
      have e : movedTo os.length (i + 1) = (os.length + i) + 1 := by unfold movedTo; simp; omega
      rw [e, together, List.set_cons_succ, List.set_append_right _ _ (by omega)]
      have e2 : os.length + i - os.length = i := by omega
      rw [e2, List.set_cons_succ, together, List.map_set]
      rfl

theorem together_length {o : Node} {os second : List Node} (h : second ≠ []) :
    (together (o :: os) second).length = os.length + second.length := by
  cases second with
  | nil => exact absurd rfl h
  | cons y ys => simp [together]; omega

theorem together_append {o : Node} {os second : List Node} (h : second ≠ []) (x : Node) :
    together (o :: os) (second ++ [x]) = together (o :: os) second ++ [movedNode os.length x] := by
  cases second with
  | nil => exact absurd rfl h
  | cons y ys => simp [together]

/-- A state of the second recording, and that of the shared one. -/
structure Shared (o : Node) (os : List Node) (left : List StackStep) (s s' : TI) : Prop where
  nonempty : s.arena ≠ []
  arena : s'.arena = together (o :: os) s.arena
  traceStack : s'.traceStack = s.traceStack.map (movedTo os.length)
  stepStack : s'.stepStack =
    s.stepStack.map (fun st => { st with traceIdx := movedTo os.length st.traceIdx }) ++ left
  specId : s'.specId = s.specId

theorem getLast?_map_append {α β : Type} (f : α → β) (a : List β) {l : List α} {c : α}
    (h : l.getLast? = some c) : (a ++ l.map f).getLast? = some (f c) := by
  rw [List.getLast?_append, List.getLast?_map, h]; rfl

theorem place_last (n : Nat) (o : Node) (i : Nat) (x : Node) {c : Nat} (h : x.children.getLast? = some c) :
    (place n o i x).children.getLast? = some (movedTo n c) := by
  unfold place
  split
  · exact getLast?_map_append _ _ h
  · show (x.children.map (movedTo n)).getLast? = _
    rw [List.getLast?_map, h]; rfl

theorem place_attach (n : Nat) (o : Node) (i : Nat) (x : Node) (id : Nat) :
    place n o i (x.attach id) = (place n o i x).attach (movedTo n id) := by
  unfold place
  split
  · simp [sharedRoot, Node.attach, movedMember]; omega
  · simp [movedNode, Node.attach]

theorem pushTraceLoop_shared {o : Node} {os : List Node} {kind : PushTraceKind} {t : CallTrace} :
    ∀ (fuel : Nat) (arena : List Node) (entry : Nat) (res : List Node × Nat) (fuel' : Nat), fuel ≤ fuel' →
    arena ≠ [] → pushTraceLoop kind t fuel arena entry = .ok res →
    res.1 ≠ [] ∧ pushTraceLoop kind t fuel' (together (o :: os) arena) (movedTo os.length entry) =
      .ok (together (o :: os) res.1, movedTo os.length res.2) := by
  intro fuel
  induction fuel with
  | zero => intro arena entry res fuel' _ _ h; simp [pushTraceLoop] at h
  | succ fuel ih =>
    intro arena entry res fuel' hf hne h
    obtain ⟨f', rfl⟩ : ∃ f', fuel' = f' + 1 := ⟨fuel' - 1, by omega⟩
    unfold pushTraceLoop at h ⊢
    by_cases hd : t.depth = 0
    · rw [if_pos hd] at h ⊢
      cases arena with
      | nil => exact absurd rfl hne
      | cons y ys =>
        simp only [Except.ok.injEq] at h
        subst h
        exact ⟨by simp, rfl⟩
    · rw [if_neg hd] at h ⊢
      cases he : arena[entry]? with
      | none => simp [he] at h
      | some e =>
        rw [he] at h
        rw [together_get he]
        simp only at h ⊢
        rw [place_trace]
        by_cases hdep : e.trace.depth = t.depth - 1
        · rw [if_pos hdep] at h ⊢
          have hlen := together_length (o := o) (os := os) hne
          have hpos : arena.length ≠ 0 := by
            intro h0; exact hne (List.eq_nil_of_length_eq_zero h0)
          have eid : (together (o :: os) arena).length = movedTo os.length arena.length := by
            rw [hlen, movedTo, if_neg hpos]; omega
          have hi : entry < arena.length := (List.getElem?_eq_some_iff.1 he).1
          have enode : (⟨some (movedTo os.length entry), [], movedTo os.length arena.length, t, [], []⟩ : Node) =
              movedNode os.length ⟨some entry, [], arena.length, t, [], []⟩ := rfl
          cases kind with
          | pushAndAttachToParent =>
            simp only [Except.ok.injEq] at h
            subst h
            refine ⟨by simp, ?_⟩
            simp only [eid, ← place_attach, together_set _ hi]
            rw [together_append (by simpa using hne), enode]
          | pushOnly =>
            simp only [Except.ok.injEq] at h
            subst h
            refine ⟨by simp, ?_⟩
            simp only [eid]
            rw [together_append hne, enode]
        · rw [if_neg hdep] at h ⊢
          cases hc : e.children.getLast? with
          | none => simp [hc] at h
          | some c =>
            rw [hc] at h
            rw [place_last _ _ _ _ hc]
            exact ih arena c res f' (by omega) hne h

theorem startTraceOnCall_shared {o : Node} {os : List Node} {left : List StackStep} {s s' s1 : TI}
    (hs : Shared o os left s s') {c : Ctx} {a : Address} {d : Bytes} {v : U256} {k : CallKind}
    {cl : Address} {g : Nat} {p : Option Bool}
    (h : s.startTraceOnCall c a d v k cl g p = .ok s1) :
    ∃ s1', s'.startTraceOnCall c a d v k cl g p = .ok s1' ∧ Shared o os left s1 s1' := by
  have hemp : s'.traceStack.isEmpty = s.traceStack.isEmpty := by rw [hs.traceStack]; simp
  unfold TI.startTraceOnCall at h ⊢
  rw [hemp, hs.arena, hs.specId]
  simp only at h ⊢
  split at h
  · exact absurd h (by simp)
  · next arena id hp =>
    simp only [Except.ok.injEq] at h
    subst h
    have hl := together_length (o := o) (os := os) hs.nonempty
    have hp' := pushTraceLoop_shared (o := o) (os := os) _ _ _ _
      ((together (o :: os) s.arena).length + 1) (by omega) hs.nonempty hp
    have hp2 := hp'.2
    have e0 : movedTo os.length 0 = 0 := rfl
    rw [e0] at hp2
    rw [pushTrace, hp2]
    refine ⟨_, rfl, hp'.1, rfl, ?_, hs.stepStack, rfl⟩
    show _ :: s'.traceStack = _
    rw [hs.traceStack]
    rfl

theorem withLastTrace_shared {o : Node} {os : List Node} {left : List StackStep} {s s' s1 : TI}
    (hs : Shared o os left s s') {f : Nat → Node → Node}
    (hf : ∀ i x, place os.length o i (f i x) = f (movedTo os.length i) (place os.length o i x))
    (h : s.withLastTrace f = .ok s1) : ∃ s1', s'.withLastTrace f = .ok s1' ∧ Shared o os left s1 s1' := by
  unfold TI.withLastTrace at h ⊢
  have hstk := hs.traceStack
  rw [hstk]
  cases ht : s.traceStack with
  | nil => rw [ht] at h; simp at h
  | cons idx rest =>
    rw [ht] at h
    simp only [List.map_cons] at h ⊢
    cases hn : s.arena[idx]? with
    | none => rw [hn] at h; simp at h
    | some x =>
      rw [hn] at h
      rw [hs.arena, together_get hn]
      simp only [Except.ok.injEq] at h ⊢
      subst h
      have hi : idx < s.arena.length := (List.getElem?_eq_some_iff.1 hn).1
      refine ⟨_, rfl, by simpa using hs.nonempty, ?_, rfl, hs.stepStack, hs.specId⟩
      show (together (o :: os) s.arena).set _ _ = together (o :: os) (s.arena.set idx (f idx x))
      rw [← hf, together_set _ hi]

theorem place_setTrace (n : Nat) (o : Node) (i : Nat) (x : Node) (t : CallTrace) :
    place n o i { x with trace := t } = { place n o i x with trace := t } := by
  unfold place; split <;> rfl

theorem fillTraceOnCallEnd_shared {o : Node} {os : List Node} {left : List StackStep} {s s' s1 : TI}
    (hs : Shared o os left s s') {c : Ctx} {r : InterpreterResult} {a : Option Address}
    (h : s.fillTraceOnCallEnd c r a = .ok s1) :
    ∃ s1', s'.fillTraceOnCallEnd c r a = .ok s1' ∧ Shared o os left s1 s1' := by
  unfold TI.fillTraceOnCallEnd at h ⊢
  rw [hs.traceStack]
  cases ht : s.traceStack with
  | nil => rw [ht] at h; simp at h
  | cons idx rest =>
    rw [ht] at h
    simp only [List.map_cons] at h ⊢
    cases hn : s.arena[idx]? with
    | none => rw [hn] at h; simp at h
    | some x =>
      rw [hn] at h
      rw [hs.arena, together_get hn]
      simp only [Except.ok.injEq] at h ⊢
      subst h
      have hi : idx < s.arena.length := (List.getElem?_eq_some_iff.1 hn).1
      refine ⟨_, rfl, by simpa using hs.nonempty, ?_, rfl, hs.stepStack, hs.specId⟩
      have e : TI.fillTrace c (movedTo os.length idx) r a (place os.length o idx x).trace =
          TI.fillTrace c idx r a x.trace := by
        rw [place_trace]
        unfold TI.fillTrace
        simp only [movedTo_zero]
      show (together (o :: os) s.arena).set _ _ = together (o :: os) (s.arena.set idx _)
      rw [e, ← place_setTrace, together_set _ hi]

theorem place_pushStep (n : Nat) (o : Node) (i : Nat) (x : Node) (st : CallTraceStep) :
    place n o i (TI.pushStep st x) = TI.pushStep st (place n o i x) := by
  unfold place
  split
  · simp [sharedRoot, TI.pushStep, movedMember]
  · simp [movedNode, TI.pushStep]

theorem startStep_shared {cfg : Config} {o : Node} {os : List Node} {left : List StackStep} {s s' s1 : TI}
    (hs : Shared o os left s s') {i : Interp} {c : Ctx} (h : TI.startStep cfg s i c = .ok s1) :
    ∃ s1', TI.startStep cfg s' i c = .ok s1' ∧ Shared o os left s1 s1' := by
  unfold TI.startStep at h ⊢
  rw [hs.traceStack]
  cases ht : s.traceStack with
  | nil => rw [ht] at h; simp at h
  | cons idx rest =>
    rw [ht] at h
    simp only [List.map_cons] at h ⊢
    cases hn : s.arena[idx]? with
    | none => rw [hn] at h; simp at h
    | some x =>
      rw [hn] at h
      rw [hs.arena, together_get hn]
      have hi : idx < s.arena.length := (List.getElem?_eq_some_iff.1 hn).1
      simp only [place_trace] at h ⊢
      split at h
      · next hr =>
        rw [if_pos hr]
        simp only [Except.ok.injEq] at h
        subst h
        refine ⟨_, rfl, hs.nonempty, rfl, rfl, ?_, hs.specId⟩
        show _ :: s'.stepStack = _
        rw [hs.stepStack]; rfl
      · next hr =>
        rw [if_neg hr]
        simp only [Except.ok.injEq] at h
        subst h
        refine ⟨_, rfl, by simpa using hs.nonempty, ?_, rfl, ?_, hs.specId⟩
        · show (together (o :: os) s.arena).set _ _ = together (o :: os) (s.arena.set idx _)
          rw [← together_set _ hi]
          congr 1
          unfold TI.startStepNode
          rw [place_pushStep, place_trace]
        · show _ :: s'.stepStack = _
          rw [hs.stepStack]; rfl

theorem fillStepOnStepEnd_shared {cfg : Config} {o : Node} {os : List Node} {left : List StackStep}
    {s s' s1 : TI} (hs : Shared o os left s s') {i : Interp} {c : Ctx}
    (h : TI.fillStepOnStepEnd cfg s i c = .ok s1) :
    ∃ s1', TI.fillStepOnStepEnd cfg s' i c = .ok s1' ∧ Shared o os left s1 s1' := by
  unfold TI.fillStepOnStepEnd at h ⊢
  rw [hs.stepStack]
  cases ht : s.stepStack with
  | nil => rw [ht] at h; simp at h
  | cons st rest =>
    rw [ht] at h
    simp only [List.map_cons, List.cons_append] at h ⊢
    split at h
    · next hr =>
      rw [if_pos hr]
      simp only [Except.ok.injEq] at h
      subst h
      exact ⟨_, rfl, hs.nonempty, hs.arena, hs.traceStack, rfl, hs.specId⟩
    · next hr =>
      rw [if_neg hr]
      cases hn : s.arena[st.traceIdx]? with
      | none => rw [hn] at h; simp at h
      | some x =>
        rw [hn] at h
        rw [hs.arena, together_get hn]
        have hi : st.traceIdx < s.arena.length := (List.getElem?_eq_some_iff.1 hn).1
        simp only [place_trace] at h ⊢
        cases hst : x.trace.steps[st.stepIdx]? with
        | none => rw [hst] at h; simp at h
        | some step =>
          rw [hst] at h
          simp only at h ⊢
          cases hfs : TI.fillStep cfg i c step with
          | error e => rw [hfs] at h; simp at h
          | ok step' =>
            rw [hfs] at h
            simp only [Except.ok.injEq] at h ⊢
            subst h
            refine ⟨_, rfl, by simpa using hs.nonempty, ?_, hs.traceStack, rfl, hs.specId⟩
            show (together (o :: os) s.arena).set _ _ = together (o :: os) (s.arena.set st.traceIdx _)
            rw [← place_setTrace, together_set _ hi]

theorem activeTrace_shared {o : Node} {os : List Node} {left : List StackStep} {s s' : TI}
    (hs : Shared o os left s s') {r : Option Node} (h : s.activeTrace = .ok r) :
    ∃ r', s'.activeTrace = .ok r' ∧ r'.map (·.trace) = r.map (·.trace) := by
  unfold TI.activeTrace at h ⊢
  rw [hs.traceStack]
  cases ht : s.traceStack with
  | nil => rw [ht] at h; simp only [Except.ok.injEq] at h; subst h; exact ⟨none, rfl, rfl⟩
  | cons idx rest =>
    rw [ht] at h
    simp only [List.map_cons] at h ⊢
    cases hn : s.arena[idx]? with
    | none => rw [hn] at h; simp at h
    | some x =>
      rw [hn] at h
      simp only [Except.ok.injEq] at h
      subst h
      rw [hs.arena, together_get hn]
      exact ⟨_, rfl, by simp [place_trace]⟩

theorem call_shared {cfg : Config} {o : Node} {os : List Node} {left : List StackStep} {s s' s1 : TI}
    (hs : Shared o os left s s') {c : Ctx} {inp : CallInputs} (h : TI.call cfg s c inp = .ok s1) :
    ∃ s1', TI.call cfg s' c inp = .ok s1' ∧ Shared o os left s1 s1' := by
  have hpre : ∀ a v, s'.isPrecompileCall c a v = s.isPrecompileCall c a v := by
    intro a v
    unfold TI.isPrecompileCall TI.isDeep
    rw [hs.traceStack]
    simp
  unfold TI.call at h ⊢
  simp only [hpre] at h ⊢
  cases hv : inp.scheme with
  | DelegateCall =>
    rw [hv] at h
    simp only at h ⊢
    cases ha : s.activeTrace with
    | error e => rw [ha] at h; simp at h
    | ok r =>
      obtain ⟨r', hr', hm⟩ := activeTrace_shared hs ha
      rw [ha] at h
      rw [hr']
      cases r with
      | none =>
        cases r' with
        | none => exact startTraceOnCall_shared hs h
        | some y => simp at hm
      | some x =>
        cases r' with
        | none => simp at hm
        | some y =>
          simp only [Option.map_some, Option.some.injEq] at hm
          simp only at h ⊢
          rw [hm]
          exact startTraceOnCall_shared hs h
  | Call => rw [hv] at h; exact startTraceOnCall_shared hs h
  | StaticCall => rw [hv] at h; exact startTraceOnCall_shared hs h
  | CallCode => rw [hv] at h; exact startTraceOnCall_shared hs h

theorem hook_shared {cfg : Config} {o : Node} {os : List Node} {left : List StackStep} {s s' s1 : TI}
    (hs : Shared o os left s s') {e : Event} (h : TI.hook cfg s e = .ok s1) :
    ∃ s1', TI.hook cfg s' e = .ok s1' ∧ Shared o os left s1 s1' := by
  cases e with
  | step i c =>
    simp only [TI.hook] at h ⊢
    split at h
    · next hr => rw [if_pos hr]; exact startStep_shared hs h
    · next hr =>
      rw [if_neg hr]
      cases h
      exact ⟨_, rfl, hs⟩
  | stepEnd i c =>
    simp only [TI.hook] at h ⊢
    split at h
    · next hr => rw [if_pos hr]; exact fillStepOnStepEnd_shared hs h
    · next hr =>
      rw [if_neg hr]
      cases h
      exact ⟨_, rfl, hs⟩
  | log c l =>
    simp only [TI.hook] at h ⊢
    split at h
    · next hr =>
      rw [if_pos hr]
      refine withLastTrace_shared hs (fun i x => ?_) h
      unfold place
      split
      · simp [sharedRoot, TI.logNode, movedMember]; omega
      · simp [movedNode, TI.logNode]
    · next hr =>
      rw [if_neg hr]
      cases h
      exact ⟨_, rfl, hs⟩
  | call c inp => exact call_shared hs h
  | callEnd c inp r => exact fillTraceOnCallEnd_shared hs h
  | create c inp => exact startTraceOnCall_shared hs h
  | createEnd c inp r a => exact fillTraceOnCallEnd_shared hs h
  | selfdestruct a t v =>
    refine withLastTrace_shared hs (fun i x => ?_) h
    unfold place
    split <;> rfl

theorem run_shared {cfg : Config} {o : Node} {os : List Node} {left : List StackStep} (es : List Event) :
    ∀ {s s' s1 : TI}, Shared o os left s s' → TI.run cfg s es = .ok s1 →
    ∃ s1', TI.run cfg s' es = .ok s1' ∧ Shared o os left s1 s1' := by
  induction es with
  | nil =>
    intro s s' s1 hs h
    cases h
    exact ⟨_, rfl, hs⟩
  | cons e es ih =>
    intro s s' s1 hs h
    rw [TI.run] at h ⊢
    cases hh : TI.hook cfg s e with
    | error p => rw [hh] at h; simp at h
    | ok m =>
      rw [hh] at h
      obtain ⟨m', hm', hsm⟩ := hook_shared hs hh
      rw [hm']
      exact ih hsm h

/-- Entering the root of the second transaction. -/
theorem enter_shared {cfg : Config} {s' : TI} {o : Node} {os : List Node} (hempty : s'.traceStack = [])
    (harena : s'.arena = o :: os) (h : Header) {s1 : TI}
    (hr : TI.hook cfg TI.new (h.enter 0) = .ok s1) :
    ∃ s1', TI.hook cfg s' (h.enter 0) = .ok s1' ∧ Shared o os s'.stepStack s1 s1' := by
  have key : ∀ (c : Ctx) a d v k cl g p, TI.new.startTraceOnCall (c.at 0) a d v k cl g p = .ok s1 →
      ∃ s1', s'.startTraceOnCall (c.at 0) a d v k cl g p = .ok s1' ∧ Shared o os s'.stepStack s1 s1' := by
    intro c a d v k cl g p h1
    unfold TI.startTraceOnCall at h1 ⊢
    rw [hempty, harena]
    cases h1
    refine ⟨_, rfl, by simp [TI.new, Arena.default], ?_, rfl, rfl, rfl⟩
    simp [TI.new, Arena.default, together, sharedRoot]
  have hpre : ∀ c a v, s'.isPrecompileCall c a v = TI.new.isPrecompileCall c a v := by
    intro c a v
    unfold TI.isPrecompileCall TI.isDeep
    rw [hempty]; rfl
  have hact : s'.activeTrace = TI.new.activeTrace := by
    unfold TI.activeTrace; rw [hempty]; rfl
  cases h with
  | call c inp =>
    simp only [Header.enter, TI.hook, TI.call] at hr ⊢
    simp only [hpre, hact]
    cases hv : inp.scheme <;> rw [hv] at hr <;> exact key _ _ _ _ _ _ _ _ hr
  | create c inp => exact key _ _ _ _ _ _ _ _ hr

/-- A transaction recorded by an inspector that has no open frame. -/
theorem unfused_one {cfg : Config} {t : Tx} (hwf : t.WF) (hsafe : Safe cfg t.body) {s s' : TI} {o : Node}
    {os : List Node} (hempty : s'.traceStack = []) (harena : s'.arena = o :: os)
    (hr : TI.run cfg TI.new t.events = .ok s) :
    ∃ s1, TI.run cfg s' t.events = .ok s1 ∧ s1.traceStack = [] ∧ s1.arena = together (o :: os) s.arena ∧
      s.arena ≠ [] := by
  obtain ⟨s2, hr2, hst, -⟩ := Rec.run_tx cfg t hwf.2.2 hsafe
  rw [hr] at hr2
  cases hr2
  rw [Tx.events, TI.run] at hr
  rw [Tx.events, TI.run]
  cases hh : TI.hook cfg TI.new (t.hdr.enter 0) with
  | error e => rw [hh] at hr; simp at hr
  | ok m =>
    rw [hh] at hr
    obtain ⟨m', hm', hsm⟩ := enter_shared hempty harena t.hdr hh
    rw [hm']
    obtain ⟨s1, hs1, hsh⟩ := run_shared _ hsm hr
    exact ⟨s1, hs1, by rw [hsh.traceStack, hst]; rfl, hsh.arena, hsh.nonempty⟩

theorem together_ne {o : Node} {os second : List Node} (h : second ≠ []) :
    ∃ o' os', together (o :: os) second = o' :: os' := by
  cases second with
  | nil => exact absurd rfl h
  | cons y ys => exact ⟨_, _, rfl⟩

theorem unfused_all {cfg : Config} (r : Tx → TI) : ∀ (ts : List Tx) (s' : TI), s'.traceStack = [] →
    s'.arena ≠ [] →
    (∀ u ∈ ts, (u.WF ∧ Safe cfg u.body) ∧ TI.run cfg TI.new u.events = .ok (r u)) →
    ∃ s, TI.run cfg s' (ts.flatMap Tx.events) = .ok s ∧ s.traceStack = [] ∧
      s.arena = (ts.map (fun u => (r u).arena)).foldl together s'.arena := by
  intro ts
  induction ts with
  | nil => intro s' h1 h2 _; exact ⟨s', rfl, h1, rfl⟩
  | cons t ts ih =>
    intro s' h1 h2 hall
    obtain ⟨o, os, ha⟩ := List.exists_cons_of_ne_nil h2
    obtain ⟨⟨hwf, hsafe⟩, hr⟩ := hall t (by simp)
    obtain ⟨m, hm, hst, har, hne⟩ := unfused_one hwf hsafe h1 ha hr
    obtain ⟨o', os', he⟩ := together_ne (o := o) (os := os) hne
    obtain ⟨s, hs, hs2, hs3⟩ := ih m hst (by rw [har, he]; simp) (fun u hu => hall u (by simp [hu]))
    refine ⟨s, ?_, hs2, ?_⟩
    · rw [List.flatMap_cons, Rec.run_append_ok hm, hs]
    · rw [hs3, har, ha]; rfl

/-! ## C120 -/

/-- **C120**, exactly. If an inspector records several transactions without `fuse` in between, then it holds
the frames of all of them: the root is the root of the last one, but with the children, logs and ordering of
all roots; the other frames follow in the order of the transactions, each belonging to the frame it belongs
to in a separate recording. -/
theorem C120_exact (cfg : Config) (r : Tx → TI) (t : Tx) (ts : List Tx)
    (hall : ∀ u ∈ t :: ts, (u.WF ∧ Safe cfg u.body) ∧ TI.run cfg TI.new u.events = .ok (r u)) :
    ∃ s, TI.run cfg TI.new ((t :: ts).flatMap Tx.events) = .ok s ∧ s.traceStack = [] ∧
      s.arena = (ts.map (fun u => (r u).arena)).foldl together (r t).arena := by
  obtain ⟨⟨hwf, hsafe⟩, hr⟩ := hall t (by simp)
  obtain ⟨s2, hr2, hst, har, -⟩ := Rec.run_tx cfg t hwf.2.2 hsafe
  rw [hr] at hr2
  cases hr2
  obtain ⟨s, hs, h1, h2⟩ := unfused_all r ts (r t) hst (by rw [har]; simp [Rec.txArena])
    (fun u hu => hall u (by simp [hu]))
  exact ⟨s, by rw [List.flatMap_cons, Rec.run_append_ok hr, hs], h1, h2⟩

theorem map_movedTo_zero (l : List Nat) : l.map (movedTo 0) = l := by
  have : movedTo 0 = id := by funext i; unfold movedTo; split <;> simp_all
  rw [this, List.map_id]

theorem map_movedMember_zero (l : List TraceMemberOrder) : l.map (movedMember 0 0) = l := by
  have : movedMember 0 0 = id := by funext i; cases i <;> rfl
  rw [this, List.map_id]

theorem movedNode_zero (x : Node) : movedNode 0 x = x := by
  have h0 : movedTo 0 = id := by funext i; unfold movedTo; split <;> simp_all
  simp [movedNode, h0]

/-- **C120**, when it holds. Of two transactions recorded without `fuse` the recording is that of the second
(as a new inspector makes it) exactly if the first entered no frame below its root and recorded no step and
no log in it. -/
theorem C120_when (cfg : Config) (t1 t2 : Tx) (h1 : t1.WF ∧ Safe cfg t1.body)
    (h2 : t2.WF ∧ Safe cfg t2.body) :
    ∃ s2 s, TI.run cfg TI.new t2.events = .ok s2 ∧ TI.run cfg TI.new (t1.events ++ t2.events) = .ok s ∧
      (s.arena = s2.arena ↔ frames t1 = [rootOf t1] ∧ items cfg (rootOf t1) = []) := by
  obtain ⟨s1, hr1, hlen, hC5⟩ := C05_ordering_is_execution_order cfg t1 h1.1 h1.2
  obtain ⟨s2, hr2, hlen2, -⟩ := C05_ordering_is_execution_order cfg t2 h2.1 h2.2
  obtain ⟨s1', hr1', hst, -⟩ := Rec.run_tx cfg t1 h1.1.2.2 h1.2
  rw [hr1] at hr1'
  cases hr1'
  have hl1 := C04_links cfg _ _ hr1
  have hl2 := C04_links cfg _ _ hr2
  obtain ⟨o, os, ho⟩ := List.exists_cons_of_ne_nil hl1.nonempty
  obtain ⟨x, xs, hx⟩ := List.exists_cons_of_ne_nil hl2.nonempty
  obtain ⟨s, hs, -, har, -⟩ := unfused_one h2.1 h2.2 hst ho hr2
  refine ⟨s2, s, hr2, by rw [Rec.run_append_ok hr1, hs], ?_⟩
  have hor := hC5 0 (rootOf t1) o rfl (by rw [ho]; rfl)
  have hoo := hl1.root o (by rw [ho]; rfl)
  have hxx := hl2.root x (by rw [hx]; rfl)
  have hoi := hl1.idx 0 o (by rw [ho]; rfl)
  have hxi := hl2.idx 0 x (by rw [hx]; rfl)
  rw [har, hx]
  constructor
  · intro he
    have hlen' := congrArg List.length he
    rw [together_length (by simp)] at hlen'
    have hos : os = [] := List.eq_nil_of_length_eq_zero (by omega)
    subst hos
    simp only [together, List.cons.injEq] at he
    have hord := congrArg (fun y : Node => y.ordering.length) he.1
    simp only [sharedRoot, List.length_append, List.length_map] at hord
    have hord0 : o.ordering = [] := List.eq_nil_of_length_eq_zero (by omega)
    constructor
    · rw [ho] at hlen
      unfold frames at hlen ⊢
      simp only [List.length_cons, List.length_nil] at hlen
      rw [List.eq_nil_of_length_eq_zero (l := subFrames 1 0 (valueInScope none t1.hdr) 1 t1.body) (by omega)]
      rfl
    · have := hor.1
      rw [hord0] at this
      simpa using this.symm
  · rintro ⟨hf, hi⟩
    rw [hf, ho] at hlen
    have hos : os = [] := List.eq_nil_of_length_eq_zero (by simpa using hlen)
    subst hos
    rw [hi] at hor
    obtain ⟨e1, -, e3, e4⟩ := hor
    have hlogs : o.logs = [] := by simpa [logItems] using e3
    have hord : o.ordering = [] := by simpa using e1
    have hch : o.children = [] := by simpa [callItems] using e4
    simp only [together, List.cons.injEq, List.nil_append]
    refine ⟨?_, ?_⟩
    · unfold sharedRoot
      simp only [hch, hlogs, hord, List.nil_append, List.length_nil, map_movedTo_zero, map_movedMember_zero]
      rw [hoo.1, hoi, ← hxx.1]
      cases x
      simp_all
    · have : movedNode ([] : List Node).length = id := by funext y; exact movedNode_zero y
      rw [this, List.map_id]

/-- **C120**, the part that holds: after a transaction that did nothing but enter and leave its root (a plain
transfer, or one that failed at once) the next one is recorded as by a new inspector. -/
theorem C120_plain_partial (cfg : Config) (t1 t2 : Tx) (h1 : t1.WF) (h2 : t2.WF ∧ Safe cfg t2.body)
    (hb : t1.body = .nil) :
    ∃ s2 s, TI.run cfg TI.new t2.events = .ok s2 ∧ TI.run cfg TI.new (t1.events ++ t2.events) = .ok s ∧
      s.arena = s2.arena := by
  obtain ⟨s2, s, hr2, hr, he⟩ := C120_when cfg t1 t2 ⟨h1, by rw [hb]; trivial⟩ h2
  exact ⟨s2, s, hr2, hr, he.2 ⟨by unfold frames rootOf; rw [hb]; rfl,
    by unfold items rootOf; simp only [hb]; rfl⟩⟩

/-- **C120** does not hold: the example, recorded after itself, has eight frames instead of four below its
root, the first four of which are of the first transaction. -/
theorem C120_refuted : ∃ t : Tx, t.WF ∧ (∀ cfg, Safe cfg t.body) ∧
    ∃ s2 s, TI.run Config.all TI.new t.events = .ok s2 ∧
      TI.run Config.all TI.new (t.events ++ t.events) = .ok s ∧
      s2.arena.map (·.parent) = [none, some 0, some 1, some 0, some 0] ∧
      s.arena.map (·.parent) =
        [none, some 0, some 1, some 0, some 0, some 0, some 5, some 0, some 0] :=
  ⟨Example.tx, Example.wf, Example.safe, _, _, rfl, rfl, by decide, by decide⟩

/-- The example, with the plain transfer of its header before it, meets the hypotheses of
`C120_plain_partial`. -/
example : ∃ s2 s, TI.run Config.all TI.new Example.tx.events = .ok s2 ∧
    TI.run Config.all TI.new (({ Example.tx with body := .nil } : Tx).events ++ Example.tx.events) = .ok s ∧
    s.arena = s2.arena :=
  C120_plain_partial Config.all _ _ ⟨Example.wf.1, fun _ => rfl, trivial⟩ ⟨Example.wf, Example.safe _⟩ rfl

end Verif.Props
