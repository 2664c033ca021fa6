import Verif.Lemmas.Frames
import Verif.Spec.Observe
/-! The chronological record of a node. -/
namespace Verif
namespace Rec
open Spec

/-- The node's lists are those of `its`. -/
structure Good (x : Node) (its : List Item) : Prop where
  ord : x.ordering.map (resolve x) = its.map some
  steps : x.trace.steps.map readStep = stepItems its
  logs : x.logs.map (·.rawLog) = logItems its
  calls : x.children = callItems its

theorem resolve_mono {x x' : Node} {ss : List CallTraceStep} {ls : List CallLog} {cs : List Nat}
    (hs : x'.trace.steps = x.trace.steps ++ ss) (hl : x'.logs = x.logs ++ ls)
    (hc : x'.children = x.children ++ cs) {o : TraceMemberOrder} {it : Item}
    (h : resolve x o = some it) : resolve x' o = some it := by
  have aux : ∀ {α : Type} (l r : List α) (i : Nat) (a : α), l[i]? = some a → (l ++ r)[i]? = some a := by
    intro α l r i a h
    rw [List.getElem?_append_left (List.getElem?_eq_some_iff.1 h).1]; exact h
  cases o with
  | step i =>
    simp only [resolve, Option.map_eq_some_iff] at h ⊢
    obtain ⟨a, ha, hb⟩ := h
    exact ⟨a, by rw [hs]; exact aux _ _ _ _ ha, hb⟩
  | log i =>
    simp only [resolve, Option.map_eq_some_iff] at h ⊢
    obtain ⟨a, ha, hb⟩ := h
    exact ⟨a, by rw [hl]; exact aux _ _ _ _ ha, hb⟩
  | call i =>
    simp only [resolve, Option.map_eq_some_iff] at h ⊢
    obtain ⟨a, ha, hb⟩ := h
    exact ⟨a, by rw [hc]; exact aux _ _ _ _ ha, hb⟩

theorem map_resolve_mono {x x' : Node} {ss : List CallTraceStep} {ls : List CallLog} {cs : List Nat}
    (hs : x'.trace.steps = x.trace.steps ++ ss) (hl : x'.logs = x.logs ++ ls)
    (hc : x'.children = x.children ++ cs) (os : List TraceMemberOrder) : ∀ its : List Item,
    os.map (resolve x) = its.map some → os.map (resolve x') = its.map some := by
  induction os with
  | nil => intro its h; simpa using h
  | cons o os ih =>
    intro its h
    cases its with
    | nil => simp at h
    | cons it its =>
      simp only [List.map_cons, List.cons.injEq] at h ⊢
      exact ⟨resolve_mono hs hl hc h.1, ih its h.2⟩

theorem Good.pushStep {x : Node} {its : List Item} (h : Good x its) (st : CallTraceStep) :
    Good (TI.pushStep st x) (its ++ [.step (readStep st)]) where
  ord := by
    rw [show (TI.pushStep st x).ordering = x.ordering ++ [.step x.trace.steps.length] from rfl,
      List.map_append, List.map_append]
    rw [map_resolve_mono (x := x) (x' := TI.pushStep st x) (ss := [st]) (ls := []) (cs := []) rfl
      (by simp [TI.pushStep]) (by simp [TI.pushStep]) _ _ h.ord]
    simp [resolve, TI.pushStep]
  steps := by simp [TI.pushStep, h.steps, stepItems]
  logs := by simp [TI.pushStep, h.logs, logItems]
  calls := by simp [TI.pushStep, h.calls, callItems]

theorem Good.log {x : Node} {its : List Item} (h : Good x its) (l : Log) :
    Good (TI.logNode l x) (its ++ [.log l.data]) where
  ord := by
    rw [show (TI.logNode l x).ordering = x.ordering ++ [.log x.logs.length] from rfl,
      List.map_append, List.map_append]
    rw [map_resolve_mono (x := x) (x' := TI.logNode l x) (ss := []) (ls := [CallLog.ofLog l])
      (cs := []) (by simp [TI.logNode]) rfl (by simp [TI.logNode]) _ _ h.ord]
    simp [resolve, TI.logNode, CallLog.ofLog]
  steps := by simp [TI.logNode, h.steps, stepItems]
  logs := by simp [TI.logNode, h.logs, logItems, CallLog.ofLog]
  calls := by simp [TI.logNode, h.calls, callItems]

theorem Good.attach {x : Node} {its : List Item} (h : Good x its) (n : Nat) :
    Good (x.attach n) (its ++ [.call n]) where
  ord := by
    rw [show (x.attach n).ordering = x.ordering ++ [.call x.children.length] from rfl,
      List.map_append, List.map_append]
    rw [map_resolve_mono (x := x) (x' := x.attach n) (ss := []) (ls := []) (cs := [n])
      (by simp [Node.attach]) (by simp [Node.attach]) rfl _ _ h.ord]
    simp [resolve, Node.attach]
  steps := by simp [Node.attach, h.steps, stepItems]
  logs := by simp [Node.attach, h.logs, logItems]
  calls := by simp [Node.attach, h.calls, callItems]

/-- `Good` only looks at four fields. -/
theorem Good.congr {x x' : Node} {its : List Item} (h : Good x its) (h1 : x'.ordering = x.ordering)
    (h2 : x'.trace.steps = x.trace.steps) (h3 : x'.logs = x.logs) (h4 : x'.children = x.children) :
    Good x' its where
  ord := by
    rw [h1]
    exact map_resolve_mono (ss := []) (ls := []) (cs := []) (by simp [h2]) (by simp [h3])
      (by simp [h4]) _ _ h.ord
  steps := by rw [h2]; exact h.steps
  logs := by rw [h3]; exact h.logs
  calls := by rw [h4]; exact h.calls

theorem drop_eq_topItems (k : Nat) (l : List U256) : l.drop (l.length - k) = topItems k l := by
  unfold topItems
  rw [List.take_reverse, List.reverse_reverse]

theorem stepMemory_isSome (cfg : Config) (i : Interp) (prev : Option CallTraceStep) :
    (TI.stepMemory cfg i prev).isSome = cfg.recordMemorySnapshots := by
  unfold TI.stepMemory
  cases cfg.recordMemorySnapshots <;> simp

theorem isFull_iff (t : StackSnapshotType) : t.isFull = decide (t = .Full) := by cases t <;> rfl
theorem isPushes_iff (t : StackSnapshotType) : t.isPushes = decide (t = .Pushes) := by
  cases t <;> rfl

theorem readStep_newStep (cfg : Config) (d : Nat) (i : Interp) (c : Ctx)
    (prev : Option CallTraceStep) :
    readStep (TI.newStep cfg i (c.at d) prev) = stepView cfg d i none 0 .Continue := by
  simp [readStep, TI.newStep, stepView, stepMemory_isSome, Ctx.at, isFull_iff]

/-- The fields of a completed step. -/
theorem finishStep_fields {cfg : Config} {i' : Interp} {c' : Ctx} {st : CallTraceStep}
    (h1 : cfg.recordStackSnapshots.isPushes = true → Op.stackPushCount st.op ≤ i'.stack.length)
    (h2 : cfg.recordStateDiff = true → c'.JournalOK) :
    ∃ sc, finishStep cfg i' c' st = { st with
      pushStack := if cfg.recordStackSnapshots = .Pushes
        then some (topItems (Op.stackPushCount st.op) i'.stack) else st.pushStack
      storageChange := sc
      gasCost := st.gasRemaining - i'.gas.remaining
      status := i'.result } ∧
      (if cfg.recordStateDiff then TI.stepStorageChange st.op c' else .ok st.storageChange) = .ok sc := by
  have h := fillStep_ok h1 h2
  unfold TI.fillStep at h
  have hp : (if cfg.recordStackSnapshots.isPushes then
      if i'.stack.length < Op.stackPushCount st.op then (.error .arith : R (Option (List U256)))
      else .ok (some (i'.stack.drop (i'.stack.length - Op.stackPushCount st.op)))
    else .ok st.pushStack) = .ok (if cfg.recordStackSnapshots = .Pushes
        then some (topItems (Op.stackPushCount st.op) i'.stack) else st.pushStack) := by
    rw [isPushes_iff] at h1 ⊢
    by_cases hq : cfg.recordStackSnapshots = .Pushes
    · simp only [hq, decide_true, if_true]
      rw [if_neg (by have := h1 (by simp [hq]); omega), drop_eq_topItems]
    · simp [hq]
  simp only [hp] at h
  generalize hc : (if cfg.recordStateDiff then TI.stepStorageChange st.op c'
        else (.ok st.storageChange : R (Option StorageChange))) = y at h
  cases y with
  | error e => simp at h
  | ok sc =>
    simp only [Except.ok.injEq] at h
    exact ⟨sc, h.symm, rfl⟩

theorem readStep_finishStep {cfg : Config} {d : Nat} {i i' : Interp} {c c' : Ctx}
    {prev : Option CallTraceStep} (hrec : records cfg i.op = true) (hs : StepSafe cfg i c i' c') :
    readStep (finishStep cfg i' (c'.at d) (TI.newStep cfg i (c.at d) prev)) =
      stepView cfg d i (if cfg.recordStackSnapshots = .Pushes
              then some (topItems (Op.stackPushCount i.op) i'.stack) else none)
            (i.gas.remaining - i'.gas.remaining) i'.result := by
  obtain ⟨sc, h, _⟩ := finishStep_fields (cfg := cfg) (i' := i') (c' := c'.at d)
    (st := TI.newStep cfg i (c.at d) prev) (hs.1 hrec) hs.2
  rw [h]
  simp [readStep, TI.newStep, stepView, stepMemory_isSome, Ctx.at, isFull_iff]

theorem own_good (cfg : Config) (d p : Nat) (b : Body) (hwf : b.WF) (hsafe : Safe cfg b) :
    ∀ n x its, Good x its →
      Good (own cfg d n b x) (its ++ bodyItems cfg d p x.trace.value n b) := by
  induction b with
  | nil => intro n x its h; simpa [own, bodyItems] using h
  | act a rest ih =>
    intro n x its h
    have hs2 : Safe cfg rest := by
      cases a with
      | step i c i' c' => exact hsafe.2
      | _ => exact hsafe
    simp only [own, bodyItems]
    rw [← List.append_assoc]
    rw [← actNode_value cfg d a x]
    apply ih hwf hs2
    cases a with
    | step i c i' c' =>
      simp only [actNode, records_eq]
      split
      · rename_i hr
        rw [← readStep_finishStep (c := c) (by rw [records_eq]; exact hr) hsafe.1]; exact h.pushStep _
      · simpa using h
    | aborted i c =>
      simp only [actNode, records_eq]
      split
      · rw [← readStep_newStep cfg d i c]; exact h.pushStep _
      · simpa using h
    | log c l =>
      simp only [actNode]
      split
      · exact h.log l
      · simpa using h
    | selfdestruct a t v =>
      simpa [actNode] using h.congr (x' := TI.selfdestructNode a t v x) rfl rfl rfl rfl
  | sub h b o rest _ ih =>
    intro n x its hg
    simp only [own, bodyItems]
    rw [← List.append_assoc]
    have := ih hwf.2.2.2 hsafe.2 (n + 1 + b.size)
      (attachIf (enterTrace cfg (some x.trace.value) d h) n x)
    rw [attachIf_trace] at this
    apply this
    simp only [attachIf, excluded_eq cfg n p d _ h b o hwf.1]
    split
    · simpa using hg
    · simpa using hg.attach n

theorem nodeOf_good (cfg : Config) (f : FrameCtx) (hwf : f.body.WF) (hsafe : Safe cfg f.body) :
    Good (nodeOf cfg f) (items cfg f) := by
  have h := own_good cfg (f.depth + 1) f.index f.body hwf hsafe (f.index + 1)
    { parent := f.parent, idx := f.index, trace := enterTrace cfg f.parentValue f.depth f.hdr } []
    ⟨rfl, by cases f.hdr <;> simp [enterTrace, stepItems], rfl, rfl⟩
  simp only [List.nil_append, enterTrace_value] at h
  unfold items
  refine Good.congr h rfl ?_ rfl rfl
  simp only [nodeOf, leaveNode, TI.fillTrace]
  split <;> rfl

end Rec
end Verif
