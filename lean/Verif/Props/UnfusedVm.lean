import Verif.Lemmas.UnfusedVm
import Verif.Props.UnfusedTraces
/-! C137: the vm trace that is built after several transactions without `fuse`. -/
namespace Verif.Props
open Spec Rec Parity

/-- The state of an inspector that has recorded no frame but roots. -/
structure RootOnly (s : TI) (o : Node) : Prop where
  stack : s.traceStack = []
  arena : s.arena = [o]
  children : o.children = []
  parent : o.parent = none
  idx : o.idx = 0

theorem rootOnly_run {cfg : Config} (ts : List Tx) : ∀ (s : TI) (o : Node), RootOnly s o →
    (∀ v ∈ ts, (v.WF ∧ Safe cfg v.body) ∧ frames v = [rootOf v]) →
    ∃ s' o', TI.run cfg s (ts.flatMap Tx.events) = .ok s' ∧ RootOnly s' o' := by
  induction ts with
  | nil => intro s o h _; exact ⟨s, o, rfl, h⟩
  | cons v ts ih =>
    intro s o h hall
    obtain ⟨⟨hwf, hsafe⟩, halone⟩ := hall v (by simp)
    obtain ⟨r, hr, -, har, -⟩ := run_frames cfg v hwf hsafe
    have hl := C04_links cfg _ _ hr
    rw [halone] at har
    obtain ⟨m, hm, hmst, hmar, -⟩ := unfused_one hwf hsafe h.stack h.arena hr
    have hc : (nodeOf cfg (rootOf v)).children = [] := by
      have h0 : r.arena[0]? = some (nodeOf cfg (rootOf v)) := by rw [har]; rfl
      rw [hl.children 0 _ h0, har]
      have hp := (hl.root _ h0).1
      simp [List.range_succ, hp]
    obtain ⟨s', o', hs', h'⟩ := ih m (sharedRoot 0 o (nodeOf cfg (rootOf v)))
      { stack := hmst, arena := by rw [hmar, har]; rfl, children := by simp [sharedRoot, h.children, hc],
        parent := h.parent, idx := h.idx } (fun w hw => hall w (by simp [hw]))
    exact ⟨s', o', by rw [List.flatMap_cons, Rec.run_append_ok hm, hs'], h'⟩

/-- **C137**, for any number of earlier transactions that entered no frame: every parity response after the last
transaction is the one for this transaction alone: the vm trace, the traces of the requested types, and the
results with the state. Missing: earlier transactions with frames (`C137_refuted`). -/
theorem C137_alone_partial (cfg : Config) (ts : List Tx) (u : Tx) (hu : u.WF ∧ Safe cfg u.body)
    (hall : ∀ v ∈ ts, (v.WF ∧ Safe cfg v.body) ∧ frames v = [rootOf v]) :
    ∃ s1 s, TI.run cfg TI.new u.events = .ok s1 ∧
      TI.run cfg TI.new ((ts ++ [u]).flatMap Tx.events) = .ok s ∧
      vmTrace s.arena = vmTrace s1.arena ∧
      (∀ types, intoTraceTypeTraces s.arena types = intoTraceTypeTraces s1.arena types) ∧
      (∀ (ε : Type) (db : DB ε) gas out state types,
        intoTraceResultsWithState db s.arena gas out state types =
          intoTraceResultsWithState db s1.arena gas out state types) := by
  obtain ⟨r, hr, -⟩ := run_frames cfg u hu.1 hu.2
  have hl := C04_links cfg _ _ hr
  obtain ⟨s', o', hs', h'⟩ := rootOnly_run (cfg := cfg) ts TI.new _
    { stack := rfl, arena := rfl, children := rfl, parent := rfl, idx := rfl } hall
  obtain ⟨s, hs, -, har, -⟩ := unfused_one hu.1 hu.2 h'.stack h'.arena hr
  have hb : s.arena.map logless = r.arena.map logless := by
    obtain ⟨x, xs, hx⟩ := List.exists_cons_of_ne_nil hl.nonempty
    have h0 : r.arena[0]? = some x := by rw [hx]; rfl
    rw [har, hx]
    simp only [together, List.length_nil, List.nil_append, List.map_cons, List.map_map]
    congr 1
    · simp only [logless, sharedRoot, h'.children, h'.parent, h'.idx, map_movedTo_zero, List.nil_append]
      rw [← (hl.root _ h0).1, ← hl.idx 0 _ h0]
    · apply List.map_congr_left
      intro z _
      simp [movedNode_zero]
  refine ⟨r, s, hr, by rw [List.flatMap_append, Rec.run_append_ok hs']; simpa using hs, ?_, ?_, ?_⟩
  · rw [← vmTrace_logless, hb, vmTrace_logless]
  · intro types
    rw [← typeTraces_logless, hb, typeTraces_logless]
  · intro ε db gas out state types
    rw [← withState_logless, hb, withState_logless]

/-! ### Concrete cases -/

/-- The opcodes of the vm trace that is built, each with those of the call within. -/
def vmOpsOf (A : List Node) : List (OpCode × List OpCode) :=
  match vmTrace A with
  | .ok v => v.ops.map fun
    | .mk _ _ _ (some sub) op => (op, sub.ops.map fun | .mk _ _ _ _ op => op)
    | .mk _ _ _ none op => (op, [])
  | .error _ => []

/-- **C137** does not hold: of two transactions that each call a contract, the vm trace shows the call of the
second with the instruction that the callee of the *first* executed. -/
theorem C137_refuted : ∃ t1 t2 : Tx, (t1.WF ∧ ∀ cfg, Safe cfg t1.body) ∧
    (t2.WF ∧ ∀ cfg, Safe cfg t2.body) ∧
    ∃ s2 s, TI.run Config.all TI.new t2.events = .ok s2 ∧
      TI.run Config.all TI.new (t1.events ++ t2.events) = .ok s ∧
      vmOpsOf s2.arena = [(Op.CALL, [Op.SUB])] ∧ vmOpsOf s.arena = [(Op.CALL, [Op.ADD])] :=
  ⟨callerOf Op.ADD, callerOf Op.SUB, ⟨callerOf_wf _, fun _ => ⟨Example.stepSafe _ _ _ _ (by decide),
    ⟨Example.stepSafe _ _ _ _ (by decide), trivial⟩, trivial⟩⟩, ⟨callerOf_wf _, fun _ =>
    ⟨Example.stepSafe _ _ _ _ (by decide), ⟨Example.stepSafe _ _ _ _ (by decide), trivial⟩, trivial⟩⟩,
    _, _, rfl, rfl, by decide, by decide⟩

/-- Two plain transfers before a call meet the hypotheses of `C137_alone_partial`. -/
example : ∃ s, TI.run Config.all TI.new ((List.replicate 2 ({ callerOf Op.ADD with body := .nil } : Tx) ++
      [callerOf Op.SUB]).flatMap Tx.events) = .ok s ∧ vmOpsOf s.arena = [(Op.CALL, [Op.SUB])] := by
  obtain ⟨s1, s, h1, h2, h3, -⟩ := C137_alone_partial Config.all
    (List.replicate 2 { callerOf Op.ADD with body := .nil }) (callerOf Op.SUB)
    ⟨callerOf_wf _, ⟨Example.stepSafe _ _ _ _ (by decide), ⟨Example.stepSafe _ _ _ _ (by decide), trivial⟩,
      trivial⟩⟩
    (by
      intro v hv
      rw [(List.mem_replicate.mp hv).2]
      exact ⟨⟨⟨fun _ => rfl, fun _ => rfl, trivial⟩, trivial⟩, rfl⟩)
  refine ⟨s, h2, ?_⟩
  unfold vmOpsOf
  rw [h3]
  cases h1
  decide

end Verif.Props
