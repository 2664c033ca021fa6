import Verif.Lemmas.Items
import Verif.Spec.Example
/-!
# Property theorems about what the `TracingInspector` records
C03, C05, C06, C09, C10 (decision), C11, C14, C54.
-/
namespace Verif.Props
open Spec Rec

/-! ## C03 -/

theorem nodeOf_readFrame (cfg : Config) (f : FrameCtx) : readFrame (nodeOf cfg f) = frameData f := by
  have hp := own_parent cfg (f.depth + 1) f.body (f.index + 1)
    { parent := f.parent, idx := f.index, trace := enterTrace cfg f.parentValue f.depth f.hdr }
  have ht := own_trace cfg (f.depth + 1) f.body (f.index + 1)
    { parent := f.parent, idx := f.index, trace := enterTrace cfg f.parentValue f.depth f.hdr }
  have hv := enterTrace_value cfg f.parentValue f.depth f.hdr
  simp only [readFrame, nodeOf, leaveNode, TI.fillTrace, hp, ht, frameData, FrameCtx.value, ← hv]
  cases hh : f.hdr with
  | call c inp =>
    cases hs : inp.scheme <;> cases hl : lastSelfdestruct f.body <;>
      simp [Rec.created, createdAt, enterTrace, kind, caller, callee, input, hs, CallKind.ofCallScheme]
  | create c inp =>
    cases ho : f.out.address <;> cases hs : inp.scheme <;> cases hl : lastSelfdestruct f.body <;>
      simp [Rec.created, createdAt, enterTrace, kind, caller, callee, input, hs, ho,
        CallKind.ofCreateScheme]

/-- **C03, what is recorded.** For every configuration and every execution tree, recording the transaction
ends normally and the arena lists exactly the frames of the tree, in the order they were entered, each
node with its position and the data `frameData` of its frame (parent link, depth, kind, caller, address,
value, input, output, status, success, selfdestruct data). The address is the callee's only if the frame
did not selfdestruct, see `C03_exact`. Gas is the subject of C11. -/
theorem C03_recorded (cfg : Config) (t : Tx) (hwf : t.WF) (hsafe : Safe cfg t.body) :
    ∃ s, TI.run cfg TI.new t.events = .ok s ∧
      s.arena.map readFrame = (frames t).map frameData ∧
      s.arena.map (·.idx) = List.range (1 + t.body.size) := by
  obtain ⟨s, hr, _, har, _⟩ := run_frames cfg t hwf hsafe
  refine ⟨s, hr, ?_, ?_⟩
  · rw [har, List.map_map]
    apply List.map_congr_left
    intro f _
    exact nodeOf_readFrame cfg f
  · rw [har, List.map_map]
    apply List.ext_getElem?
    intro k
    have hlen : (frames t).length = 1 + t.body.size := by
      simp [frames, subFrames_length]; omega
    rw [List.getElem?_map]
    by_cases hk : k < 1 + t.body.size
    · have hlt : k < (frames t).length := by omega
      rw [List.getElem?_eq_getElem hlt, List.getElem?_range hk]
      have hi := frames_index (List.getElem?_eq_getElem hlt)
      simp only [Option.map_some, Function.comp, nodeOf, leaveNode, own_idx, hi]
    · rw [List.getElem?_eq_none (by omega), List.getElem?_eq_none (by simp; omega)]
      rfl

theorem frameData_true (f : FrameCtx) : frameData f = trueData f ↔
    (createdAt f.hdr f.out = none → ∀ x, lastSelfdestruct f.body = some x → x.1 = callee f.hdr) := by
  have : frameData f = trueData f ↔ (frameData f).address = (trueData f).address :=
    ⟨fun h => congrArg _ h, fun h => by simp only [trueData] at h ⊢; rw [← h]⟩
  rw [this]
  simp only [frameData, trueData]
  cases createdAt f.hdr f.out with
  | some a => simp
  | none =>
    cases lastSelfdestruct f.body with
    | none => simp
    | some x => obtain ⟨a, b, c⟩ := x; simp

/-- **C03, exactly.** Every node carries the data of its frame exactly if each frame in which a
selfdestruct was reported is a creation that reports its address or was called at the contract that
selfdestructed. -/
theorem C03_exact (cfg : Config) (t : Tx) (hwf : t.WF) (hsafe : Safe cfg t.body) :
    ∃ s, TI.run cfg TI.new t.events = .ok s ∧
      (s.arena.map readFrame = (frames t).map trueData ↔
        ∀ f ∈ frames t, createdAt f.hdr f.out = none →
          ∀ x, lastSelfdestruct f.body = some x → x.1 = callee f.hdr) := by
  obtain ⟨s, hr, h, _⟩ := C03_recorded cfg t hwf hsafe
  refine ⟨s, hr, ?_⟩
  rw [h, List.map_inj_left]
  exact ⟨fun h f hf => (frameData_true f).1 (h f hf), fun h f hf => (frameData_true f).2 (h f hf)⟩

/-- **C03** (partial: not if code that was called with DELEGATECALL or CALLCODE selfdestructs, see
`C03_exact` and the refutation). For every configuration and every execution tree in which selfdestructs
name the account that executes, recording the transaction ends normally and the arena lists exactly the
frames of the tree, in the order they were entered, each node with its position and the data of its
frame. -/
theorem C03_arena_is_call_tree_partial (cfg : Config) (t : Tx) (hwf : t.WF) (hsafe : Safe cfg t.body)
    (hsd : ∀ f ∈ frames t, ∀ x, lastSelfdestruct f.body = some x → x.1 = executingAs f.hdr)
    (hdel : ∀ f ∈ frames t, kind f.hdr = .DelegateCall ∨ kind f.hdr = .CallCode →
      lastSelfdestruct f.body = none) :
    ∃ s, TI.run cfg TI.new t.events = .ok s ∧
      s.arena.map readFrame = (frames t).map trueData ∧
      s.arena.map (·.idx) = List.range (1 + t.body.size) := by
  obtain ⟨s, hr, h⟩ := C03_exact cfg t hwf hsafe
  obtain ⟨s', hr', _, hidx⟩ := C03_recorded cfg t hwf hsafe
  obtain rfl : s = s' := by rw [hr] at hr'; simpa using hr'
  refine ⟨s, hr, h.2 fun f hf _ x hx => ?_, hidx⟩
  have hd := hdel f hf
  rw [hsd f hf x hx]
  rw [hx] at hd
  cases hh : f.hdr with
  | create c inp => rfl
  | call c inp =>
    rw [hh] at hd
    cases hs : inp.scheme <;> simp_all [kind, executingAs, callee]

/-- The contract 0xb calls the library 0xd with DELEGATECALL, which selfdestructs: 0xb is destroyed. -/
def destroysByLibrary : Tx where
  hdr := Example.callHdr .Call 0x99 0xb 0xb 0
  body :=
    .act (Example.stepAct Op.DELEGATECALL 0 200 .CallOrCreate)
      (.sub (Example.callHdr .DelegateCall 0x99 0xb 0xd 0) (.act (.selfdestruct 0xb 0xe 4) .nil)
        (Example.out .SelfDestruct) .nil)
  out := Example.out .Return

/-- **C03, refuted.** The node of the DELEGATECALL shows as its address the contract that called the
library instead of the library. -/
theorem C03_refuted : destroysByLibrary.WF ∧ (∀ cfg, Safe cfg destroysByLibrary.body) ∧
    (∀ f ∈ frames destroysByLibrary, ∀ x, lastSelfdestruct f.body = some x → x.1 = executingAs f.hdr) ∧
    (frames destroysByLibrary).map (fun f => (kind f.hdr, callee f.hdr)) =
      [(.Call, 0xb), (.DelegateCall, 0xd)] ∧
    ∀ cfg, ∃ s, TI.run cfg TI.new destroysByLibrary.events = .ok s ∧
      s.arena.map (fun x => (x.trace.kind, x.trace.address)) = [(.Call, 0xb), (.DelegateCall, 0xb)] := by
  have hwf : destroysByLibrary.WF := ⟨fun _ => rfl, fun h => absurd h (by decide),
    fun h => absurd h (by decide), fun h => absurd h (by decide), trivial, trivial⟩
  have hsafe : ∀ cfg, Safe cfg destroysByLibrary.body := fun cfg =>
    ⟨Example.stepSafe _ _ _ _ (by decide), trivial, trivial⟩
  refine ⟨hwf, hsafe, ?_, by decide, fun cfg => ?_⟩
  · intro f hf x hx
    simp only [frames, destroysByLibrary, subFrames, List.mem_cons, List.append_nil, List.not_mem_nil,
      or_false] at hf
    rcases hf with rfl | rfl
    · cases hx
    · cases hx; rfl
  · obtain ⟨s, hr, h, _⟩ := C03_recorded cfg _ hwf (hsafe cfg)
    refine ⟨s, hr, ?_⟩
    have h2 := congrArg (List.map fun d : FrameData => (d.kind, d.address)) h
    rw [List.map_map, List.map_map] at h2
    exact h2.trans (by decide)

/-- The hypotheses of C03 are met by the example, which has five frames of four kinds. -/
example : Example.tx.WF ∧ (∀ cfg, Safe cfg Example.tx.body) ∧
    (frames Example.tx).map (fun f => (f.parent, f.depth, kind f.hdr, f.value)) =
      [(none, 0, .Call, 11), (some 0, 1, .Call, 6), (some 1, 2, .DelegateCall, 6),
       (some 0, 1, .StaticCall, 0), (some 0, 1, .Create, 1)] :=
  ⟨Example.wf, Example.safe, by decide⟩

/-! ## C05 and C06 -/

/-- **C05.** For every configuration and execution tree, the ordering list of every node resolves,
entry by entry, to the chronological record of its frame; and the node's steps, logs and children
are exactly those of the record, so nothing is missing or duplicated. -/
theorem C05_ordering_is_execution_order (cfg : Config) (t : Tx) (hwf : t.WF)
    (hsafe : Safe cfg t.body) :
    ∃ s, TI.run cfg TI.new t.events = .ok s ∧ s.arena.length = (frames t).length ∧
      ∀ (k : Nat) (f : FrameCtx) (x : Node), (frames t)[k]? = some f → s.arena[k]? = some x →
        x.ordering.map (resolve x) = (items cfg f).map some ∧
        x.trace.steps.map readStep = stepItems (items cfg f) ∧
        x.logs.map (·.rawLog) = logItems (items cfg f) ∧
        x.children = callItems (items cfg f) := by
  obtain ⟨s, hr, _, har, _⟩ := run_frames cfg t hwf hsafe
  refine ⟨s, hr, by rw [har, List.length_map], ?_⟩
  intro k f x hf hx
  rw [har, List.getElem?_map, hf] at hx
  simp only [Option.map_some, Option.some.injEq] at hx
  have hm := List.mem_of_getElem? hf
  have hg := nodeOf_good cfg f (frames_wf hwf hm).2.1 (frames_all hsafe hm)
  rw [← hx]
  exact ⟨hg.ord, hg.steps, hg.logs, hg.calls⟩

/-- The record of the example's root frame interleaves steps, calls and (with logs on) logs. -/
example : callItems (items Config.all ⟨0, none, 0, none, Example.tx.hdr, Example.body, Example.out .Stop⟩)
      = [1, 3, 4] ∧
    (items Config.all ⟨1, some 0, 1, some 11, Example.callHdr .Call 0xa 0xb 0xb 6, Example.callee,
        Example.out .SelfDestruct⟩).map (fun | .step v => v.op.toNat | .log _ => 1000 | .call i => 2000 + i)
      = [1000, 0xf4, 2002] := by decide

/-- The steps a frame executes that pass the filter, as views. -/
def executedSteps (cfg : Config) (d : Nat) : Body → List StepView
  | .nil => []
  | .act (.step i _ i' _) rest =>
    (if records cfg i.op then
      [stepView cfg d i
        (if cfg.recordStackSnapshots = .Pushes
          then some (topItems (Op.stackPushCount i.op) i'.stack) else none)
        (i.gas.remaining - i'.gas.remaining) i'.result] else []) ++ executedSteps cfg d rest
  | .act (.aborted i _) rest =>
    (if records cfg i.op then [stepView cfg d i none 0 .Continue] else []) ++
      executedSteps cfg d rest
  | .act _ rest => executedSteps cfg d rest
  | .sub _ _ _ rest => executedSteps cfg d rest

theorem stepItems_append (a b : List Item) : stepItems (a ++ b) = stepItems a ++ stepItems b := by
  simp [stepItems]
theorem logItems_append (a b : List Item) : logItems (a ++ b) = logItems a ++ logItems b := by
  simp [logItems]
theorem callItems_append (a b : List Item) : callItems (a ++ b) = callItems a ++ callItems b := by
  simp [callItems]

theorem stepItems_body (cfg : Config) (d p : Nat) (v : U256) (b : Body) : ∀ n,
    stepItems (bodyItems cfg d p v n b) = executedSteps cfg d b := by
  induction b with
  | nil => intro n; rfl
  | act a rest ih =>
    intro n
    cases a <;> simp only [bodyItems, executedSteps, stepItems_append, ih] <;>
      (try split) <;> rfl
  | sub h b o rest _ ih =>
    intro n
    simp only [bodyItems, executedSteps, stepItems_append, ih]
    split <;> rfl

/-- **C06.** The steps of every node are exactly the instructions its frame executed whose opcode
passes the filter, in order; each shows pc, opcode, contract, remaining gas and depth (frames open)
as of before the instruction, gas cost (clamped at 0) and status as of after it; the stack, the
returndata and the pushed items are recorded exactly when configured, memory is present exactly when
configured (its contents are the subject of C07). With step recording off no node has a step. -/
theorem C06_steps_as_configured (cfg : Config) (t : Tx) (hwf : t.WF) (hsafe : Safe cfg t.body) :
    ∃ s, TI.run cfg TI.new t.events = .ok s ∧ s.arena.length = (frames t).length ∧
      (∀ (k : Nat) (f : FrameCtx) (x : Node), (frames t)[k]? = some f → s.arena[k]? = some x →
        x.trace.steps.map readStep = executedSteps cfg (f.depth + 1) f.body) ∧
      (cfg.recordSteps = false → ∀ x ∈ s.arena, x.trace.steps = []) := by
  obtain ⟨s, hr, hl, h⟩ := C05_ordering_is_execution_order cfg t hwf hsafe
  have h1 : ∀ (k : Nat) (f : FrameCtx) (x : Node), (frames t)[k]? = some f → s.arena[k]? = some x →
        x.trace.steps.map readStep = executedSteps cfg (f.depth + 1) f.body := by
    intro k f x hf hx
    rw [(h k f x hf hx).2.1, items, stepItems_body]
  refine ⟨s, hr, hl, h1, ?_⟩
  intro hoff x hx
  obtain ⟨k, hk⟩ := List.mem_iff_getElem?.1 hx
  have hlt := (List.getElem?_eq_some_iff.1 hk).1
  rw [hl] at hlt
  have h2 := h1 k _ x (List.getElem?_eq_getElem hlt) hk
  have h3 : ∀ b : Body, ∀ d, executedSteps cfg d b = [] := by
    intro b
    induction b with
    | nil => intro d; rfl
    | act a rest ih => intro d; cases a <;> simp [executedSteps, records, hoff, ih]
    | sub h b o rest _ ih => intro d; simp [executedSteps, ih]
  rw [h3] at h2
  simpa using h2

example : executedSteps Config.all 1 Example.body ≠ [] ∧
    (executedSteps Config.all 1 Example.body).map (fun v => (v.op, v.gasCost)) =
      [(Op.ADD, 3), (Op.CALL, 3), (Op.STATICCALL, 3), (Op.CREATE, 3), (Op.SSTORE, 3), (Op.STOP, 3)] := by
  decide

/-! ## C09 -/

/-- `j` is the nearest frame that is not a delegate call, following parent links from `k`. -/
inductive NearestNonDelegate (fs : List FrameCtx) : Nat → FrameCtx → Prop
  | here {k f} : fs[k]? = some f → (isDelegateCall f.hdr = false ∨ f.parent = none) →
      NearestNonDelegate fs k f
  | up {k f q g} : fs[k]? = some f → isDelegateCall f.hdr = true → f.parent = some q →
      NearestNonDelegate fs q g → NearestNonDelegate fs k g

/-- Parent frames are in the list, and carry the value passed on. -/
theorem subFrames_parent_in (b : Body) : ∀ (pre post : List FrameCtx) d p v n g,
    pre[p]? = some g → g.value = v → pre.length = n →
    ∀ (k : Nat) (f : FrameCtx), (subFrames d p v n b)[k]? = some f →
      ∃ (q : Nat) (g' : FrameCtx), f.parent = some q ∧ q < f.index ∧
        (pre ++ subFrames d p v n b ++ post)[q]? = some g' ∧ f.parentValue = some g'.value := by
  induction b with
  | nil => intro pre post d p v n g _ _ _ k f h; simp [subFrames] at h
  | act a rest ih => intro pre post d p v n g h1 h2 h3 k f h; exact ih pre post d p v n g h1 h2 h3 k f h
  | sub h b o rest ihb ihr =>
    intro pre post d p v n g h1 h2 h3 k f hf
    have hp := (List.getElem?_eq_some_iff.1 h1).1
    simp only [subFrames] at hf ⊢
    cases k with
    | zero =>
      simp at hf
      subst hf
      refine ⟨p, g, rfl, by show p < n; omega, ?_, by simp [h2]⟩
      rw [List.append_assoc, List.getElem?_append_left hp]; exact h1
    | succ k =>
      rw [List.getElem?_cons_succ] at hf
      by_cases hlt : k < b.size
      · rw [List.getElem?_append_left (by rw [subFrames_length]; exact hlt)] at hf
        have := ihb (pre ++ [⟨n, some p, d, some v, h, b, o⟩])
          (subFrames d p v (n + 1 + b.size) rest ++ post) (d + 1) n (valueInScope (some v) h) (n + 1)
          ⟨n, some p, d, some v, h, b, o⟩ (by simp [← h3]) rfl (by simp [h3]) k f hf
        simpa using this
      · rw [List.getElem?_append_right (by rw [subFrames_length]; omega), subFrames_length] at hf
        have := ihr (pre ++ ⟨n, some p, d, some v, h, b, o⟩ ::
            subFrames (d + 1) n (valueInScope (some v) h) (n + 1) b) post d p v (n + 1 + b.size) g
          (by rw [List.getElem?_append_left hp]; exact h1) h2
          (by simp [subFrames_length, h3]; omega) _ f hf
        simpa using this

theorem frames_parent_in {t : Tx} {k : Nat} {f : FrameCtx} (h : (frames t)[k]? = some f) :
    (f.parent = none ∧ f.parentValue = none) ∨
    ∃ q g, f.parent = some q ∧ q < k ∧ (frames t)[q]? = some g ∧ f.parentValue = some g.value := by
  cases k with
  | zero => simp [frames] at h; subst h; exact Or.inl ⟨rfl, rfl⟩
  | succ k =>
    right
    have hi := frames_index h
    simp only [frames, List.getElem?_cons_succ] at h
    obtain ⟨q, g, h1, h2, h3, h4⟩ := subFrames_parent_in t.body
      [⟨0, none, 0, none, t.hdr, t.body, t.out⟩] [] 1 0 (valueInScope none t.hdr) 1
      ⟨0, none, 0, none, t.hdr, t.body, t.out⟩ rfl rfl rfl k f h
    exact ⟨q, g, h1, by omega, by simpa [frames] using h3, h4⟩

theorem nearest_exists {t : Tx} : ∀ k f, (frames t)[k]? = some f →
    ∃ g, NearestNonDelegate (frames t) k g ∧ f.value = ownValue g.hdr := by
  intro k
  induction k using Nat.strongRecOn with
  | ind k ih =>
    intro f hf
    rcases frames_parent_in hf with ⟨h1, h2⟩ | ⟨q, g, h1, h2, h3, h4⟩
    · refine ⟨f, .here hf (Or.inr h1), ?_⟩
      simp only [FrameCtx.value, valueInScope, h2]
      split
      · simp_all
      · rfl
    · cases hd : isDelegateCall f.hdr with
      | false => exact ⟨f, .here hf (Or.inl hd), by simp [FrameCtx.value, valueInScope, hd]⟩
      | true =>
        obtain ⟨g', hg', hv⟩ := ih q h2 g h3
        refine ⟨g', .up hf hd h1 hg', ?_⟩
        rw [← hv]
        simp [FrameCtx.value, valueInScope, hd, h4]

/-- **C09.** In every recording a DELEGATECALL node shows the value of its parent node; and the value
shown for any node is the value of the own call inputs of the nearest enclosing frame (itself
included) that is not a delegate call. -/
theorem C09_delegate_value (cfg : Config) (t : Tx) (hwf : t.WF) (hsafe : Safe cfg t.body) :
    ∃ s, TI.run cfg TI.new t.events = .ok s ∧
      (∀ (k : Nat) (x : Node), s.arena[k]? = some x → x.trace.kind = .DelegateCall → ∀ q, x.parent = some q →
        ∃ y, s.arena[q]? = some y ∧ x.trace.value = y.trace.value) ∧
      (∀ (k : Nat) (x : Node), s.arena[k]? = some x →
        ∃ g, NearestNonDelegate (frames t) k g ∧ x.trace.value = ownValue g.hdr) := by
  obtain ⟨s, hr, hf, _⟩ := C03_recorded cfg t hwf hsafe
  have key : ∀ (k : Nat) (x : Node), s.arena[k]? = some x → ∃ f, (frames t)[k]? = some f ∧ readFrame x = frameData f := by
    intro k x hx
    have h := congrArg (·[k]?) hf
    simp only [List.getElem?_map, hx, Option.map_some] at h
    cases hk : (frames t)[k]? with
    | none => rw [hk] at h; simp at h
    | some f => rw [hk] at h; exact ⟨f, rfl, by simpa using h⟩
  refine ⟨s, hr, ?_, ?_⟩
  · intro k x hx hkind q hq
    obtain ⟨f, hfk, hrd⟩ := key k x hx
    have hkind' : kind f.hdr = .DelegateCall := by
      rw [← hkind]; exact (congrArg FrameData.kind hrd).symm
    have hpar : f.parent = some q := by rw [← hq]; exact (congrArg FrameData.parent hrd).symm
    have hval : x.trace.value = f.value := congrArg FrameData.value hrd
    have hdel : isDelegateCall f.hdr = true := by
      cases hh : f.hdr with
      | call c inp => rw [hh] at hkind'; cases hs : inp.scheme <;> simp [kind, hs] at hkind' <;> simp [isDelegateCall, hs]
      | create c inp => rw [hh] at hkind'; cases hs : inp.scheme <;> simp [kind, hs] at hkind'
    rcases frames_parent_in hfk with ⟨h1, _⟩ | ⟨q', g, h1, h2, h3, h4⟩
    · rw [h1] at hpar; simp at hpar
    · rw [h1] at hpar
      simp only [Option.some.injEq] at hpar
      subst hpar
      have h := congrArg (·[q']?) hf
      simp only [List.getElem?_map, h3, Option.map_some] at h
      cases hy : s.arena[q']? with
      | none => rw [hy] at h; simp at h
      | some y =>
        rw [hy] at h
        simp only [Option.map_some, Option.some.injEq] at h
        refine ⟨y, rfl, ?_⟩
        rw [hval, show y.trace.value = g.value from congrArg FrameData.value h]
        simp [FrameCtx.value, valueInScope, hdel, h4]
  · intro k x hx
    obtain ⟨f, hfk, hrd⟩ := key k x hx
    obtain ⟨g, hg, hv⟩ := nearest_exists k f hfk
    exact ⟨g, hg, by rw [← hv]; exact congrArg FrameData.value hrd⟩

/-- The example contains a delegate call whose own inputs carry 0 and whose shown value is 6. -/
example : (frames Example.tx)[2]?.map (fun f => (isDelegateCall f.hdr, ownValue f.hdr, f.value)) =
    some (true, 0, 6) := by decide

/-! ## C11 -/

/-- The gas a transaction pays for: spent minus the refund capped at a fifth (London on) or a half
of the spent gas. -/
def paidGas (spec : SpecId) (spent : Nat) (refund : Nat) : Nat :=
  spent - min refund (spent / (if LONDON ≤ spec then 5 else 2))

/-- **C11** (partial: the refund of the root frame is required to be non-negative, which is what
revm's refund counter is at the end of a transaction; for a negative counter the claim is false, see
`C11_refuted_negative_refund`). The root node reports the transaction's gas limit and the paid gas;
every other node the limit and spent gas of its own frame. -/
theorem C11_root_gas_partial (cfg : Config) (t : Tx) (hwf : t.WF) (hsafe : Safe cfg t.body)
    (hr0 : 0 ≤ t.out.result.gas.refunded) (hr1 : t.out.result.gas.refunded < 2 ^ 63) :
    ∃ s, TI.run cfg TI.new t.events = .ok s ∧ s.arena.length = (frames t).length ∧
      ∀ (k : Nat) (f : FrameCtx) (x : Node), (frames t)[k]? = some f → s.arena[k]? = some x →
        (k = 0 → x.trace.gasLimit = txGasLimit t.hdr ∧
          x.trace.gasUsed = paidGas t.out.ctx.specId
            (t.out.result.gas.limit - t.out.result.gas.remaining) t.out.result.gas.refunded.toNat) ∧
        (k ≠ 0 → x.trace.gasLimit = gasLimit f.hdr ∧
          x.trace.gasUsed = f.out.result.gas.limit - f.out.result.gas.remaining) := by
  obtain ⟨s, hr, _, har, _⟩ := run_frames cfg t hwf hsafe
  refine ⟨s, hr, by rw [har, List.length_map], ?_⟩
  intro k f x hf hx
  rw [har, List.getElem?_map, hf] at hx
  simp only [Option.map_some, Option.some.injEq] at hx
  have hm := List.mem_of_getElem? hf
  have hi := frames_index hf
  have hroot := frames_root_iff hm
  have hgl : (nodeOf cfg f).trace.gasLimit = (enterTrace cfg f.parentValue f.depth f.hdr).gasLimit := by
    simp only [nodeOf, leaveNode, TI.fillTrace, own_trace]
    split <;> rfl
  have hgu : (nodeOf cfg f).trace.gasUsed = if f.index = 0 then
      Verif.gasUsed (f.out.ctx.at f.depth).specId f.out.result.gas.spent
        (i64AsU64 f.out.result.gas.refunded) else f.out.result.gas.spent := by
    simp only [nodeOf, leaveNode, TI.fillTrace, own_trace]
    split <;> rfl
  rw [← hx, hgl, hgu, hi]
  refine ⟨?_, ?_⟩
  · intro hk
    subst hk
    simp only [frames, List.getElem?_cons_zero, Option.some.injEq] at hf
    subst hf
    refine ⟨by cases h : t.hdr <;> simp [enterTrace, txGasLimit], ?_⟩
    rw [if_pos rfl]
    show Verif.gasUsed t.out.ctx.specId t.out.result.gas.spent
      (i64AsU64 t.out.result.gas.refunded) = _
    have : i64AsU64 t.out.result.gas.refunded = t.out.result.gas.refunded.toNat := by
      unfold i64AsU64; rw [Int.emod_eq_of_lt hr0 (by omega)]
    rw [this, Verif.gasUsed, paidGas, Gas.spent]
    by_cases hl : LONDON ≤ t.out.ctx.specId <;> simp [SpecId.enabled, hl]
  · intro hk
    have hs : f.parentValue.isSome = true := by
      rw [← hroot.1]
      cases hp : f.parent with
      | none => exact absurd (hroot.2.2 hp) (by omega)
      | some q => rfl
    refine ⟨by cases h : f.hdr <;> simp [enterTrace, gasLimit, hs], by rw [if_neg hk]; rfl⟩

example : 0 ≤ Example.tx.out.result.gas.refunded ∧ Example.tx.out.result.gas.refunded < 2 ^ 63 ∧
    paidGas 17 600 50 = 550 ∧ paidGas 17 600 500 = 480 ∧ paidGas 11 600 500 = 300 := by decide

/-- **C11, refuted for negative refunds.** If the refund counter reported at the end of the root frame
is negative, the code does not report spent minus refund, nor the spent gas, but applies the maximal
refund (`gas.refunded() as u64`). -/
theorem C11_refuted_negative_refund :
    ∃ t : Tx, t.WF ∧ (∀ cfg, Safe cfg t.body) ∧ t.out.result.gas.refunded = -1 ∧
      (∃ s x, TI.run Config.none TI.new t.events = .ok s ∧ s.arena[0]? = some x ∧
        x.trace.gasUsed = 480 ∧ t.out.result.gas.spent = 600) := by
  refine ⟨⟨Example.tx.hdr, .nil, { Example.out .Stop with
      result := { result := .Stop, output := [], gas := ⟨1000, 400, -1⟩ } }⟩,
    ⟨fun _ => rfl, fun _ => rfl, trivial⟩, fun _ => trivial, rfl, ?_⟩
  exact ⟨_, _, rfl, rfl, by decide, rfl⟩

/-! ## C14 -/

/-- The frame's own logs and selfdestructs name the account the frame executes as, and a finished
creation reports the address computed at its start. This is what the EVM does. -/
def AddressesOK (f : FrameCtx) : Prop :=
  (∀ l ∈ emitted f.body, l.address = executingAs f.hdr) ∧
  (∀ a, (lastSelfdestruct f.body).map (·.1) = some a → a = executingAs f.hdr) ∧
  (∀ a, createdAt f.hdr f.out = some a → a = executingAs f.hdr)

/-- **C14.** With log recording on, the logs of every node are exactly the logs its frame emitted, in
order, and the execution address of the node is the emitting address of each of them; with log
recording off no logs are recorded. -/
theorem C14_logs (cfg : Config) (t : Tx) (hwf : t.WF) (hsafe : Safe cfg t.body)
    (haddr : ∀ f ∈ frames t, AddressesOK f) :
    ∃ s, TI.run cfg TI.new t.events = .ok s ∧ s.arena.length = (frames t).length ∧
      ∀ (k : Nat) (f : FrameCtx) (x : Node), (frames t)[k]? = some f → s.arena[k]? = some x →
        (cfg.recordLogs = true → x.logs.map (·.rawLog) = (emitted f.body).map (·.data)) ∧
        (cfg.recordLogs = false → x.logs = []) ∧
        x.executionAddress = executingAs f.hdr ∧
        ∀ l ∈ emitted f.body, l.address = x.executionAddress := by
  obtain ⟨s, hr, hl, h⟩ := C05_ordering_is_execution_order cfg t hwf hsafe
  obtain ⟨s', hr', hfd, _⟩ := C03_recorded cfg t hwf hsafe
  rw [hr] at hr'; cases hr'
  refine ⟨s, hr, hl, ?_⟩
  intro k f x hf hx
  have hli : ∀ (b : Body) d p v n, logItems (bodyItems cfg d p v n b) =
      if cfg.recordLogs then (emitted b).map (·.data) else [] := by
    intro b
    induction b with
    | nil => intro d p v n; cases cfg.recordLogs <;> rfl
    | act a rest ih =>
      intro d p v n
      cases hrl : cfg.recordLogs <;> simp only [hrl] at ih <;>
      cases a <;> simp only [bodyItems, emitted, logItems_append, ih, hrl] <;>
        (try split) <;> simp [logItems]
    | sub h b o rest _ ih =>
      intro d p v n
      simp only [bodyItems, emitted, logItems_append, ih]
      split <;> simp [logItems]
  have hlogs := (h k f x hf hx).2.2.1
  rw [items, hli] at hlogs
  have hm := List.mem_of_getElem? hf
  obtain ⟨ha1, ha2, ha3⟩ := haddr f hm
  have hrd : readFrame x = frameData f := by
    have h := congrArg (·[k]?) hfd
    simpa [List.getElem?_map, hx, hf] using h
  have hex : x.executionAddress = executingAs f.hdr := by
    have hk : x.trace.kind = kind f.hdr := congrArg FrameData.kind hrd
    have hc : x.trace.caller = caller f.hdr := congrArg FrameData.caller hrd
    have had : x.trace.address = (frameData f).address := congrArg FrameData.address hrd
    simp only [Node.executionAddress, hk, hc, had, frameData]
    have hwfh := (frames_wf hwf hm).1
    cases hh : f.hdr with
    | call c inp =>
      rw [hh] at ha1 ha2 ha3 hwfh
      cases hs : inp.scheme <;>
        simp only [kind, caller, hs, CallKind.isDelegate, executingAs, if_true, createdAt, callee,
          Bool.false_eq_true, if_false]
      all_goals
        cases hl' : lastSelfdestruct f.body with
        | none => rfl
        | some q => exact ha2 q.1 (by simp [hl'])
    | create c inp =>
      rw [hh] at ha1 ha2 ha3
      have : (kind (Header.create c inp)).isDelegate = false := by
        cases hs : inp.scheme <;> simp [kind, hs, CallKind.isDelegate]
      rw [this]
      simp only [Bool.false_eq_true, if_false]
      cases hcr : createdAt (Header.create c inp) f.out with
      | some a => exact ha3 a hcr
      | none =>
        cases hl' : lastSelfdestruct f.body with
        | none => rfl
        | some q => exact ha2 q.1 (by simp [hl'])
  refine ⟨fun hon => by rw [hlogs, hon]; rfl, fun hoff => ?_, hex, fun l hl' => by rw [hex]; exact ha1 l hl'⟩
  rw [hoff] at hlogs
  simpa using hlogs

/-- The example meets `AddressesOK`: contract 0xb logs both directly and through the library. -/
example : ∀ f ∈ frames Example.tx, AddressesOK f := by
  intro f hf
  simp only [frames, Example.tx, Example.body, Example.callee, Example.lib, subFrames, List.mem_cons,
    List.mem_append, List.not_mem_nil, or_false, List.append_nil, List.nil_append] at hf
  rcases hf with rfl | rfl | rfl | rfl | rfl <;> refine ⟨by decide, ?_, ?_⟩ <;>
    simp [lastSelfdestruct, createdAt, executingAs, Example.callHdr, Example.createHdr, Example.out,
      Example.ctx, Example.stepAct]

/-! ## C54 -/

/-- **C54.** A node reports `is_selfdestruct` exactly if its frame ended with `SelfDestruct` or a
selfdestruct was reported while the frame was the innermost open one; then refund target and value
are those reported last, and the address is the reported contract unless a creation address was set
at the end of the frame. -/
theorem C54_is_selfdestruct (cfg : Config) (t : Tx) (hwf : t.WF) (hsafe : Safe cfg t.body) :
    ∃ s, TI.run cfg TI.new t.events = .ok s ∧ s.arena.length = (frames t).length ∧
      ∀ (k : Nat) (f : FrameCtx) (x : Node), (frames t)[k]? = some f → s.arena[k]? = some x →
        (x.isSelfdestruct = true ↔
          f.out.result.result = .SelfDestruct ∨ lastSelfdestruct f.body ≠ none) ∧
        (∀ a tg v, lastSelfdestruct f.body = some (a, tg, v) →
          x.trace.selfdestructRefundTarget = some tg ∧
          x.trace.selfdestructTransferredValue = some v ∧
          (createdAt f.hdr f.out = none → x.trace.address = a)) := by
  obtain ⟨s, hr, hf, _⟩ := C03_recorded cfg t hwf hsafe
  have hlen : s.arena.length = (frames t).length := by
    have := congrArg List.length hf; simpa using this
  refine ⟨s, hr, hlen, ?_⟩
  intro k f x hfk hx
  have hrd : readFrame x = frameData f := by
    have h := congrArg (·[k]?) hf
    simpa [List.getElem?_map, hx, hfk] using h
  have h1 : x.trace.status = f.out.result.result := congrArg FrameData.status hrd
  have h2 : x.trace.selfdestructRefundTarget = (lastSelfdestruct f.body).map (·.2.1) :=
    congrArg FrameData.refundTarget hrd
  have h3 : x.trace.selfdestructTransferredValue = (lastSelfdestruct f.body).map (·.2.2) :=
    congrArg FrameData.refundValue hrd
  have h4 : x.trace.address = (frameData f).address := congrArg FrameData.address hrd
  refine ⟨?_, ?_⟩
  · simp only [Node.isSelfdestruct, CallTrace.isSelfdestruct, h1, h2, Bool.or_eq_true,
      decide_eq_true_eq, Option.isSome_map, ne_eq]
    cases lastSelfdestruct f.body <;> simp
  · intro a tg v hl
    rw [h2, h3, h4, hl]
    refine ⟨rfl, rfl, ?_⟩
    intro hc
    simp [frameData, hc, hl]

example : lastSelfdestruct Example.callee = some (0xb, 0xe, 4) := by decide

end Verif.Props
