import Verif.Lemmas.UnfusedFrames
import Verif.Props.CallFrames
/-! C135: the call frames and the struct logs that are built after several transactions without `fuse`. -/
namespace Verif.Props
open Spec Rec

/-! ### Call frames -/

theorem getLastD_mem (t : Tx) (ts : List Tx) : ts.getLastD t ∈ t :: ts := by
  induction ts generalizing t with
  | nil => simp
  | cons u us ih => rw [List.getLastD_cons]; exact List.mem_cons_of_mem _ (ih u)

theorem flatMap_same {α β : Type} (f g : α → List β) (l : List α) (h : ∀ a ∈ l, f a = g a) :
    l.flatMap f = l.flatMap g := by
  induction l with
  | nil => rfl
  | cons a l ih =>
    rw [List.flatMap_cons, List.flatMap_cons, h a (by simp), ih (fun b hb => h b (by simp [hb]))]

/-- The root of the shared arena reads as that of the second transaction. -/
theorem frame_together (decode : RevertDecoder) {A B : List Node} {x : Node} (hA : A ≠ [])
    (hx : B[0]? = some x) : ∃ y, (together A B)[0]? = some y ∧
      y.gethEmptyCallFrame decode false = x.gethEmptyCallFrame decode false := by
  cases A with
  | nil => exact absurd rfl hA
  | cons o os =>
    cases B with
    | nil => simp at hx
    | cons z zs =>
      simp only [List.getElem?_cons_zero, Option.some.injEq] at hx
      subst hx
      exact ⟨_, rfl, frame_shared decode _ _ _⟩

theorem shaped_all (decode : RevertDecoder) (arenas : Tx → List Node) (ts : List Tx) :
    ∀ (A : List Node) (a : Body) (x : Node), Shaped A a → A[0]? = some x →
    QuietStart A → (∀ u ∈ ts, Shaped (arenas u) u.body ∧ QuietStart (arenas u)) →
    ∃ b y, Shaped ((ts.map arenas).foldl together A) b ∧
      ((ts.map arenas).foldl together A)[0]? = some y ∧
      QuietStart ((ts.map arenas).foldl together A) ∧
      (∀ z, (((ts.map arenas).getLastD A)[0]?) = some z →
        y.gethEmptyCallFrame decode false = z.gethEmptyCallFrame decode false) ∧
      trees (plainFrame decode ((ts.map arenas).foldl together A)) 1 b =
        trees (plainFrame decode A) 1 a ++
          ts.flatMap (fun u => trees (plainFrame decode (arenas u)) 1 u.body) := by
  induction ts with
  | nil =>
    intro A a x h hx hsd _
    exact ⟨a, x, h, hx, hsd, fun z hz => by rw [List.map_nil, List.getLastD_nil, hx] at hz; cases hz; rfl,
      by simp⟩
  | cons u ts ih =>
    intro A a x h hx hsd hall
    obtain ⟨hu, hus⟩ := hall u (by simp)
    obtain ⟨xu, hxu, -⟩ := hu.root
    have hAne : A ≠ [] := by intro h0; rw [h0] at hx; simp at hx
    have hune : arenas u ≠ [] := by intro h0; rw [h0] at hxu; simp at hxu
    obtain ⟨y0, hy0, hyf⟩ := frame_together decode hAne hxu
    obtain ⟨b, y, h1, h2, h3, h4, h5⟩ := ih _ _ y0 (shaped_together h hu) hy0
      (quiet_together hsd hus hune) (fun v hv => hall v (by simp [hv]))
    refine ⟨b, y, h1, h2, h3, ?_, ?_⟩
    · intro z hz
      rw [List.map_cons, List.getLastD_cons] at hz
      cases ts with
      | nil =>
        simp only [List.map_nil, List.getLastD_nil] at hz h4
        rw [hxu] at hz
        cases hz
        rw [h4 y0 hy0, hyf]
      | cons v ts =>
        rw [List.map_cons, List.getLastD_cons] at hz h4
        exact h4 z hz
    · rw [List.map_cons, List.foldl_cons, h5, calls_together decode h hu hus, List.flatMap_cons,
        List.append_assoc]

/-- The recording of one transaction whose first two frames do not selfdestruct. -/
theorem recorded_calls (cfg : Config) (u : Tx) (hwf : u.WF) (hsafe : Safe cfg u.body)
    {s : TI} (hs : TI.run cfg TI.new u.events = .ok s)
    (hno : ∀ f ∈ frames u, f.index ≤ 1 → selfdestructed f = false) :
    Shaped s.arena u.body ∧ QuietStart s.arena := by
  obtain ⟨s', hs', -, har, -⟩ := run_frames cfg u hwf hsafe
  rw [hs] at hs'
  cases hs'
  rw [har]
  refine ⟨shaped_run cfg u, ?_⟩
  intro k y hk hy
  rw [List.getElem?_map, Option.map_eq_some_iff] at hy
  obtain ⟨f, hf, rfl⟩ := hy
  have h1 := sdList_nodeOf cfg f
  rw [sdFrame, hno f (List.mem_of_getElem? hf) (by rw [frames_index hf]; exact hk)] at h1
  simp only [sdList, Node.gethSelfdestructCallTrace, Bool.false_eq_true, if_false] at h1
  cases hi : (nodeOf cfg f).isSelfdestruct with
  | false => rfl
  | true => rw [hi] at h1; simp at h1

/-- **C135**, call frames: without logs, and if no root and no first frame below a root selfdestructs, what
`geth_call_traces` returns for a recording of several transactions is the root frame of the last one with the calls
of all of them, in order. -/
theorem C135_call_frames (decode : RevertDecoder) (cfg : Config) (opts : CallConfig) (gas : Nat)
    (r : Tx → TI) (g : Tx → CallFrame) (t : Tx) (ts : List Tx)
    (hall : ∀ u ∈ t :: ts, (u.WF ∧ Safe cfg u.body) ∧ TI.run cfg TI.new u.events = .ok (r u) ∧
      gethCallTraces decode (r u).arena opts gas = .ok (g u))
    (hno : ∀ u ∈ t :: ts, ∀ f ∈ frames u, f.index ≤ 1 → selfdestructed f = false)
    (honly : opts.onlyTopCall.getD false = false) (hlog : opts.withLog.getD false = false) :
    ∃ s, TI.run cfg TI.new ((t :: ts).flatMap Tx.events) = .ok s ∧
      gethCallTraces decode s.arena opts gas =
        .ok { g (ts.getLastD t) with calls := (t :: ts).flatMap (fun u => (g u).calls) } := by
  obtain ⟨s, hs, -, har⟩ := C120_exact cfg r t ts (fun u hu => ⟨(hall u hu).1, (hall u hu).2.1⟩)
  refine ⟨s, hs, ?_⟩
  have hrec : ∀ u ∈ t :: ts, Shaped (r u).arena u.body ∧ QuietStart (r u).arena :=
    fun u hu => recorded_calls cfg u (hall u hu).1.1 (hall u hu).1.2 (hall u hu).2.1 (hno u hu)
  have hg : ∀ u ∈ t :: ts, ∃ x, (r u).arena[0]? = some x ∧ g u =
      { x.gethEmptyCallFrame decode false with
        gasUsed := gas, calls := trees (plainFrame decode (r u).arena) 1 u.body } := by
    intro u hu
    obtain ⟨x, hx, -⟩ := (hrec u hu).1.root
    have := shaped_calls decode (hrec u hu).1 hx (hrec u hu).2 opts gas honly hlog
    rw [(hall u hu).2.2] at this
    simp only [Except.ok.injEq] at this
    exact ⟨x, hx, this⟩
  have hcalls : ∀ u ∈ t :: ts, (g u).calls = trees (plainFrame decode (r u).arena) 1 u.body := by
    intro u hu
    obtain ⟨x, -, h⟩ := hg u hu
    rw [h]
  obtain ⟨x, hx, -⟩ := hg t (by simp)
  obtain ⟨b, y, h1, h2, h3, h4, h5⟩ := shaped_all decode (fun u => (r u).arena) ts (r t).arena t.body x
    (hrec t (by simp)).1 hx (hrec t (by simp)).2 (fun u hu => hrec u (by simp [hu]))
  rw [har, shaped_calls decode h1 h2 h3 opts gas honly hlog, h5]
  have hlast : ts.getLastD t ∈ t :: ts := getLastD_mem t ts
  have hlm : (ts.map (fun u => (r u).arena)).getLastD (r t).arena = (r (ts.getLastD t)).arena := by
    clear hs har hall hno hrec hg hcalls h1 h2 h3 h4 h5 hlast hx
    induction ts generalizing t with
    | nil => rfl
    | cons u us ih => rw [List.map_cons, List.getLastD_cons, List.getLastD_cons, ih]
  obtain ⟨z, hz, hgz⟩ := hg _ hlast
  rw [h4 z (by rw [hlm]; exact hz), hgz]
  have hfm : (t :: ts).flatMap (fun u => (g u).calls) =
      trees (plainFrame decode (r t).arena) 1 t.body ++
        ts.flatMap (fun u => trees (plainFrame decode (r u).arena) 1 u.body) := by
    rw [List.flatMap_cons, hcalls t (by simp),
      flatMap_same _ (fun u => trees (plainFrame decode (r u).arena) 1 u.body) ts
        (fun u hu => hcalls u (by simp [hu]))]
  rw [hfm]

theorem alone_iff (t : Tx) : frames t = [rootOf t] ↔ t.body.size = 0 := by
  have hl := subFrames_length t.body 1 0 (valueInScope none t.hdr) 1
  unfold frames rootOf
  simp only [List.cons.injEq, true_and]
  rw [← hl, List.length_eq_zero_iff]

/-- **C135**, when the call frames are right: of two transactions like that, `geth_call_traces` without logs returns
what it returns for the second alone exactly if the first entered no frame below its root. -/
theorem C135_when (decode : RevertDecoder) (cfg : Config) (opts : CallConfig) (gas : Nat) (t1 t2 : Tx)
    (h1 : t1.WF ∧ Safe cfg t1.body) (h2 : t2.WF ∧ Safe cfg t2.body)
    (hno1 : ∀ f ∈ frames t1, f.index ≤ 1 → selfdestructed f = false)
    (hno2 : ∀ f ∈ frames t2, f.index ≤ 1 → selfdestructed f = false)
    (honly : opts.onlyTopCall.getD false = false) (hlog : opts.withLog.getD false = false) :
    ∃ s2 s, TI.run cfg TI.new t2.events = .ok s2 ∧ TI.run cfg TI.new (t1.events ++ t2.events) = .ok s ∧
      (gethCallTraces decode s.arena opts gas = gethCallTraces decode s2.arena opts gas ↔
        frames t1 = [rootOf t1]) := by
  obtain ⟨s1, hs1, -⟩ := run_frames cfg t1 h1.1 h1.2
  obtain ⟨s2, hs2, -⟩ := run_frames cfg t2 h2.1 h2.2
  obtain ⟨hA, hAs⟩ := recorded_calls cfg t1 h1.1 h1.2 hs1 hno1
  obtain ⟨hB, hBs⟩ := recorded_calls cfg t2 h2.1 h2.2 hs2 hno2
  obtain ⟨x1, hx1, -⟩ := hA.root
  obtain ⟨x2, hx2, -⟩ := hB.root
  obtain ⟨s1', hs1', hst, -⟩ := Rec.run_tx cfg t1 h1.1.2.2 h1.2
  rw [hs1] at hs1'
  cases hs1'
  cases ho : s1.arena with
  | nil => rw [ho] at hx1; simp at hx1
  | cons o os =>
    obtain ⟨s, hs, -, har, -⟩ := unfused_one h2.1 h2.2 hst ho hs2
    refine ⟨s2, s, hs2, by rw [Rec.run_append_ok hs1, hs], ?_⟩
    rw [← ho] at har
    have hne1 : s1.arena ≠ [] := by rw [ho]; simp
    have hne2 : s2.arena ≠ [] := by intro h; rw [h] at hx2; simp at hx2
    obtain ⟨y, hy, hyf⟩ := frame_together decode hne1 hx2
    rw [har, shaped_calls decode (shaped_together hA hB) hy (quiet_together hAs hBs hne2) opts gas honly hlog,
      shaped_calls decode hB hx2 hBs opts gas honly hlog, calls_together decode hA hB hBs, hyf, alone_iff,
      ← trees_length (plainFrame decode s1.arena) t1.body 1]
    constructor
    · intro h
      simp only [Except.ok.injEq, CallFrame.mk.injEq] at h
      simpa using h.2.2.2.2.2.2.2.2.2.2.1
    · intro h
      rw [h, List.nil_append]

/-! ### Struct logs -/

/-- What `geth_traces` looks at in a node. -/
def logKey (x : Node) : CallTrace × List Nat := (x.trace, x.children)

/-- What it looks at in an entry of its stack. -/
def itemKey (i : StackItem) : CallTrace × CallTraceStep × Option Nat := (i.node.trace, i.step, i.callChildId)

theorem stack_key (x y : Node) (h : logKey x = logKey y) : ∀ (l : List CallTraceStep) (c : Nat),
    (x.callStepStackFrom c l).map itemKey = (y.callStepStackFrom c l).map itemKey := by
  simp only [logKey, Prod.mk.injEq] at h
  intro l
  induction l with
  | nil => intro c; rfl
  | cons s l ih =>
    intro c
    simp only [Node.callStepStackFrom, ← h.2]
    split
    · split
      · simp [itemKey, h.1, ← ih]
      · simp [itemKey, h.1, ← ih]
    · simp [itemKey, h.1, ← ih]

theorem fill_key {A B : List Node} (h : A.map logKey = B.map logKey) (opts : GethOptions) (fuel : Nat) :
    ∀ (l m : List StackItem) (st : FillState), l.map itemKey = m.map itemKey →
    fillLoop A opts fuel l st = fillLoop B opts fuel m st := by
  induction fuel with
  | zero =>
    intro l m st hl
    cases l with
    | nil => cases m with
      | nil => rfl
      | cons _ _ => simp at hl
    | cons _ _ => cases m with
      | nil => simp at hl
      | cons _ _ => rfl
  | succ fuel ih =>
    intro l m st hl
    cases l with
    | nil => cases m with
      | nil => rfl
      | cons _ _ => simp at hl
    | cons i l => cases m with
      | nil => simp at hl
      | cons j m =>
        simp only [List.map_cons, List.cons.injEq, itemKey, Prod.mk.injEq] at hl
        obtain ⟨⟨h1, h2, h3⟩, hr⟩ := hl
        have hp : st.process opts i.node i.step = st.process opts j.node j.step := by
          simp only [FillState.process, h1, h2]
        simp only [fillLoop, hp, h3]
        split
        · exact ih _ _ _ hr
        · rename_i id _
          have hk : (A[id]?).map logKey = (B[id]?).map logKey := by
            rw [← List.getElem?_map, ← List.getElem?_map, h]
          cases ha : A[id]? with
          | none =>
            rw [ha] at hk
            cases hb : B[id]? with
            | none => rfl
            | some _ => rw [hb] at hk; simp at hk
          | some x =>
            rw [ha] at hk
            cases hb : B[id]? with
            | none => rw [hb] at hk; simp at hk
            | some y =>
              rw [hb] at hk
              simp only [Option.map_some, Option.some.injEq] at hk
              apply ih
              have ht : x.trace = y.trace := congrArg Prod.fst hk
              simp only [Node.pushStepsOnStack, Node.callStepStack, List.map_append, ht,
                stack_key x y hk, hr]

theorem traces_key {A B : List Node} (h : A.map logKey = B.map logKey) (gas : Nat) (ret : Bytes)
    (opts : GethOptions) : gethTraces A gas ret opts = gethTraces B gas ret opts := by
  have ht : totalSteps A = totalSteps B := by
    have := congrArg (List.map (fun k : CallTrace × List Nat => k.1.steps.length)) h
    simp only [List.map_map] at this
    exact congrArg List.sum this
  cases A with
  | nil => cases B with
    | nil => rfl
    | cons _ _ => simp at h
  | cons x A => cases B with
    | nil => simp at h
    | cons y B =>
      have hk : logKey x = logKey y := by simp only [List.map_cons, List.cons.injEq] at h; exact h.1
      have hxt : x.trace = y.trace := congrArg Prod.fst hk
      have hf : fillGethTrace (x :: A) x opts {} = fillGethTrace (y :: B) y opts {} := by
        rw [fillGethTrace, fillGethTrace, ht]
        apply fill_key h
        simp only [Node.pushStepsOnStack, Node.callStepStack, List.map_append, hxt, stack_key x y hk]
      simp only [gethTraces, hf, hxt]

/-- The part of **C135** that holds: if the first transaction entered no frame below its root, the struct logs are
those of the second, and so are the call frames without logs if no root and no first frame below a root
selfdestructs. -/
theorem C135_two_partial (decode : RevertDecoder) (cfg : Config) (t1 t2 : Tx)
    (h1 : t1.WF ∧ Safe cfg t1.body) (h2 : t2.WF ∧ Safe cfg t2.body) (halone : frames t1 = [rootOf t1]) :
    ∃ s2 s, TI.run cfg TI.new t2.events = .ok s2 ∧ TI.run cfg TI.new (t1.events ++ t2.events) = .ok s ∧
      (∀ gas ret opts, gethTraces s.arena gas ret opts = gethTraces s2.arena gas ret opts) ∧
      (∀ opts gas, opts.withLog.getD false = false → opts.onlyTopCall.getD false = false →
        (∀ f ∈ frames t1 ++ frames t2, f.index ≤ 1 → selfdestructed f = false) →
        gethCallTraces decode s.arena opts gas = gethCallTraces decode s2.arena opts gas) := by
  obtain ⟨s1, hs1, hst, har1, -⟩ := run_frames cfg t1 h1.1 h1.2
  obtain ⟨s2, hs2, -⟩ := run_frames cfg t2 h2.1 h2.2
  have hl1 := C04_links cfg _ _ hs1
  have hl2 := C04_links cfg _ _ hs2
  rw [halone] at har1
  obtain ⟨s, hs, -, har, -⟩ := unfused_one (o := nodeOf cfg (rootOf t1)) (os := []) h2.1 h2.2 hst
    (by rw [har1]; rfl) hs2
  have hrun : TI.run cfg TI.new (t1.events ++ t2.events) = .ok s := by rw [Rec.run_append_ok hs1, hs]
  refine ⟨s2, s, hs2, hrun, ?_, ?_⟩
  · intro gas ret opts
    apply traces_key
    obtain ⟨x, xs, hx⟩ := List.exists_cons_of_ne_nil hl2.nonempty
    have hc : (nodeOf cfg (rootOf t1)).children = [] := by
      have h0 : s1.arena[0]? = some (nodeOf cfg (rootOf t1)) := by rw [har1]; rfl
      rw [hl1.children 0 _ h0, har1]
      have hp := (hl1.root _ h0).1
      simp [List.range_succ, hp]
    rw [har, hx]
    simp only [together, List.length_nil, List.nil_append, List.map_cons, logKey, sharedRoot, hc,
      map_movedTo_zero, List.map_map]
    congr 1
    apply List.map_congr_left
    intro z _
    simp [movedNode_zero]
  · intro opts gas hlog honly hno
    obtain ⟨s2', s', hs2', hs', hw⟩ := C135_when decode cfg opts gas t1 t2 h1 h2
      (fun f hf => hno f (by simp [hf])) (fun f hf => hno f (by simp [hf])) honly hlog
    rw [hs2] at hs2'
    rw [hrun] at hs'
    cases hs2'
    cases hs'
    exact hw.2 halone

/-! ### Concrete cases -/

/-- A transaction that calls a contract which executes `op`. -/
def callerOf (op : OpCode) : Tx where
  hdr := Example.callHdr .Call 0x1 0xa 0xa 11
  body := .act (Example.stepAct Op.CALL 1 490 .CallOrCreate)
    (.sub (Example.callHdr .Call 0xa 0xb 0xb 6) (.act (Example.stepAct op 0 300) .nil)
      (Example.out .Return) .nil)
  out := Example.out .Stop

theorem callerOf_wf (op : OpCode) : (callerOf op).WF :=
  ⟨fun _ => rfl, fun h => absurd h Bool.false_ne_true, ⟨fun _ => rfl, fun h => absurd h Bool.false_ne_true,
    trivial, trivial⟩⟩

/-- The opcodes of the struct logs that are built. -/
def loggedOps (A : List Node) : List OpCode :=
  match gethTraces A 0 [] {} with
  | .ok f => f.structLogs.map (·.op)
  | .error _ => []

/-- The callers of the calls that the call frames show below the root. -/
def calledFrom (A : List Node) : List Address :=
  match gethCallTraces ⟨fun _ => none, fun _ => ""⟩ A {} 0 with
  | .ok f => f.calls.map (·.from_)
  | .error _ => []

/-- **C135** does not hold: of two transactions that each call a contract, the struct logs show the call of the
second with the instruction that the callee of the *first* executed, and the call frames show two calls. -/
theorem C135_refuted : ∃ t1 t2 : Tx, (t1.WF ∧ ∀ cfg, Safe cfg t1.body) ∧
    (t2.WF ∧ ∀ cfg, Safe cfg t2.body) ∧
    ∃ s2 s, TI.run Config.all TI.new t2.events = .ok s2 ∧
      TI.run Config.all TI.new (t1.events ++ t2.events) = .ok s ∧
      loggedOps s2.arena = [Op.CALL, Op.SUB] ∧ loggedOps s.arena = [Op.CALL, Op.ADD] ∧
      (calledFrom s2.arena).length = 1 ∧ (calledFrom s.arena).length = 2 :=
  ⟨callerOf Op.ADD, callerOf Op.SUB, ⟨callerOf_wf _, fun _ => ⟨Example.stepSafe _ _ _ _ (by decide),
    ⟨Example.stepSafe _ _ _ _ (by decide), trivial⟩, trivial⟩⟩, ⟨callerOf_wf _, fun _ =>
    ⟨Example.stepSafe _ _ _ _ (by decide), ⟨Example.stepSafe _ _ _ _ (by decide), trivial⟩, trivial⟩⟩,
    _, _, rfl, rfl, by decide, by decide, by decide, by decide⟩

/-- A plain transfer before a call meets the hypotheses of `C135_two_partial`, with a call that is logged. -/
example : ∃ s2 s, TI.run Config.all TI.new (callerOf Op.SUB).events = .ok s2 ∧
    TI.run Config.all TI.new (({ callerOf Op.ADD with body := .nil } : Tx).events ++
      (callerOf Op.SUB).events) = .ok s ∧
    loggedOps s.arena = [Op.CALL, Op.SUB] := by
  obtain ⟨s2, s, h1, h2, h3, -⟩ := C135_two_partial ⟨fun _ => none, fun _ => ""⟩ Config.all
    { callerOf Op.ADD with body := .nil } (callerOf Op.SUB)
    ⟨⟨fun _ => rfl, fun _ => rfl, trivial⟩, trivial⟩
    ⟨callerOf_wf _, ⟨Example.stepSafe _ _ _ _ (by decide), ⟨Example.stepSafe _ _ _ _ (by decide), trivial⟩,
      trivial⟩⟩ rfl
  refine ⟨s2, s, h1, h2, ?_⟩
  unfold loggedOps
  rw [h3]
  cases h1
  decide

/-- A transaction that calls a contract which selfdestructs. -/
def destroyerTx : Tx where
  hdr := Example.callHdr .Call 0x99 0xa 0xa 11
  body := .sub (Example.callHdr .Call 0xa 0xc 0xc 6) (.act (.selfdestruct 0xc 0xe 4) .nil)
    (Example.out .SelfDestruct) .nil
  out := Example.out .Stop

/-- The types of the calls that the call frames show below the root, each with those of its own calls. -/
def calledTypes (A : List Node) : List (String × List String) :=
  match gethCallTraces ⟨fun _ => none, fun _ => ""⟩ A {} 0 with
  | .ok f => f.calls.map (fun c => (c.typ, c.calls.map (·.typ)))
  | .error _ => []

/-- The hypothesis about selfdestructs in `C135_call_frames` cannot be left out: if the first call of the second
transaction selfdestructs, this is shown as a call of the last call of the *first* transaction. -/
theorem C135_refuted_selfdestruct : ∃ t1 t2 : Tx, (t1.WF ∧ ∀ cfg, Safe cfg t1.body) ∧
    (t2.WF ∧ ∀ cfg, Safe cfg t2.body) ∧ (∀ f ∈ frames t1, selfdestructed f = false) ∧
    ∃ s1 s2 s, TI.run Config.all TI.new t1.events = .ok s1 ∧ TI.run Config.all TI.new t2.events = .ok s2 ∧
      TI.run Config.all TI.new (t1.events ++ t2.events) = .ok s ∧
      calledTypes s1.arena = [("CALL", [])] ∧ calledTypes s2.arena = [("CALL", []), ("SELFDESTRUCT", [])] ∧
      calledTypes s.arena = [("CALL", ["SELFDESTRUCT"]), ("CALL", [])] :=
  ⟨callerOf Op.ADD, destroyerTx, ⟨callerOf_wf _, fun _ => ⟨Example.stepSafe _ _ _ _ (by decide),
    ⟨Example.stepSafe _ _ _ _ (by decide), trivial⟩, trivial⟩⟩,
    ⟨⟨fun _ => rfl, fun h => absurd h (by decide),
      ⟨fun _ => rfl, fun h => absurd h (by decide), trivial, trivial⟩⟩,
      fun _ => ⟨trivial, trivial⟩⟩, by decide, _, _, _, rfl, rfl, rfl, by decide, by decide, by decide⟩

/-- A transaction in which the second of two calls selfdestructs meets the hypothesis about selfdestructs. -/
example : (∀ f ∈ frames twoCalls, f.index ≤ 1 → selfdestructed f = false) ∧
    ∃ f ∈ frames twoCalls, selfdestructed f = true := by decide

/-- The two transactions of `C135_refuted` meet the hypotheses of `C135_call_frames` and `C135_when`. -/
example : ∃ (r : Tx → TI) (g : Tx → CallFrame),
    (∀ u ∈ [callerOf Op.ADD, callerOf Op.SUB], (u.WF ∧ Safe Config.all u.body) ∧
      TI.run Config.all TI.new u.events = .ok (r u) ∧
      gethCallTraces ⟨fun _ => none, fun _ => ""⟩ (r u).arena {} 21000 = .ok (g u)) ∧
    (∀ u ∈ [callerOf Op.ADD, callerOf Op.SUB], ∀ f ∈ frames u, f.index ≤ 1 → selfdestructed f = false) ∧
    frames (callerOf Op.ADD) ≠ [rootOf (callerOf Op.ADD)] := by
  have hw : ∀ u ∈ [callerOf Op.ADD, callerOf Op.SUB], u.WF ∧ Safe Config.all u.body := by
    intro u hu
    simp only [List.mem_cons, List.not_mem_nil, or_false] at hu
    rcases hu with rfl | rfl <;>
    exact ⟨callerOf_wf _, ⟨Example.stepSafe _ _ _ _ (by decide),
      ⟨Example.stepSafe _ _ _ _ (by decide), trivial⟩, trivial⟩⟩
  have hno : ∀ u ∈ [callerOf Op.ADD, callerOf Op.SUB], ∀ f ∈ frames u, f.index ≤ 1 →
      selfdestructed f = false := by
    intro u hu
    simp only [List.mem_cons, List.not_mem_nil, or_false] at hu
    rcases hu with rfl | rfl <;> decide
  have h : ∀ u, ∃ p : TI × CallFrame, u ∈ [callerOf Op.ADD, callerOf Op.SUB] →
      TI.run Config.all TI.new u.events = .ok p.1 ∧
      gethCallTraces ⟨fun _ => none, fun _ => ""⟩ p.1.arena {} 21000 = .ok p.2 := by
    intro u
    by_cases hu : u ∈ [callerOf Op.ADD, callerOf Op.SUB]
    · obtain ⟨s, hs, -⟩ := run_frames Config.all u (hw u hu).1 (hw u hu).2
      obtain ⟨h1, h2⟩ := recorded_calls Config.all u (hw u hu).1 (hw u hu).2 hs
        (hno u hu)
      obtain ⟨x, hx, -⟩ := h1.root
      exact ⟨(s, _), fun _ => ⟨hs, shaped_calls _ h1 hx h2 {} 21000 rfl rfl⟩⟩
    · exact ⟨(TI.new, {}), fun h => absurd h hu⟩
  obtain ⟨q, hq⟩ := Classical.axiomOfChoice h
  exact ⟨fun u => (q u).1, fun u => (q u).2, fun u hu => ⟨hw u hu, hq u hu⟩, hno, by
    rw [Ne, alone_iff]; decide⟩

end Verif.Props
