import Verif.Model.Changing
import Verif.Spec.Changing
import Verif.Lemmas.Steps
/-! The recording of an execution during which the configuration changes, in closed form. -/
namespace Verif
namespace Rec
open TI Spec

theorem runWith_append (es : List (Config × Event)) : ∀ (s : TI) (fs : List (Config × Event)),
    runWith s (es ++ fs) = match runWith s es with
      | .error p => .error p
      | .ok s' => runWith s' fs := by
  induction es with
  | nil => intros; rfl
  | cons e es ih =>
    intro s fs
    simp only [List.cons_append, runWith]
    cases hook e.1 s e.2 with
    | error p => rfl
    | ok s' => exact ih s' fs

theorem runWith_const (cfg : Config) (es : List Event) : ∀ s : TI,
    runWith s (es.map (fun e => (cfg, e))) = TI.run cfg s es := by
  induction es with
  | nil => intros; rfl
  | cons e es ih =>
    intro s
    simp only [List.map_cons, runWith, TI.run]
    cases hook cfg s e with
    | error p => rfl
    | ok s' => exact ih s'

theorem runWith_cons_ok {cfg : Config} {s s' : TI} {e : Event} {es : List (Config × Event)}
    (h : hook cfg s e = .ok s') : runWith s ((cfg, e) :: es) = runWith s' es := by
  simp only [runWith, h]

theorem runWith_append_ok {s s' : TI} {es fs : List (Config × Event)}
    (h : runWith s es = .ok s') : runWith s (es ++ fs) = runWith s' fs := by
  rw [runWith_append, h]

/-- Effect of a whole body on the node of the frame. -/
def ownC (d : Nat) : Nat → CBody → Node → Node
  | _, .nil, x => x
  | n, .act cfg a rest, x => ownC d n rest (actNode cfg d a x)
  | n, .sub cfg h b _ _ rest, x =>
    ownC d (n + 1 + b.plain.size) rest (attachIf (enterTrace cfg (some x.trace.value) d h) n x)

/-- The nodes a body appends. -/
def newNodesC : (d p : Nat) → (v : U256) → (n : Nat) → CBody → List Node
  | _, _, _, _, .nil => []
  | d, p, v, n, .act _ _ rest => newNodesC d p v n rest
  | d, p, v, n, .sub cfg h b _ o rest =>
    let t := enterTrace cfg (some v) d h
    leaveNode n d h o (ownC (d + 1) (n + 1) b { parent := some p, idx := n, trace := t }) ::
      (newNodesC (d + 1) n t.value (n + 1) b ++ newNodesC d p v (n + 1 + b.plain.size) rest)

theorem length_newNodesC (b : CBody) :
    ∀ d p v n, (newNodesC d p v n b).length = b.plain.size := by
  induction b with
  | nil => intros; rfl
  | act cfg a rest ih => intros; simp [newNodesC, CBody.plain, Body.size, ih]
  | sub cfg h b cfg' o rest ihb ihr =>
    intros; simp [newNodesC, CBody.plain, Body.size, ihb, ihr]; omega

theorem run_bodyC (b : CBody) : ∀ (d : Nat) (s : TI) (p : Nat) (stk : List Nat)
    (x : Node), s.traceStack = p :: stk → s.arena[p]? = some x →
    (b.plain.hasSub = true → ChainOK s.arena d (p :: stk)) → b.plain.WF → b.Safe →
    ∃ s', runWith s (b.hooks d) = .ok s' ∧ s'.traceStack = p :: stk ∧
      s'.arena = s.arena.set p (ownC d s.arena.length b x) ++
        newNodesC d p x.trace.value s.arena.length b := by
  induction b with
  | nil =>
    intro d s p stk x hstk hx _ _ _
    exact ⟨s, rfl, hstk, by simp [ownC, newNodesC, set_self hx]⟩
  | act cfg a rest ih =>
    intro d s p stk x hstk hx hch hwf hsafe
    have hlt := (List.getElem?_eq_some_iff.1 hx).1
    obtain ⟨s1, hr1, hst1, har1, _⟩ := run_act (d := d) hstk hx hsafe.1
    have hx1 : s1.arena[p]? = some (actNode cfg d a x) := by
      rw [har1, List.getElem?_set_self hlt]
    obtain ⟨s2, hr2, hst2, har2⟩ := ih d s1 p stk _ hst1 hx1 (by
      intro hs
      obtain ⟨r, hr, hp, hd⟩ := hch hs
      refine ⟨r, hr, ?_, hd⟩
      have hl := lastOf_of_reverse hr
      refine hp.congr r ?_ ?_
      · intro i hi; rw [har1, List.getElem?_set_ne (by omega)]
      · intro y hy
        rw [hl] at hy ⊢
        rw [hx] at hy; cases hy
        exact ⟨_, hx1, by simp⟩) hwf hsafe.2
    refine ⟨s2, ?_, hst2, ?_⟩
    · simp only [CBody.hooks]
      rw [runWith_append_ok ((runWith_const cfg _ s).trans hr1)]; exact hr2
    · rw [har2, har1]; simp [ownC, newNodesC]
  | sub cfg h b cfg' o rest ihb ihr =>
    intro d s p stk x hstk hx hch hwf hsafe
    obtain ⟨hwh, hpre, hwb, hwr⟩ := hwf
    obtain ⟨hsb, hsr⟩ := hsafe
    have hlt := (List.getElem?_eq_some_iff.1 hx).1
    obtain ⟨r, hr, hp, hd⟩ := hch rfl
    have hl := lastOf_of_reverse hr
    have hplen := hp.len r
    rw [hl] at hplen
    -- enter
    let t := enterTrace cfg (some x.trace.value) d h
    let x1 := attachIf t s.arena.length x
    let y : Node := { parent := some p, idx := s.arena.length, trace := t }
    have henter := hook_enter (cfg := cfg) (s := s) (h := h) (d := d) (pval := some x.trace.value)
      (by rw [hstk]; exact ⟨x, hx, rfl⟩)
    obtain ⟨x', hx', hpush⟩ := pushTraceLoop_path (A := s.arena)
      (kind := if excluded t then .pushOnly else .pushAndAttachToParent) (t := t) r
      (fuel := s.arena.length + 1) hp
      (by rw [show t.depth = d from enterTrace_depth ..]; omega) (by omega)
    rw [hl] at hx' hpush
    rw [hx] at hx'; cases hx'
    let s1 : TI := { s with
      arena := s.arena.set p x1 ++ [y]
      traceStack := s.arena.length :: s.traceStack }
    have h1 : hook cfg s (h.enter d) = .ok s1 := by
      rw [henter]
      simp only [pushTrace]
      rw [show enterTrace cfg (some x.trace.value) d h = t from rfl, hpush]
      simp only [hstk, List.isEmpty_cons, Bool.false_eq_true, if_false, s1, x1, y, attachIf]
      split <;> simp_all
    have hlen1 : s1.arena.length = s.arena.length + 1 := by simp [s1]
    have hy1 : s1.arena[s.arena.length]? = some y := by simp [s1]
    have hx1 : s1.arena[p]? = some x1 := by
      simp only [s1]
      rw [List.getElem?_append_left (by simpa using hlt), List.getElem?_set_self hlt]
    -- body
    obtain ⟨s2, hr2, hst2, har2⟩ := ihb (d + 1) s1 s.arena.length (p :: stk) y
      (by simp [s1, hstk]) hy1 (by
        intro hs
        have hne : excluded t = false := by
          cases he : excluded t with
          | false => rfl
          | true => rw [hpre (excluded_precompile hwh he)] at hs; exact absurd hs (by simp)
        refine ⟨r ++ [s.arena.length], ?_, ?_, by simp; omega⟩
        · rw [List.reverse_cons, hr]; rfl
        · refine hp.snoc r ?_ (by omega) ?_ ?_
          · intro i hi
            simp only [s1]
            rw [List.getElem?_append_left (by simp; omega), List.getElem?_set_ne (by omega)]
          · rw [hl]
            obtain ⟨z, hz, hzd⟩ := hp.last r
            rw [hl, hx] at hz; cases hz
            exact ⟨x1, hx1, by simpa [x1] using hzd, by simp [x1, attachIf, hne, Node.attach]⟩
          · exact ⟨y, hy1, by simp [y, t, enterTrace_depth]; omega⟩) hwb hsb
    -- leave
    have hlt2 : s.arena.length < s2.arena.length := by rw [har2]; simp; omega
    let y2 := ownC (d + 1) s1.arena.length b y
    have hy2 : s2.arena[s.arena.length]? = some y2 := by
      rw [har2, List.getElem?_append_left (by simp; omega), List.getElem?_set_self (by omega)]
    have hleave := hook_leave (cfg := cfg') (h := h) (d := d) (o := o) hst2 hy2
    obtain ⟨s3, hs3, hs3stk, hs3ar⟩ : ∃ s3, hook cfg' s2 (h.leave d o) = .ok s3 ∧
        s3.traceStack = p :: stk ∧
        s3.arena = s2.arena.set s.arena.length (leaveNode s.arena.length d h o y2) :=
      ⟨_, hleave, rfl, rfl⟩
    have hs3ar' : s3.arena = s.arena.set p x1 ++ (leaveNode s.arena.length d h o y2 ::
        newNodesC (d + 1) s.arena.length t.value (s.arena.length + 1) b) := by
      rw [hs3ar, har2, hlen1]
      simp only [s1]
      rw [List.set_append_left _ _ (by simp)]
      rw [list_set_set]
      rw [List.set_append_right _ _ (by simp)]
      simp [y]
    have hlen3 : s3.arena.length = s.arena.length + 1 + b.plain.size := by
      rw [hs3ar']; simp [length_newNodesC]; omega
    have hx3 : s3.arena[p]? = some x1 := by
      rw [hs3ar', List.getElem?_append_left (by simpa using hlt), List.getElem?_set_self hlt]
    -- rest
    obtain ⟨s4, hr4, hst4, har4⟩ := ihr d s3 p stk x1 hs3stk hx3 (by
        intro _
        refine ⟨r, hr, ?_, hd⟩
        refine hp.congr r ?_ ?_
        · intro i hi
          rw [hs3ar', List.getElem?_append_left (by simp; omega), List.getElem?_set_ne (by omega)]
        · intro z hz
          rw [hl] at hz ⊢
          rw [hx] at hz; cases hz
          exact ⟨_, hx3, by simp [x1]⟩) hwr hsr
    refine ⟨s4, ?_, hst4, ?_⟩
    · simp only [CBody.hooks]
      rw [runWith_cons_ok h1, runWith_append_ok hr2, runWith_cons_ok hs3]
      exact hr4
    · rw [har4, hlen3, hs3ar']
      rw [List.set_append_left _ _ (by simpa using hlt), list_set_set]
      have hv : x1.trace.value = x.trace.value := by simp [x1]
      simp only [ownC, newNodesC, hv, List.append_assoc, List.cons_append, y2, y, hlen1, x1, t]

/-- The node recorded for a frame entered with the configuration `cfg`. -/
def nodeOfC (cfg : Config) (f : FrameCtx) (b : CBody) : Node :=
  leaveNode f.index f.depth f.hdr f.out
    (ownC (f.depth + 1) (f.index + 1) b
      { parent := f.parent, idx := f.index, trace := enterTrace cfg f.parentValue f.depth f.hdr })

/-- The configurations with which the frames are entered. -/
def entered : CBody → List Config
  | .nil => []
  | .act _ _ rest => entered rest
  | .sub cfg _ b _ _ rest => cfg :: (entered b ++ entered rest)

theorem newNodesC_eq (b : CBody) : ∀ d p v n, newNodesC d p v n b =
    (entered b).zipWith (fun cfg f => nodeOfC cfg f.1 f.2) (subFramesC d p v n b) ∧
      (entered b).length = (subFramesC d p v n b).length := by
  induction b with
  | nil => intros; exact ⟨rfl, rfl⟩
  | act cfg a rest ih => intro d p v n; exact ih d p v n
  | sub cfg h b cfg' o rest ihb ihr =>
    intro d p v n
    simp only [newNodesC, entered, subFramesC, List.zipWith_cons_cons, List.length_cons,
      List.length_append, enterTrace_value]
    obtain ⟨b1, b2⟩ := ihb (d + 1) n (valueInScope (some v) h) (n + 1)
    obtain ⟨r1, r2⟩ := ihr d p v (n + 1 + b.plain.size)
    rw [List.zipWith_append b2, b1, r1, ← b2, ← r2]
    exact ⟨rfl, rfl⟩

/-- The recording of a whole transaction. -/
theorem run_txC (t : CTx) (hwf : t.plain.WF) (hsafe : t.body.Safe) :
    ∃ s, runWith TI.new t.hooks = .ok s ∧ s.traceStack = [] ∧
      s.arena = (t.cfg :: entered t.body).zipWith (fun cfg f => nodeOfC cfg f.1 f.2) (framesC t) ∧
      (t.cfg :: entered t.body).length = (framesC t).length := by
  obtain ⟨cfg, h, b, cfg', o⟩ := t
  let tr := enterTrace cfg none 0 h
  let x : Node := { trace := tr }
  have henter := hook_enter (cfg := cfg) (s := TI.new) (h := h) (d := 0) (pval := none) rfl
  have hpush : ∀ kind, pushTrace TI.new.arena 0 kind tr = .ok ([x], 0) := by
    intro kind
    simp only [pushTrace, pushTraceLoop, show tr.depth = 0 from enterTrace_depth .., if_true, x]
    rfl
  let s1 : TI := { arena := [x], traceStack := [0], specId := some (hdrSpec h) }
  have h1 : hook cfg TI.new (h.enter 0) = .ok s1 := by
    rw [henter, show enterTrace cfg none 0 h = tr from rfl, hpush]
    rfl
  obtain ⟨s2, hr2, hst2, har2⟩ := run_bodyC b 1 s1 0 [] x rfl rfl (by
    intro _
    exact ⟨[], rfl, ⟨x, rfl, by simp [x, tr, enterTrace_depth]⟩, rfl⟩) hwf.2.2 hsafe
  have hx2 : s2.arena[0]? = some (ownC 1 1 b x) := by
    rw [har2]; simp [s1]
  have hleave := hook_leave (cfg := cfg') (h := h) (d := 0) (o := o) hst2 hx2
  obtain ⟨n1, n2⟩ := newNodesC_eq b 1 0 (valueInScope none h) 1
  refine ⟨{ s2 with
      arena := s2.arena.set 0 (leaveNode 0 0 h o (ownC 1 1 b x))
      traceStack := [], lastCallReturnData := some o.result.output }, ?_, ?_, ?_, ?_⟩
  · simp only [CTx.hooks]
    rw [runWith_cons_ok h1, runWith_append_ok hr2, runWith_cons_ok hleave]
    rfl
  · rfl
  · have hv : x.trace.value = valueInScope none h := enterTrace_value ..
    simp only [har2, s1, hv, List.length_singleton, List.set_cons_zero, List.singleton_append, framesC,
      List.zipWith_cons_cons, n1]
    rfl
  · simp only [List.length_cons, framesC, n2]

/-! ### Without the configurations -/

theorem framesC_fst (b : CBody) : ∀ d p v n,
    (subFramesC d p v n b).map (·.1) = subFrames d p v n b.plain := by
  induction b with
  | nil => intros; rfl
  | act cfg a rest ih => intro d p v n; exact ih d p v n
  | sub cfg h b cfg' o rest ihb ihr =>
    intro d p v n
    simp only [subFramesC, CBody.plain, subFrames, List.map_cons, List.map_append, ihb, ihr]

theorem framesC_plain (b : CBody) : ∀ d p v n, ∀ f ∈ subFramesC d p v n b, f.1.body = f.2.plain := by
  induction b with
  | nil => intro d p v n f hf; simp [subFramesC] at hf
  | act cfg a rest ih => intro d p v n; exact ih d p v n
  | sub cfg h b cfg' o rest ihb ihr =>
    intro d p v n f hf
    simp only [subFramesC, List.mem_cons, List.mem_append] at hf
    rcases hf with rfl | hf | hf
    · rfl
    · exact ihb _ _ _ _ f hf
    · exact ihr _ _ _ _ f hf

theorem framesC_safe (b : CBody) (hb : b.Safe) : ∀ d p v n, ∀ f ∈ subFramesC d p v n b, f.2.Safe := by
  induction b with
  | nil => intro d p v n f hf; simp [subFramesC] at hf
  | act cfg a rest ih => intro d p v n; exact ih hb.2 d p v n
  | sub cfg h b cfg' o rest ihb ihr =>
    intro d p v n f hf
    simp only [subFramesC, List.mem_cons, List.mem_append] at hf
    rcases hf with rfl | hf | hf
    · exact hb.1
    · exact ihb hb.1 _ _ _ _ f hf
    · exact ihr hb.2 _ _ _ _ f hf

/-! ### The record of one frame -/

/-- The trace without what depends on the configuration. -/
def bare (t : CallTrace) : CallTrace := { t with steps := [], maybePrecompile := none }

theorem actNode_bare (cfg cfg' : Config) (d : Nat) (a : Act) (x y : Node)
    (h : bare x.trace = bare y.trace) :
    bare (actNode cfg d a x).trace = bare (actNode cfg' d a y).trace := by
  have hs : ∀ (cfg : Config) (x : Node), bare (actNode cfg d a x).trace = match a with
      | .selfdestruct a t v => bare (TI.selfdestructNode a t v x).trace
      | _ => bare x.trace := by
    intro cfg x
    cases a <;> simp only [actNode] <;> (try split) <;> rfl
  rw [hs cfg x, hs cfg' y]
  cases a with
  | selfdestruct a t v =>
    simp only [bare, TI.selfdestructNode, CallTrace.mk.injEq] at h ⊢
    simp_all
  | _ => exact h

theorem ownC_bare (cfg0 : Config) (d : Nat) (b : CBody) : ∀ n m (x y : Node),
    bare x.trace = bare y.trace →
      bare (ownC d n b x).trace = bare (own cfg0 d m b.plain y).trace := by
  induction b with
  | nil => intro n m x y h; exact h
  | act cfg a rest ih =>
    intro n m x y h
    simp only [ownC, CBody.plain, own]
    exact ih _ _ _ _ (actNode_bare cfg cfg0 d a x y h)
  | sub cfg h b cfg' o rest _ ih =>
    intro n m x y hb
    simp only [ownC, CBody.plain, own]
    exact ih _ _ _ _ (by simpa using hb)

theorem ownC_parent (d : Nat) (b : CBody) : ∀ n x, (ownC d n b x).parent = x.parent := by
  induction b with
  | nil => intros; rfl
  | act cfg a rest ih => intro n x; simp [ownC, ih]
  | sub cfg h b cfg' o rest _ ih => intro n x; simp [ownC, ih]

theorem ownC_idx (d : Nat) (b : CBody) : ∀ n x, (ownC d n b x).idx = x.idx := by
  induction b with
  | nil => intros; rfl
  | act cfg a rest ih => intro n x; simp [ownC, ih]
  | sub cfg h b cfg' o rest _ ih => intro n x; simp [ownC, ih]

theorem readFrame_bare (x y : Node) (hp : x.parent = y.parent) (h : bare x.trace = bare y.trace) :
    readFrame x = readFrame y := by
  simp only [bare, CallTrace.mk.injEq] at h
  simp only [readFrame, FrameData.mk.injEq]
  simp_all

theorem fillTrace_bare (c : Ctx) (n : Nat) (r : InterpreterResult) (k : Option Address)
    (t u : CallTrace) (h : bare t = bare u) :
    bare (TI.fillTrace c n r k t) = bare (TI.fillTrace c n r k u) := by
  simp only [bare, CallTrace.mk.injEq] at h
  cases k <;> simp only [bare, TI.fillTrace, CallTrace.mk.injEq] <;> simp_all

theorem enterTrace_bare (cfg cfg' pv d h) :
    bare (enterTrace cfg pv d h) = bare (enterTrace cfg' pv d h) := by
  cases h <;> rfl

theorem nodeOfC_readFrame (cfg cfg0 : Config) (f : FrameCtx) (b : CBody) (hb : f.body = b.plain) :
    readFrame (nodeOfC cfg f b) = readFrame (nodeOf cfg0 f) := by
  refine readFrame_bare _ _ ?_ ?_
  · simp only [nodeOfC, nodeOf, leaveNode, ownC_parent, own_parent]
  · simp only [nodeOfC, nodeOf, leaveNode]
    apply fillTrace_bare
    rw [hb]
    exact ownC_bare _ _ _ _ _ _ _ (enterTrace_bare ..)

theorem actNode_good (cfg : Config) (d p : Nat) (v : U256) (n : Nat) (a : Act)
    (hs : ∀ i c i' c', a = .step i c i' c' → StepSafe cfg i c i' c') (x : Node) (its : List Item)
    (h : Good x its) :
    Good (actNode cfg d a x) (its ++ bodyItems cfg d p v n (.act a .nil)) := by
  cases a with
  | step i c i' c' =>
    simp only [actNode, bodyItems, records_eq]
    split
    · rename_i hr
      rw [← readStep_finishStep (c := c) (by rw [records_eq]; exact hr) (hs i c i' c' rfl), List.append_nil]
      exact h.pushStep _
    · simpa using h
  | aborted i c =>
    simp only [actNode, bodyItems, records_eq]
    split
    · rw [← readStep_newStep cfg d i c, List.append_nil]; exact h.pushStep _
    · simpa using h
  | log c l =>
    simp only [actNode, bodyItems]
    split
    · simpa using h.log l
    · simpa using h
  | selfdestruct a t v =>
    simpa [actNode, bodyItems] using h.congr (x' := TI.selfdestructNode a t v x) rfl rfl rfl rfl

theorem ownC_good (d p : Nat) (b : CBody) (hwf : b.plain.WF) (hsafe : b.Safe) :
    ∀ n x its, Good x its →
      Good (ownC d n b x) (its ++ bodyItemsC d p x.trace.value n b) := by
  induction b with
  | nil => intro n x its h; simpa [ownC, bodyItemsC] using h
  | act cfg a rest ih =>
    intro n x its h
    simp only [ownC, bodyItemsC]
    rw [← List.append_assoc]
    have := ih hwf hsafe.2 n (actNode cfg d a x) _ (actNode_good cfg d p x.trace.value n a hsafe.1 x its h)
    rwa [actNode_value] at this
  | sub cfg h b cfg' o rest _ ih =>
    intro n x its hg
    simp only [ownC, bodyItemsC]
    rw [← List.append_assoc]
    have := ih hwf.2.2.2 hsafe.2 (n + 1 + b.plain.size)
      (attachIf (enterTrace cfg (some x.trace.value) d h) n x)
    rw [attachIf_trace] at this
    apply this
    simp only [attachIf, excluded_eq cfg n p d _ h b.plain o hwf.1]
    split
    · simpa using hg
    · simpa using hg.attach n

theorem nodeOfC_good (cfg : Config) (f : FrameCtx) (b : CBody) (hwf : b.plain.WF) (hsafe : b.Safe) :
    Good (nodeOfC cfg f b) (itemsC f b) := by
  have h := ownC_good (f.depth + 1) f.index b hwf hsafe (f.index + 1)
    { parent := f.parent, idx := f.index, trace := enterTrace cfg f.parentValue f.depth f.hdr } []
    ⟨rfl, by cases f.hdr <;> simp [enterTrace, stepItems], rfl, rfl⟩
  simp only [List.nil_append, enterTrace_value] at h
  unfold itemsC
  refine Good.congr h rfl ?_ rfl rfl
  simp only [nodeOfC, leaveNode, TI.fillTrace]
  split <;> rfl

/-! ### The steps of one frame -/

/-- The steps made for a list of instructions. -/
def stepsForC (d : Nat) : List (Config × Instr) → Option CallTraceStep → List CallTraceStep
  | [], _ => []
  | a :: as, prev => stepFor a.1 d a.2 prev :: stepsForC d as (some (stepFor a.1 d a.2 prev))

theorem ownC_steps (d : Nat) (b : CBody) : ∀ n x,
    (ownC d n b x).trace.steps =
      x.trace.steps ++ stepsForC d (instrsC b) x.trace.steps.getLast? := by
  induction b with
  | nil => intro n x; simp [ownC, instrsC, stepsForC]
  | act cfg a rest ih =>
    intro n x
    cases a with
    | step i c i' c' =>
      simp only [ownC, instrsC, instrs, actNode, records_eq, ih]
      split <;> simp [stepsForC, stepFor, TI.pushStep]
    | aborted i c =>
      simp only [ownC, instrsC, instrs, actNode, records_eq, ih]
      split <;> simp [stepsForC, stepFor, TI.pushStep]
    | log c l =>
      simp only [ownC, instrsC, instrs, actNode, ih]
      split <;> simp [TI.logNode]
    | selfdestruct a t v => simp [ownC, instrsC, instrs, actNode, ih, TI.selfdestructNode]
  | sub cfg h b cfg' o rest _ ih => intro n x; simp [ownC, instrsC, ih]

theorem nodeOfC_steps (cfg : Config) (f : FrameCtx) (b : CBody) :
    (nodeOfC cfg f b).trace.steps = stepsForC (f.depth + 1) (instrsC b) none := by
  have h := ownC_steps (f.depth + 1) b (f.index + 1)
    { parent := f.parent, idx := f.index, trace := enterTrace cfg f.parentValue f.depth f.hdr }
  have he : (enterTrace cfg f.parentValue f.depth f.hdr).steps = [] := by cases f.hdr <;> rfl
  simp only [he, List.nil_append, List.getLast?_nil] at h
  rw [← h]
  simp only [nodeOfC, leaveNode, TI.fillTrace]
  split <;> rfl

theorem instrsC_safe (b : CBody) (hb : b.Safe) : ∀ a ∈ instrsC b, records a.1 a.2.before.op = true ∧
    ∀ i' c', a.2.after = some (i', c') → StepSafe a.1 a.2.before a.2.ctx i' c' := by
  induction b with
  | nil => intro a ha; simp [instrsC] at ha
  | act cfg x rest ih =>
    intro a ha
    simp only [instrsC, List.mem_append] at ha
    rcases ha with ha | ha
    · cases x with
      | step i c i' c' =>
        simp only [instrs] at ha
        split at ha
        · simp only [List.append_nil, List.map_cons, List.map_nil, List.mem_singleton] at ha
          subst ha
          refine ⟨by assumption, ?_⟩
          intro j e h
          simp only [Option.some.injEq, Prod.mk.injEq] at h
          obtain ⟨rfl, rfl⟩ := h
          exact hb.1 _ _ _ _ rfl
        · simp at ha
      | aborted i c =>
        simp only [instrs] at ha
        split at ha
        · simp only [List.append_nil, List.map_cons, List.map_nil, List.mem_singleton] at ha
          subst ha
          exact ⟨by assumption, fun _ _ h => nomatch h⟩
        · simp at ha
      | log c l => simp [instrs] at ha
      | selfdestruct a t v => simp [instrs] at ha
    · exact ih hb.2 a ha
  | sub cfg h b cfg' o rest _ ih => intro a ha; exact ih hb.2 a ha

end Rec
end Verif
