import Verif.Lemmas.Steps
import Verif.Model.Geth
/-! The loop of `fill_geth_trace` visits the steps in the order of execution. -/
namespace Verif
namespace Rec
open Spec

/-- `call_step_stack` with the remaining children instead of an index. -/
def tagItems (x : Node) : List CallTraceStep → List Nat → List StackItem
  | [], _ => []
  | s :: ss, cs =>
    if s.isCalllikeOp then
      match cs with
      | c :: cs => ⟨x, s, some c⟩ :: tagItems x ss cs
      | [] => ⟨x, s, none⟩ :: tagItems x ss []
    else ⟨x, s, none⟩ :: tagItems x ss cs

theorem callStepStackFrom_eq (x : Node) (ss : List CallTraceStep) : ∀ k,
    x.callStepStackFrom k ss = tagItems x ss (x.children.drop k) := by
  induction ss with
  | nil => intro k; rfl
  | cons s ss ih =>
    intro k
    simp only [Node.callStepStackFrom, tagItems]
    by_cases hs : s.isCalllikeOp = true
    · simp only [hs, if_true]
      cases hc : x.children[k]? with
      | some c =>
        have hlt := (List.getElem?_eq_some_iff.1 hc).1
        have : x.children.drop k = c :: x.children.drop (k + 1) := by
          rw [List.drop_eq_getElem_cons hlt]
          rw [(List.getElem?_eq_some_iff.1 hc).2]
        rw [this]
        simp [ih]
      | none =>
        have hge := List.getElem?_eq_none_iff.1 hc
        have : x.children.drop k = [] := List.drop_eq_nil_of_le hge
        rw [this]
        simp [ih, this]
    · simp only [hs, Bool.false_eq_true, if_false, ih]

/-- The steps of a body in the order of execution, with the frame and instruction of each. -/
def seqBody (cfg : Config) : FrameCtx → Nat → Option CallTraceStep → Body →
    List (FrameCtx × Instr × CallTraceStep)
  | _, _, _, .nil => []
  | f, n, prev, .act (.step i c i' c') rest =>
    (f, ⟨i, c, some (i', c')⟩, stepFor cfg (f.depth + 1) ⟨i, c, some (i', c')⟩ prev) ::
      seqBody cfg f n (some (stepFor cfg (f.depth + 1) ⟨i, c, some (i', c')⟩ prev)) rest
  | f, n, prev, .act (.aborted i c) rest =>
    (f, ⟨i, c, none⟩, stepFor cfg (f.depth + 1) ⟨i, c, none⟩ prev) ::
      seqBody cfg f n (some (stepFor cfg (f.depth + 1) ⟨i, c, none⟩ prev)) rest
  | f, n, prev, .act _ rest => seqBody cfg f n prev rest
  | f, n, prev, .sub h b o rest =>
    seqBody cfg ⟨n, some f.index, f.depth + 1, some f.value, h, b, o⟩ (n + 1) none b ++
      seqBody cfg f (n + 1 + b.size) prev rest

theorem seqBody_chron (cfg : Config) (b : Body) : ∀ f n prev,
    (seqBody cfg f n prev b).map (fun e => (e.1, e.2.1)) = chronBody f n b := by
  induction b with
  | nil => intros; rfl
  | act a rest ih => intro f n prev; cases a <;> simp [seqBody, chronBody, ih]
  | sub h b o rest ihb ihr => intro f n prev; simp [seqBody, chronBody, ihb, ihr]

theorem seqBody_step (cfg : Config) (b : Body) : ∀ f n prev, ∀ e ∈ seqBody cfg f n prev b,
    ∃ prev', e.2.2 = stepFor cfg (e.1.depth + 1) e.2.1 prev' := by
  induction b with
  | nil => intro f n prev e he; simp [seqBody] at he
  | act a rest ih =>
    intro f n prev e he
    cases a with
    | step i c i' c' =>
      simp only [seqBody, List.mem_cons] at he
      rcases he with rfl | he
      · exact ⟨prev, rfl⟩
      · exact ih _ _ _ e he
    | aborted i c =>
      simp only [seqBody, List.mem_cons] at he
      rcases he with rfl | he
      · exact ⟨prev, rfl⟩
      · exact ih _ _ _ e he
    | log c l => exact ih _ _ _ e he
    | selfdestruct x y z => exact ih _ _ _ e he
  | sub h b o rest ihb ihr =>
    intro f n prev e he
    simp only [seqBody, List.mem_append] at he
    rcases he with he | he
    · exact ihb _ _ _ e he
    · exact ihr _ _ _ e he

/-- All instructions pass the filter. -/
def RecordsAll (cfg : Config) : Prop := ∀ op, records cfg op = true

theorem fillStep_op {cfg : Config} {i : Interp} {c : Ctx} {st st' : CallTraceStep}
    (h : TI.fillStep cfg i c st = .ok st') : st'.op = st.op ∧ st'.contract = st.contract := by
  unfold TI.fillStep at h
  dsimp only at h
  split at h
  · simp at h
  · split at h
    · simp at h
    · simp only [Except.ok.injEq] at h
      rw [← h]; exact ⟨rfl, rfl⟩

theorem stepFor_op (cfg : Config) (d : Nat) (a : Instr) (prev : Option CallTraceStep) :
    (stepFor cfg d a prev).op = a.before.op ∧
    (stepFor cfg d a prev).contract = a.before.contract := by
  unfold stepFor
  cases a.after with
  | none => exact ⟨rfl, rfl⟩
  | some p =>
    obtain ⟨i', c'⟩ := p
    dsimp only
    unfold finishStep
    split
    · rename_i s hs
      have := fillStep_op hs
      exact ⟨this.1, this.2⟩
    · exact ⟨rfl, rfl⟩

set_option maxRecDepth 20000 in
theorem entersFrame_eq (op : OpCode) : Op.isCalllike op = entersFrame op := by
  have h : ∀ n : Fin 256, Op.isCalllike (UInt8.ofNat n.val) = entersFrame (UInt8.ofNat n.val) := by
    decide
  have := h ⟨op.toNat, op.toNat_lt⟩
  simpa using this

theorem stepFor_calllike (cfg : Config) (d : Nat) (a : Instr) (prev : Option CallTraceStep) :
    (stepFor cfg d a prev).isCalllikeOp = entersFrame a.before.op := by
  rw [CallTraceStep.isCalllikeOp, (stepFor_op ..).1, entersFrame_eq]

/-- Child indices of a body when nothing is excluded. -/
theorem ownChildren_att (cfg : Config) (d p : Nat) (v : U256) (b : Body) : ∀ n,
    (∀ g ∈ subFrames d p v n b, Spec.excluded cfg g = false) →
    (b.hasSub = false → ownChildren cfg d p v n b = []) := by
  induction b with
  | nil => intros; rfl
  | act a rest ih => intro n hx hs; exact ih n hx hs
  | sub h b o rest _ _ => intro n hx hs; simp [Body.hasSub] at hs

/-- The items on the stack for the remaining body; with `pending` the child's items have already
been pushed. -/
def itemsOf (cfg : Config) (f : FrameCtx) (n : Nat) (prev : Option CallTraceStep) :
    Bool → Body → List StackItem
  | true, .sub h b o rest =>
    (nodeOf cfg ⟨n, some f.index, f.depth + 1, some f.value, h, b, o⟩).callStepStack ++
      tagItems (nodeOf cfg f) (stepsFor cfg (f.depth + 1) (instrs cfg rest) prev)
        (ownChildren cfg (f.depth + 1) f.index f.value (n + 1 + b.size) rest)
  | _, b =>
    tagItems (nodeOf cfg f) (stepsFor cfg (f.depth + 1) (instrs cfg b) prev)
      (ownChildren cfg (f.depth + 1) f.index f.value n b)

theorem nodeOf_children (cfg : Config) (f : FrameCtx) (hwf : f.body.WF) :
    (nodeOf cfg f).children = ownChildren cfg (f.depth + 1) f.index f.value (f.index + 1) f.body := by
  have h := own_children cfg (f.depth + 1) f.index f.body hwf (f.index + 1)
    { parent := f.parent, idx := f.index, trace := enterTrace cfg f.parentValue f.depth f.hdr }
  simp only [enterTrace_value, List.nil_append] at h
  rw [show (nodeOf cfg f).children = (own cfg (f.depth + 1) (f.index + 1) f.body
    { parent := f.parent, idx := f.index,
      trace := enterTrace cfg f.parentValue f.depth f.hdr }).children from rfl, h]
  rfl

theorem nodeOf_callStepStack (cfg : Config) (f : FrameCtx) (hwf : f.body.WF) :
    (nodeOf cfg f).callStepStack = itemsOf cfg f (f.index + 1) none false f.body := by
  rw [Node.callStepStack, callStepStackFrom_eq, List.drop_zero, nodeOf_steps,
    nodeOf_children cfg f hwf]
  rfl

/-- Process the steps in order. -/
def processAll (cfg : Config) (opts : GethOptions) (st : FillState)
    (l : List (FrameCtx × Instr × CallTraceStep)) : FillState :=
  l.foldl (fun st e => st.process opts (nodeOf cfg e.1) e.2.2) st

theorem itemsOf_false (cfg f n prev b) : itemsOf cfg f n prev false b =
    tagItems (nodeOf cfg f) (stepsFor cfg (f.depth + 1) (instrs cfg b) prev)
      (ownChildren cfg (f.depth + 1) f.index f.value n b) := by
  cases b <;> rfl

theorem fillLoop_body (cfg : Config) (nodes : List Node) (opts : GethOptions) (hall : RecordsAll cfg)
    (b : Body) : ∀ (f : FrameCtx) (n : Nat) (prev : Option CallTraceStep) (pending : Bool)
    (K : List StackItem) (st : FillState) (fuel : Nat),
    b.WF → Attached pending b →
    (∀ g ∈ subFrames (f.depth + 1) f.index f.value n b,
      Spec.excluded cfg g = false ∧ nodes[g.index]? = some (nodeOf cfg g)) →
    fillLoop nodes opts ((seqBody cfg f n prev b).length + fuel) (itemsOf cfg f n prev pending b ++ K) st =
      fillLoop nodes opts fuel K (processAll cfg opts st (seqBody cfg f n prev b)) := by
  induction b with
  | nil =>
    intro f n prev pending K st fuel _ _ _
    cases pending <;> simp [itemsOf, seqBody, processAll, instrs, stepsFor, tagItems, ownChildren]
  | act a rest ih =>
    intro f n prev pending K st fuel hwf hatt hn
    -- one instruction
    have one : ∀ (ins : Instr), entersFrame ins.before.op = isCallStep a →
        instrs cfg (.act a rest) = ins :: instrs cfg rest →
        seqBody cfg f n prev (.act a rest) = (f, ins, stepFor cfg (f.depth + 1) ins prev) ::
          seqBody cfg f n (some (stepFor cfg (f.depth + 1) ins prev)) rest →
        fillLoop nodes opts ((seqBody cfg f n prev (.act a rest)).length + fuel)
          (itemsOf cfg f n prev pending (.act a rest) ++ K) st =
        fillLoop nodes opts fuel K (processAll cfg opts st (seqBody cfg f n prev (.act a rest))) := by
      intro ins hent hins hseq
      have hitems : itemsOf cfg f n prev pending (.act a rest) =
          tagItems (nodeOf cfg f) (stepFor cfg (f.depth + 1) ins prev ::
            stepsFor cfg (f.depth + 1) (instrs cfg rest) (some (stepFor cfg (f.depth + 1) ins prev)))
            (ownChildren cfg (f.depth + 1) f.index f.value n rest) := by
        cases pending <;> simp only [itemsOf, hins, stepsFor, ownChildren]
      rw [hitems, hseq, List.length_cons,
        show ∀ m k : Nat, m + 1 + k = (m + k) + 1 by intros; omega]
      have hpa : ∀ l, processAll cfg opts st ((f, ins, stepFor cfg (f.depth + 1) ins prev) :: l) =
          processAll cfg opts (st.process opts (nodeOf cfg f) (stepFor cfg (f.depth + 1) ins prev)) l := by
        intro l; rfl
      rw [hpa]
      have hnext := ih f n (some (stepFor cfg (f.depth + 1) ins prev)) (isCallStep a) K
        (st.process opts (nodeOf cfg f) (stepFor cfg (f.depth + 1) ins prev)) fuel hwf hatt.2 hn
      simp only [tagItems, stepFor_calllike, hent]
      cases hcs : isCallStep a with
      | false =>
        rw [hcs, itemsOf_false] at hnext
        simp only [Bool.false_eq_true, if_false, List.cons_append, fillLoop]
        exact hnext
      | true =>
        rw [hcs] at hnext
        simp only [if_true]
        cases rest with
        | nil =>
          simp only [ownChildren, List.cons_append, fillLoop]
          simpa [itemsOf, ownChildren] using hnext
        | act a' rest' =>
          have hno : ownChildren cfg (f.depth + 1) f.index f.value n (.act a' rest') = [] := by
            apply ownChildren_att cfg _ _ _ _ n (fun g hg => (hn g hg).1)
            have h2 := hatt.2
            rw [hcs] at h2
            exact h2.1 rfl
          rw [hno]
          simp only [List.cons_append, fillLoop]
          simpa [itemsOf, hno] using hnext
        | sub h b o rest' =>
          have hg := hn ⟨n, some f.index, f.depth + 1, some f.value, h, b, o⟩
            (by simp [subFrames])
          simp only [ownChildren, hg.1, Bool.false_eq_true, if_false]
          simp only [show ([n] ++ ownChildren cfg (f.depth + 1) f.index f.value (n + 1 + b.size) rest') = n :: ownChildren cfg (f.depth + 1) f.index f.value (n + 1 + b.size) rest' from rfl,
            List.cons_append, fillLoop, hg.2, Node.pushStepsOnStack]
          simpa [itemsOf, List.append_assoc, instrs] using hnext
    cases a with
    | step i c i' c' =>
      exact one ⟨i, c, some (i', c')⟩ rfl (by simp [instrs, hall i.op]) rfl
    | aborted i c => exact one ⟨i, c, none⟩ rfl (by simp [instrs, hall i.op]) rfl
    | log c l =>
      have : itemsOf cfg f n prev pending (.act (.log c l) rest) = itemsOf cfg f n prev false rest := by
        rw [itemsOf_false]; cases pending <;> rfl
      rw [this]
      exact ih f n prev false K st fuel hwf hatt.2 hn
    | selfdestruct x y z =>
      have : itemsOf cfg f n prev pending (.act (.selfdestruct x y z) rest) =
          itemsOf cfg f n prev false rest := by
        rw [itemsOf_false]; cases pending <;> rfl
      rw [this]
      exact ih f n prev false K st fuel hwf hatt.2 hn
  | sub h b o rest ihb ihr =>
    intro f n prev pending K st fuel hwf hatt hn
    obtain ⟨hp, hatb, hatr⟩ := hatt
    subst hp
    simp only [itemsOf, seqBody, List.length_append, List.append_assoc]
    have hg : ∀ g ∈ subFrames (f.depth + 1 + 1) n
        (valueInScope (some f.value) h) (n + 1) b,
        Spec.excluded cfg g = false ∧ nodes[g.index]? = some (nodeOf cfg g) :=
      fun g hg => hn g (by simp only [subFrames, List.mem_cons, List.mem_append]; exact Or.inr (Or.inl hg))
    have hr : ∀ g ∈ subFrames (f.depth + 1) f.index f.value (n + 1 + b.size) rest,
        Spec.excluded cfg g = false ∧ nodes[g.index]? = some (nodeOf cfg g) :=
      fun g hg => hn g (by simp only [subFrames, List.mem_cons, List.mem_append]; exact Or.inr (Or.inr hg))
    rw [nodeOf_callStepStack cfg ⟨n, some f.index, f.depth + 1, some f.value, h, b, o⟩ hwf.2.2.1]
    have e1 := ihb ⟨n, some f.index, f.depth + 1, some f.value, h, b, o⟩ (n + 1) none false
      (tagItems (nodeOf cfg f) (stepsFor cfg (f.depth + 1) (instrs cfg rest) prev)
        (ownChildren cfg (f.depth + 1) f.index f.value (n + 1 + b.size) rest) ++ K) st
      ((seqBody cfg f (n + 1 + b.size) prev rest).length + fuel) hwf.2.2.1 hatb hg
    rw [Nat.add_assoc, e1, ← itemsOf_false]
    rw [ihr f (n + 1 + b.size) prev false K _ fuel hwf.2.2.2 hatr hr]
    simp [processAll, List.foldl_append]

/-! ### Fuel -/

theorem seqBody_length (cfg : Config) (hall : RecordsAll cfg) (b : Body) : ∀ f n prev,
    (seqBody cfg f n prev b).length = (instrs cfg b).length +
      ((subFrames (f.depth + 1) f.index f.value n b).map
        (fun g => (instrs cfg g.body).length)).sum := by
  induction b with
  | nil => intros; rfl
  | act a rest ih =>
    intro f n prev
    have hall' : ∀ op, records cfg op = true := hall
    cases a <;> simp [seqBody, instrs, subFrames, ih, hall'] <;> omega
  | sub h b o rest ihb ihr =>
    intro f n prev
    simp only [seqBody, instrs, subFrames, List.length_append, ihb, ihr, List.map_cons,
      List.map_append, List.sum_cons, List.sum_append]
    have : (⟨n, some f.index, f.depth + 1, some f.value, h, b, o⟩ : FrameCtx).value =
      valueInScope (some f.value) h := rfl
    rw [this]
    omega

theorem totalSteps_frames (cfg : Config) (t : Tx) (hall : RecordsAll cfg) :
    totalSteps ((frames t).map (nodeOf cfg)) =
      (seqBody cfg ⟨0, none, 0, none, t.hdr, t.body, t.out⟩ 1 none t.body).length := by
  rw [seqBody_length cfg hall]
  simp only [totalSteps, List.map_map, frames, List.map_cons, List.sum_cons]
  have h : ∀ g : FrameCtx, ((fun x : Node => x.trace.steps.length) ∘ nodeOf cfg) g =
      (instrs cfg g.body).length := by
    intro g; simp [nodeOf_steps, stepsFor_length]
  rw [show (fun x : Node => x.trace.steps.length) ∘ nodeOf cfg =
    fun g : FrameCtx => (instrs cfg g.body).length from funext h]
  simp only [nodeOf_steps, stepsFor_length]
  rfl

theorem frames_lookup (cfg : Config) (t : Tx) : ∀ g ∈ frames t,
    ((frames t).map (nodeOf cfg))[g.index]? = some (nodeOf cfg g) := by
  intro g hg
  obtain ⟨k, hk⟩ := List.getElem?_of_mem hg
  have := frames_index hk
  rw [this, List.getElem?_map, hk]; rfl

/-- The struct logs of a recorded transaction: the steps in the order of execution, processed one
after the other. -/
theorem gethTraces_run (cfg : Config) (t : Tx) (opts : GethOptions) (gas : Nat) (ret : Bytes)
    (hwf : t.WF) (hall : RecordsAll cfg) (hatt : Attached false t.body)
    (hex : ∀ g ∈ frames t, Spec.excluded cfg g = false) :
    gethTraces ((frames t).map (nodeOf cfg)) gas ret opts = .ok
      { failed := !t.out.result.result.isOk, gas := gas, returnValue := ret,
        structLogs := (processAll cfg opts {} (seqBody cfg
          ⟨0, none, 0, none, t.hdr, t.body, t.out⟩ 1 none t.body)).logs } := by
  have hroot : (⟨0, none, 0, none, t.hdr, t.body, t.out⟩ : FrameCtx) ∈ frames t := by
    simp [frames]
  have hmem : ∀ g ∈ subFrames 1 0 (valueInScope none t.hdr) 1 t.body, g ∈ frames t :=
    fun g hg => by simp only [frames, List.mem_cons]; exact Or.inr hg
  have hcons : (frames t).map (nodeOf cfg) =
      nodeOf cfg ⟨0, none, 0, none, t.hdr, t.body, t.out⟩ ::
        (subFrames 1 0 (valueInScope none t.hdr) 1 t.body).map (nodeOf cfg) := rfl
  have hloop := fillLoop_body cfg ((frames t).map (nodeOf cfg)) opts hall t.body
    ⟨0, none, 0, none, t.hdr, t.body, t.out⟩ 1 none false [] {} 0 hwf.2.2 hatt
    (fun g hg => ⟨hex g (hmem g hg), frames_lookup cfg t g (hmem g hg)⟩)
  rw [Nat.add_zero, ← totalSteps_frames cfg t hall] at hloop
  have hfill : fillGethTrace ((frames t).map (nodeOf cfg))
      (nodeOf cfg ⟨0, none, 0, none, t.hdr, t.body, t.out⟩) opts {} =
      .ok (processAll cfg opts {} (seqBody cfg
          ⟨0, none, 0, none, t.hdr, t.body, t.out⟩ 1 none t.body)) := by
    rw [fillGethTrace, Node.pushStepsOnStack,
      nodeOf_callStepStack cfg ⟨0, none, 0, none, t.hdr, t.body, t.out⟩ hwf.2.2]
    rw [hloop]
    simp [fillLoop]
  have hsucc : (nodeOf cfg ⟨0, none, 0, none, t.hdr, t.body, t.out⟩).trace.success =
      t.out.result.result.isOk := by
    simp only [nodeOf, leaveNode, TI.fillTrace]
    split <;> rfl
  unfold gethTraces
  rw [hcons]
  dsimp only
  rw [← hcons, hfill]
  simp only [hsucc]

/-! ### The logs, one by one -/

/-- What a step contributes to the storage history. -/
def stepWrite (s : CallTraceStep) : Address × Option (U256 × U256) :=
  (s.contract, s.storageChange.map (fun c => (c.key, c.value)))

/-- The accumulated storage after a history (most recent first). -/
structure StorageInv (m : OMap Address (OMap U256 U256)) (hist : List (Address × Option (U256 × U256))) :
    Prop where
  sorted : OMap.Sorted m
  inner : ∀ a cs, OMap.get? m a = some cs → OMap.Sorted cs
  value : ∀ a k, OMap.get? ((OMap.get? m a).getD []) k = latestWrite a k hist

/-- One struct log, given the history before it. -/
structure LogOK (cfg : Config) (opts : GethOptions) (hist : List (Address × Option (U256 × U256)))
    (e : FrameCtx × Instr × CallTraceStep) (log : StructLog) : Prop where
  base : { log with storage := none, returnData := none } = e.2.2.toStructLog opts
  ret : log.returnData =
    if opts.isReturnDataEnabled then some (nodeOf cfg e.1).trace.output else none
  absent : opts.isStorageEnabled = false ∨ e.2.2.storageChange = none → log.storage = none
  present : opts.isStorageEnabled = true → e.2.2.storageChange ≠ none → ∃ m, log.storage = some m ∧
    OMap.Sorted m ∧ ∀ k, OMap.get? m k = latestWrite e.2.2.contract k (stepWrite e.2.2 :: hist)

theorem process_spec (cfg : Config) (opts : GethOptions) (st : FillState)
    (e : FrameCtx × Instr × CallTraceStep) (hist : List (Address × Option (U256 × U256)))
    (hinv : opts.isStorageEnabled = true → StorageInv st.storage hist) :
    ∃ log, (st.process opts (nodeOf cfg e.1) e.2.2).logs = st.logs ++ [log] ∧
      LogOK cfg opts hist e log ∧
      (opts.isStorageEnabled = true →
        StorageInv (st.process opts (nodeOf cfg e.1) e.2.2).storage (stepWrite e.2.2 :: hist)) := by
  obtain ⟨f, ins, s⟩ := e
  unfold FillState.process
  dsimp only
  by_cases hs : opts.isStorageEnabled = true
  · have hi := hinv hs
    have hcs : OMap.Sorted ((OMap.get? st.storage s.contract).getD []) := by
      cases hg : OMap.get? st.storage s.contract with
      | none => exact OMap.sorted_nil
      | some cs => exact hi.inner _ _ hg
    simp only [hs, if_true]
    cases hch : s.storageChange with
    | none =>
      dsimp only
      refine ⟨_, rfl, ?_, ?_⟩
      · constructor
        · cases opts.isReturnDataEnabled <;> rfl
        · cases opts.isReturnDataEnabled <;> rfl
        · intro _; cases opts.isReturnDataEnabled <;> rfl
        · intro _ h; exact absurd hch h
      · intro _
        constructor
        · exact OMap.sorted_insert _ _ hi.sorted
        · intro a cs h
          rw [OMap.get?_insert_eq _ _ _ _ hi.sorted] at h
          split at h
          · simp only [Option.some.injEq] at h; rw [← h]; exact hcs
          · exact hi.inner a cs h
        · intro a k
          rw [OMap.get?_insert_eq _ _ _ _ hi.sorted]
          simp only [stepWrite, hch, Option.map_none, latestWrite, reduceCtorEq, and_false, if_false]
          split
          · rename_i h; subst h; exact hi.value _ k
          · exact hi.value a k
    | some c =>
      dsimp only
      have hget : ∀ k, OMap.get? (OMap.insert ((OMap.get? st.storage s.contract).getD []) c.key c.value) k
          = latestWrite s.contract k (stepWrite s :: hist) := by
        intro k
        rw [OMap.get?_insert_eq _ _ _ _ hcs, hi.value]
        simp only [stepWrite, hch, Option.map_some, latestWrite, true_and, Option.some.injEq]
        by_cases h : c.key = k
        · simp [h]
        · have h' : ¬ k = c.key := fun e => h e.symm
          simp [h, h']
      refine ⟨_, rfl, ?_, ?_⟩
      · constructor
        · cases opts.isReturnDataEnabled <;> rfl
        · cases opts.isReturnDataEnabled <;> rfl
        · rintro (h | h)
          · rw [hs] at h; nomatch h
          · rw [show (f, ins, s).2.2 = s from rfl, hch] at h; nomatch h
        · intro _ _
          refine ⟨_, ?_, OMap.sorted_insert c.key c.value hcs, hget⟩
          cases opts.isReturnDataEnabled <;> rfl
      · intro _
        constructor
        · exact OMap.sorted_insert _ _ hi.sorted
        · intro a cs h
          rw [OMap.get?_insert_eq _ _ _ _ hi.sorted] at h
          split at h
          · simp only [Option.some.injEq] at h; rw [← h]; exact OMap.sorted_insert _ _ hcs
          · exact hi.inner a cs h
        · intro a k
          rw [OMap.get?_insert_eq _ _ _ _ hi.sorted]
          split
          · rename_i h; subst h; exact hget k
          · rename_i h
            have h' : ¬ s.contract = a := fun e => h e.symm
            rw [hi.value]
            simp [stepWrite, latestWrite, h']
  · have hs' : opts.isStorageEnabled = false := by simpa using hs
    simp only [hs', Bool.false_eq_true, if_false]
    refine ⟨_, rfl, ?_, fun h => nomatch h⟩
    constructor
    · cases opts.isReturnDataEnabled <;> rfl
    · cases opts.isReturnDataEnabled <;> rfl
    · intro _; cases opts.isReturnDataEnabled <;> rfl
    · intro h _; rw [hs'] at h; nomatch h

theorem processAll_spec (cfg : Config) (opts : GethOptions) :
    ∀ (l : List (FrameCtx × Instr × CallTraceStep)) (st : FillState)
      (hist : List (Address × Option (U256 × U256))),
    (opts.isStorageEnabled = true → StorageInv st.storage hist) →
    ∃ L, (processAll cfg opts st l).logs = st.logs ++ L ∧ L.length = l.length ∧
      ∀ (k : Nat) (e : FrameCtx × Instr × CallTraceStep) (log : StructLog),
        l[k]? = some e → L[k]? = some log →
        LogOK cfg opts (((l.take k).map (fun e => stepWrite e.2.2)).reverse ++ hist) e log := by
  intro l
  induction l with
  | nil => intro st hist _; exact ⟨[], by simp [processAll], rfl, by simp⟩
  | cons e l ih =>
    intro st hist hinv
    obtain ⟨log, h1, h2, h3⟩ := process_spec cfg opts st e hist hinv
    obtain ⟨L, g1, g2, g3⟩ := ih (st.process opts (nodeOf cfg e.1) e.2.2) (stepWrite e.2.2 :: hist) h3
    refine ⟨log :: L, ?_, by simp [g2], ?_⟩
    · rw [show processAll cfg opts st (e :: l) =
        processAll cfg opts (st.process opts (nodeOf cfg e.1) e.2.2) l from rfl, g1, h1]
      simp
    · intro k e' log' he hl
      cases k with
      | zero =>
        simp only [List.getElem?_cons_zero, Option.some.injEq] at he hl
        subst he; subst hl
        simpa using h2
      | succ k =>
        simp only [List.getElem?_cons_succ] at he hl
        have := g3 k e' log' he hl
        simpa using this

end Rec
end Verif
