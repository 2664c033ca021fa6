import Verif.Props.Options
import Verif.Props.VmEntries
import Verif.Spec.Suffices
/-!
# C109: a request is answered alike from every recording that holds what it needs
-/
namespace Verif.Props
open Spec Parity

section
variable (c : Config)

/-! ### Struct logs -/

/-- A struct log in a recording with `c`. -/
def keepLog (l : StructLog) : StructLog :=
  { l with
    stack := if c.recordStackSnapshots = .Full then l.stack else none
    memory := if c.recordMemorySnapshots then l.memory else none
    storage := if c.recordStateDiff then l.storage else none }

/-- The position on the stack of the loop, in a recording with `c`. -/
def keepEntry (x : StackItem) : StackItem :=
  { x with node := keepOnly c x.node, step := keepFields c x.step }

theorem steps_keep (hs : c.recordSteps = true) (n : Node) :
    (keepOnly c n).trace.steps = n.trace.steps.map (keepFields c) := by simp [keepOnly, hs]

theorem callStepStackFrom_keep (n : Node) (k : Nat) (l : List CallTraceStep) :
    (keepOnly c n).callStepStackFrom k (l.map (keepFields c)) =
      (n.callStepStackFrom k l).map (keepEntry c) := by
  induction l generalizing k with
  | nil => rfl
  | cons st l ih =>
    have hc : (keepFields c st).isCalllikeOp = st.isCalllikeOp := rfl
    have hk : (keepOnly c n).children = n.children := rfl
    simp only [List.map_cons, Node.callStepStackFrom, hc, hk]
    split
    · split <;> simp only [List.map_cons, ih] <;> rfl
    · simp only [List.map_cons, ih]; rfl

theorem pushSteps_keep (hs : c.recordSteps = true) (n : Node) (st : List StackItem) :
    (keepOnly c n).pushStepsOnStack (st.map (keepEntry c)) =
      (n.pushStepsOnStack st).map (keepEntry c) := by
  unfold Node.pushStepsOnStack Node.callStepStack
  rw [steps_keep c hs, callStepStackFrom_keep, List.map_append]

/-- The state of the loop over a recording with `c`, compared with the one over all. -/
def KeptState (st' st : FillState) : Prop :=
  st'.logs = st.logs.map (keepLog c) ∧ (c.recordStateDiff = true → st'.storage = st.storage)

theorem process_keep (opts : GethOptions) (st' st : FillState) (h : KeptState c st' st) (n : Node) (s : CallTraceStep) :
    KeptState c (st'.process opts (keepOnly c n) (keepFields c s)) (st.process opts n s) := by
  have hlog : (keepFields c s).toStructLog opts = keepLog c (s.toStructLog opts) := by
    unfold CallTraceStep.toStructLog keepLog keepFields
    congr 1
    · dsimp only; split <;> split <;> rfl
    · dsimp only; split <;> rfl
    · dsimp only; split <;> split <;> rfl
  have hout : (keepOnly c n).trace.output = n.trace.output := rfl
  have hcon : (keepFields c s).contract = s.contract := rfl
  have hst : (keepFields c s).storageChange = if c.recordStateDiff then s.storageChange else none := rfl
  obtain ⟨h1, h2⟩ := h
  unfold KeptState FillState.process
  rw [hlog, hout, hcon, hst, h1]
  cases hd : c.recordStateDiff with
  | true =>
    rw [h2 hd]
    cases opts.isStorageEnabled <;> cases opts.isReturnDataEnabled <;> cases s.storageChange <;>
      simp [keepLog, hd]
  | false =>
    cases opts.isStorageEnabled <;> cases opts.isReturnDataEnabled <;> cases s.storageChange <;>
      simp [keepLog, hd]

theorem fillLoop_keep (hs : c.recordSteps = true) (opts : GethOptions) (nodes : List Node) (fuel : Nat)
    (l : List StackItem) (st' st : FillState) (h : KeptState c st' st) :
    (fillLoop (nodes.map (keepOnly c)) opts fuel (l.map (keepEntry c)) st').map (·.logs) =
      (fillLoop nodes opts fuel l st).map (fun x => x.logs.map (keepLog c)) := by
  induction fuel generalizing l st' st with
  | zero =>
    cases l with
    | nil => exact congrArg Except.ok h.1
    | cons x l => rfl
  | succ fuel ih =>
    cases l with
    | nil => exact congrArg Except.ok h.1
    | cons x l =>
      have hx : (keepEntry c x).callChildId = x.callChildId := rfl
      have hp := process_keep c opts st' st h x.node x.step
      simp only [List.map_cons, fillLoop, hx]
      cases x.callChildId with
      | none => exact ih l _ _ hp
      | some id =>
        simp only [List.getElem?_map]
        cases nodes[id]? with
        | none => rfl
        | some child =>
          dsimp only [Option.map_some]
          rw [pushSteps_keep c hs]
          exact ih _ _ _ hp

/-- The answer in a recording with `c`. -/
def keepFrame (f : DefaultFrame) : DefaultFrame :=
  onlyOf (c.recordStackSnapshots = .Full) c.recordMemorySnapshots c.recordStateDiff f

theorem gethTraces_keep (hs : c.recordSteps = true) (opts : GethOptions) (nodes : List Node) (gas : Nat)
    (ret : Bytes) :
    gethTraces (nodes.map (keepOnly c)) gas ret opts =
      (gethTraces nodes gas ret opts).map (keepFrame c) := by
  cases nodes with
  | nil => rfl
  | cons main rest =>
    have ht : totalSteps ((main :: rest).map (keepOnly c)) = totalSteps (main :: rest) := by
      unfold totalSteps
      rw [List.map_map]
      congr 1
      apply List.map_congr_left
      intro n _
      simp [steps_keep c hs]
    have h := fillLoop_keep c hs opts (main :: rest) (totalSteps (main :: rest)) (main.pushStepsOnStack []) {} {}
      ⟨rfl, fun _ => rfl⟩
    rw [← pushSteps_keep c hs, List.map_nil] at h
    have hsu : (keepOnly c main).trace.success = main.trace.success := rfl
    rw [List.map_cons] at h ht
    simp only [List.map_cons, gethTraces, fillGethTrace, ht, hsu]
    revert h
    cases fillLoop (keepOnly c main :: rest.map (keepOnly c)) opts (totalSteps (main :: rest))
        ((keepOnly c main).pushStepsOnStack []) {} with
    | error e =>
      cases fillLoop (main :: rest) opts (totalSteps (main :: rest)) (main.pushStepsOnStack []) {} with
      | error e' => intro h; cases h; rfl
      | ok st => intro h; cases h
    | ok st' =>
      cases fillLoop (main :: rest) opts (totalSteps (main :: rest)) (main.pushStepsOnStack []) {} with
      | error e' => intro h; cases h
      | ok st =>
        intro h
        have h : st'.logs = st.logs.map (keepLog c) := Except.ok.inj h
        show Except.ok _ = Except.ok _
        rw [h]
        unfold keepFrame onlyOf keepLog
        simp

/-! ### vmTrace -/

/-- A `vmTrace` in a recording with `c`. -/
def keepVm (v : VmTrace) : VmTrace :=
  vmOnly (c.recordStackSnapshots = .Pushes) c.recordMemorySnapshots c.recordStateDiff v

/-- An entry in a recording with `c`. -/
def keepVmIn (x : VmInstruction) : VmInstruction :=
  vmOnlyIn (c.recordStackSnapshots = .Pushes) c.recordMemorySnapshots c.recordStateDiff x

theorem vmOnlyList_map (p m d : Bool) (l : List VmInstruction) : vmOnlyList p m d l = l.map (vmOnlyIn p m d) := by
  induction l with
  | nil => rw [vmOnlyList]; rfl
  | cons x l ih => rw [vmOnlyList, ih]; rfl

theorem vmOnlyOpt_map (p m d : Bool) (o : Option VmTrace) : vmOnlyOpt p m d o = o.map (vmOnly p m d) := by
  cases o with
  | none => rw [vmOnlyOpt]; rfl
  | some v => rw [vmOnlyOpt]; rfl

theorem keepVm_mk (code : Bytes) (l : List VmInstruction) :
    keepVm c (.mk code l) = .mk code (l.map (keepVmIn c)) := by
  unfold keepVm
  rw [vmOnly, vmOnlyList_map]
  rfl

theorem keepVmIn_make (st : CallTraceStep) (sub : Option VmTrace) :
    makeInstruction (keepFields c st) (sub.map (keepVm c)) = keepVmIn c (makeInstruction st sub) := by
  unfold keepVmIn makeInstruction keepFields
  rw [vmOnlyIn, vmOnlyOpt_map]
  simp only [decide_eq_true_eq]
  congr 1
  congr 1
  · split <;> rfl
  · split <;> rfl
  · split <;> rfl

theorem instrLoop_keep (b : Bool) (l : List CallTraceStep) (q : List VmTrace) (ins : List VmInstruction) :
    instrLoop b (l.map (keepFields c)) (q.map (keepVm c)) (ins.map (keepVmIn c)) =
      ((instrLoop b l q ins).1, (instrLoop b l q ins).2.1.map (keepVm c),
        (instrLoop b l q ins).2.2.map (keepVmIn c)) := by
  induction l generalizing q ins with
  | nil => rfl
  | cons st l ih =>
    have hc : (keepFields c st).isCalllikeOp = st.isCalllikeOp := rfl
    have hst : (keepFields c st).isStop = st.isStop := rfl
    simp only [List.map_cons, instrLoop, hc, hst, List.isEmpty_map]
    have hsub : (if st.isCalllikeOp = true then (q.map (keepVm c)).head? else none) =
        (if st.isCalllikeOp = true then q.head? else none).map (keepVm c) := by
      split <;> simp
    have hq : (if st.isCalllikeOp = true then (q.map (keepVm c)).tail else q.map (keepVm c)) =
        (if st.isCalllikeOp = true then q.tail else q).map (keepVm c) := by
      split <;> simp
    rw [hsub, hq, keepVmIn_make c]
    split
    · rfl
    · have : ins.map (keepVmIn c) ++ [keepVmIn c (makeInstruction st
          (if st.isCalllikeOp = true then q.head? else none))] =
          (ins ++ [makeInstruction st (if st.isCalllikeOp = true then q.head? else none)]).map (keepVmIn c) := by
        simp
      rw [this]
      exact ih _ _

theorem lastStop_keep (hst : c.recordSteps = true) (nodes : List Node) :
    isLastStepStopOp (nodes.map (keepOnly c)) = isLastStepStopOp nodes := by
  unfold isLastStepStopOp
  rw [List.getLast?_map]
  cases nodes.getLast? with
  | none => rfl
  | some n =>
    dsimp only [Option.map_some]
    rw [steps_keep c hst, List.getLast?_map]
    cases n.trace.steps.getLast? <;> rfl

theorem vmLoop_keep (hst : c.recordSteps = true) (nodes : List Node) (fuel : Nat) (stack : List Nat)
    (q : List VmTrace) (cur : Node) (k : Nat) :
    vmLoop (nodes.map (keepOnly c)) fuel stack (q.map (keepVm c)) (keepOnly c cur) k =
      (vmLoop nodes fuel stack q cur k).map (List.map (keepVmIn c)) := by
  induction fuel generalizing stack q cur k with
  | zero => rfl
  | succ fuel ih =>
    have hch : (keepOnly c cur).children = cur.children := rfl
    have hpa : (keepOnly c cur).parent = cur.parent := rfl
    simp only [vmLoop, hch, hpa, List.getElem?_map, lastStop_keep c hst, steps_keep c hst]
    cases cur.children[k]? with
    | some child =>
      dsimp only
      cases nodes[child]? with
      | none => rfl
      | some next => exact ih _ _ _ _
    | none =>
      dsimp only
      have h := instrLoop_keep c (isLastStepStopOp nodes) cur.trace.steps q []
      rw [List.map_nil] at h
      rw [h]
      obtain ⟨b, q', ins⟩ := instrLoop (isLastStepStopOp nodes) cur.trace.steps q []
      cases b with
      | true => rfl
      | false =>
        dsimp only
        cases cur.parent with
        | none => rfl
        | some p =>
          dsimp only
          cases stack with
          | nil => rfl
          | cons ci stack =>
            dsimp only
            cases nodes[p]? with
            | none => rfl
            | some next =>
              dsimp only [Option.map_some]
              have : q'.map (keepVm c) ++ [VmTrace.mk [] (ins.map (keepVmIn c))] =
                  (q' ++ [VmTrace.mk [] ins]).map (keepVm c) := by
                simp [keepVm_mk]
              rw [this]
              exact ih _ _ _ _

theorem vmTrace_keep (hst : c.recordSteps = true) (nodes : List Node) :
    vmTrace (nodes.map (keepOnly c)) = (vmTrace nodes).map (keepVm c) := by
  cases nodes with
  | nil =>
    show Except.ok _ = Except.ok _
    rw [keepVm_mk]
    rfl
  | cons start rest =>
    have hf : vmFuel ((start :: rest).map (keepOnly c)) = vmFuel (start :: rest) := by
      unfold vmFuel
      rw [List.map_map]
      rfl
    have h := vmLoop_keep c hst (start :: rest) (vmFuel (start :: rest)) [] [] start 0
    rw [List.map_nil] at h
    rw [List.map_cons] at h hf
    simp only [List.map_cons, vmTrace, hf, h]
    cases vmLoop (start :: rest) (vmFuel (start :: rest)) [] [] start 0 with
    | error e => rfl
    | ok ins =>
      show Except.ok _ = Except.ok _
      rw [keepVm_mk]
end

/-- Two recordings restrict to the same one. -/
theorem meet_arena {g a b : Config} (ha : RecordsLess g a) (hb : RecordsLess g b) {es : List Event} {s s' : TI}
    (hr : TI.run a TI.new es = .ok s) (hr' : TI.run b TI.new es = .ok s') :
    s.arena.map (keepOnly g) = s'.arena.map (keepOnly g) := by
  obtain ⟨t, ht, hta, -⟩ := C66_options_only_add g a ha es s hr
  obtain ⟨t', ht', htb, -⟩ := C66_options_only_add g b hb es s' hr'
  rw [ht] at ht'
  cases ht'
  rw [← hta, htb]

/-- A recording has nothing that is off. -/
theorem self_arena {a : Config} {es : List Event} {s : TI} (hr : TI.run a TI.new es = .ok s) :
    s.arena.map (keepOnly a) = s.arena := by
  obtain ⟨t, ht, hta, -⟩ := C66_options_only_add a a ⟨rfl, fun _ => rfl, id, id, id, id, id, .inr rfl⟩ es s hr
  rw [hr] at ht
  cases ht
  exact hta.symm

/-- Two inspectors list the same instructions. -/
structure SameSteps (a b : Config) : Prop where
  here : a.recordSteps = true
  there : b.recordSteps = true
  filter : a.recordOpcodesFilter = b.recordOpcodesFilter
  exclude : a.excludePrecompileCalls = b.excludePrecompileCalls

/-- **C109, exactly** (struct logs). Over any sequence of hook calls: what `geth_traces` answers from a
recording is what it answers from one that records the same instructions with full stacks, memory and
storage changes, without the stacks, memories and storage maps that were not recorded, and with nothing
else changed. -/
theorem C109_struct_logs_exact (cfg full : Config) (hsame : SameSteps cfg full)
    (hf1 : full.recordStackSnapshots = .Full) (hf2 : full.recordMemorySnapshots = true)
    (hf3 : full.recordStateDiff = true) (es : List Event) (s s' : TI)
    (hr : TI.run cfg TI.new es = .ok s) (hr' : TI.run full TI.new es = .ok s')
    (opts : GethOptions) (gas : Nat) (ret : Bytes) :
    gethTraces s.arena gas ret opts = (gethTraces s'.arena gas ret opts).map
      (onlyOf (cfg.recordStackSnapshots = .Full) cfg.recordMemorySnapshots cfg.recordStateDiff) := by
  let g : Config := { cfg with
    recordStackSnapshots := if cfg.recordStackSnapshots = .Full then .Full else .None
    recordLogs := false
    recordReturndataSnapshots := false }
  have hg : RecordsLess g cfg := by
    refine ⟨rfl, fun _ => rfl, id, by simp [g], id, by simp [g], id, ?_⟩
    by_cases h : cfg.recordStackSnapshots = .Full <;> simp [g, h]
  have hg' : RecordsLess g full := by
    refine ⟨hsame.exclude, fun _ => hsame.filter, fun _ => hsame.there, by simp [g], fun _ => hf2, by simp [g],
      fun _ => hf3, ?_⟩
    by_cases h : cfg.recordStackSnapshots = .Full <;> simp [g, h, hf1]
  have hk : keepFrame g = keepFrame cfg := by
    funext f
    unfold keepFrame
    congr 1
    by_cases h : cfg.recordStackSnapshots = .Full <;> simp [g, h]
  have e := meet_arena hg hg' hr hr'
  have e1 := gethTraces_keep g hsame.here opts s.arena gas ret
  rw [e, gethTraces_keep g hsame.here opts s'.arena gas ret, hk, ← gethTraces_keep cfg hsame.here opts s.arena,
    self_arena hr] at e1
  exact e1.symm

/-- **C109, exactly** (vmTrace). Over any sequence of hook calls: the `vmTrace` built from a recording is the
one built from a recording of the same instructions with pushed items, memory and storage changes, without
the pushed items, pieces of memory and storage entries that were not recorded, and with nothing else
changed. -/
theorem C109_vm_exact (cfg full : Config) (hsame : SameSteps cfg full)
    (hf1 : full.recordStackSnapshots = .Pushes) (hf2 : full.recordMemorySnapshots = true)
    (hf3 : full.recordStateDiff = true) (es : List Event) (s s' : TI)
    (hr : TI.run cfg TI.new es = .ok s) (hr' : TI.run full TI.new es = .ok s') :
    vmTrace s.arena = (vmTrace s'.arena).map
      (vmOnly (cfg.recordStackSnapshots = .Pushes) cfg.recordMemorySnapshots cfg.recordStateDiff) := by
  let g : Config := { cfg with
    recordStackSnapshots := if cfg.recordStackSnapshots = .Pushes then .Pushes else .None
    recordLogs := false
    recordReturndataSnapshots := false }
  have hg : RecordsLess g cfg := by
    refine ⟨rfl, fun _ => rfl, id, by simp [g], id, by simp [g], id, ?_⟩
    by_cases h : cfg.recordStackSnapshots = .Pushes <;> simp [g, h]
  have hg' : RecordsLess g full := by
    refine ⟨hsame.exclude, fun _ => hsame.filter, fun _ => hsame.there, by simp [g], fun _ => hf2, by simp [g],
      fun _ => hf3, ?_⟩
    by_cases h : cfg.recordStackSnapshots = .Pushes <;> simp [g, h, hf1]
  have hk : keepVm g = keepVm cfg := by
    funext f
    unfold keepVm
    congr 1
    by_cases h : cfg.recordStackSnapshots = .Pushes <;> simp [g, h]
  have e := meet_arena hg hg' hr hr'
  have e1 := vmTrace_keep g hsame.here s.arena
  rw [e, vmTrace_keep g hsame.here s'.arena, hk, ← vmTrace_keep cfg hsame.here s.arena,
    self_arena hr] at e1
  exact e1.symm

/-- What is off in the options is not in the answer. -/
theorem process_off (opts : GethOptions) (st : FillState) (n : Node) (s : CallTraceStep)
    (h : ∀ l ∈ st.logs, keepLog (Config.fromGethConfig opts) l = l) :
    ∀ l ∈ (st.process opts n s).logs, keepLog (Config.fromGethConfig opts) l = l := by
  intro l hl
  obtain ⟨a, b, c, d⟩ := opts
  unfold FillState.process at hl
  rcases List.mem_append.1 hl with hl | hl
  · exact h l hl
  · rw [List.mem_singleton] at hl
    subst hl
    rcases a with _ | _ | _ <;> rcases b with _ | _ | _ <;> rcases c with _ | _ | _ <;>
      rcases d with _ | _ | _ <;> cases s.storageChange <;> rfl

theorem fillLoop_off (opts : GethOptions) (nodes : List Node) (fuel : Nat) (l : List StackItem) (st r : FillState)
    (h : ∀ l ∈ st.logs, keepLog (Config.fromGethConfig opts) l = l)
    (hr : fillLoop nodes opts fuel l st = .ok r) :
    ∀ l ∈ r.logs, keepLog (Config.fromGethConfig opts) l = l := by
  induction fuel generalizing l st with
  | zero =>
    cases l with
    | nil => cases hr; exact h
    | cons x l => cases hr
  | succ fuel ih =>
    cases l with
    | nil => cases hr; exact h
    | cons x l =>
      have hp := process_off opts st x.node x.step h
      simp only [fillLoop] at hr
      cases hc : x.callChildId with
      | none => rw [hc] at hr; exact ih l _ hp hr
      | some id =>
        rw [hc] at hr
        dsimp only at hr
        cases hn : nodes[id]? with
        | none => rw [hn] at hr; cases hr
        | some child => rw [hn] at hr; exact ih _ _ hp hr

theorem gethTraces_off (opts : GethOptions) (nodes : List Node) (gas : Nat) (ret : Bytes) :
    (gethTraces nodes gas ret opts).map (keepFrame (Config.fromGethConfig opts)) =
      gethTraces nodes gas ret opts := by
  cases nodes with
  | nil => rfl
  | cons main rest =>
    simp only [gethTraces, fillGethTrace]
    cases hr : fillLoop (main :: rest) opts (totalSteps (main :: rest)) (main.pushStepsOnStack []) {} with
    | error e => rfl
    | ok r =>
      have h := fillLoop_off opts _ _ _ _ r (by intro l hl; cases hl) hr
      show Except.ok _ = Except.ok _
      congr 1
      unfold keepFrame onlyOf
      congr 1
      refine (List.map_congr_left ?_).trans (List.map_id _)
      intro l hl
      refine Eq.trans ?_ (h l hl)
      simp [keepLog]

/-- **C109** (struct logs). Over any sequence of hook calls: whatever two inspectors record, if both hold what
the configuration made for the options records, `geth_traces` answers alike from both. -/
theorem C109_struct_logs (opts : GethOptions) (a b : Config)
    (ha : RecordsLess (Config.fromGethConfig opts) a) (hb : RecordsLess (Config.fromGethConfig opts) b)
    (es : List Event) (s s' : TI) (hr : TI.run a TI.new es = .ok s) (hr' : TI.run b TI.new es = .ok s')
    (gas : Nat) (ret : Bytes) :
    gethTraces s.arena gas ret opts = gethTraces s'.arena gas ret opts := by
  rw [← gethTraces_off opts s.arena, ← gethTraces_keep (Config.fromGethConfig opts) rfl opts s.arena,
    meet_arena ha hb hr hr', gethTraces_keep (Config.fromGethConfig opts) rfl, gethTraces_off]

/-- The configuration made for the `vmTrace` type. -/
theorem fromParity_vm (types : List TraceType) (hv : TraceType.VmTrace ∈ types) :
    (Config.fromParityConfig types).recordSteps = true ∧
    (Config.fromParityConfig types).recordStackSnapshots = .Pushes ∧
    (Config.fromParityConfig types).recordMemorySnapshots = true := by
  simp [Config.fromParityConfig, Config.setSteps, Config.setStackSnapshots, Config.setMemorySnapshots, hv]

/-- **C109** (vmTrace, partial: the storage entries depend on what was recorded besides, see
`C109_refuted_stores`). Over any sequence of hook calls: whatever two inspectors record, if both hold what the
configuration made for the `vmTrace` type records, the traces built from both are the same but for the
storage entries; and those are the same too if both or neither record storage changes. -/
theorem C109_vm_partial (types : List TraceType) (hv : TraceType.VmTrace ∈ types) (a b : Config)
    (ha : RecordsLess (Config.fromParityConfig types) a) (hb : RecordsLess (Config.fromParityConfig types) b)
    (es : List Event) (s s' : TI) (hr : TI.run a TI.new es = .ok s) (hr' : TI.run b TI.new es = .ok s') :
    (vmTrace s.arena).map (vmOnly true true false) = (vmTrace s'.arena).map (vmOnly true true false) ∧
    (a.recordStateDiff = b.recordStateDiff → vmTrace s.arena = vmTrace s'.arena) := by
  obtain ⟨h1, h2, h3⟩ := fromParity_vm types hv
  have stackOf : ∀ x : Config, RecordsLess (Config.fromParityConfig types) x → x.recordStackSnapshots = .Pushes := by
    intro x hx
    have := hx.stack
    rw [h2] at this
    exact (this.resolve_left (by simp)).symm
  refine ⟨?_, fun hd => ?_⟩
  · have hk : keepVm { Config.fromParityConfig types with recordStateDiff := false } = vmOnly true true false := by
      funext v
      simp [keepVm, h2, h3]
    have ha' : RecordsLess { Config.fromParityConfig types with recordStateDiff := false } a :=
      { ha with stateDiff := by simp }
    have hb' : RecordsLess { Config.fromParityConfig types with recordStateDiff := false } b :=
      { hb with stateDiff := by simp }
    rw [← hk, ← vmTrace_keep _ (by exact h1), meet_arena ha' hb' hr hr', vmTrace_keep _ (by exact h1)]
  · let g : Config := { Config.fromParityConfig types with recordStateDiff := a.recordStateDiff }
    have ha' : RecordsLess g a := { ha with stateDiff := id }
    have hb' : RecordsLess g b := { hb with stateDiff := fun h => hd ▸ h }
    have ka : keepVm a = keepVm g := by
      funext v
      simp [keepVm, g, h2, h3, stackOf a ha, ha.memory h3]
    have kb : keepVm b = keepVm g := by
      funext v
      simp [keepVm, g, h2, h3, stackOf b hb, hb.memory h3, hd]
    have ea := vmTrace_keep a (ha.steps h1) s.arena
    rw [self_arena hr, ka, ← vmTrace_keep g h1, meet_arena ha' hb' hr hr', vmTrace_keep g h1, ← kb,
      ← vmTrace_keep b (hb.steps h1), self_arena hr'] at ea
    exact ea

mutual
/-- Taking away twice. -/
theorem vmOnly_vmOnly (p m d p' m' d' : Bool) : ∀ v : VmTrace,
    vmOnly p m d (vmOnly p' m' d' v) = vmOnly (p && p') (m && m') (d && d') v
  | .mk code ops => by
    simp only [vmOnly]
    rw [vmOnlyList_vmOnlyList p m d p' m' d' ops]
theorem vmOnlyList_vmOnlyList (p m d p' m' d' : Bool) : ∀ l : List VmInstruction,
    vmOnlyList p m d (vmOnlyList p' m' d' l) = vmOnlyList (p && p') (m && m') (d && d') l
  | [] => by simp only [vmOnlyList]
  | x :: rest => by
    simp only [vmOnlyList]
    rw [vmOnlyIn_vmOnlyIn p m d p' m' d' x, vmOnlyList_vmOnlyList p m d p' m' d' rest]
theorem vmOnlyIn_vmOnlyIn (p m d p' m' d' : Bool) : ∀ x : VmInstruction,
    vmOnlyIn p m d (vmOnlyIn p' m' d' x) = vmOnlyIn (p && p') (m && m') (d && d') x
  | .mk pc cost ex sub op => by
    simp only [vmOnlyIn]
    rw [vmOnlyOpt_vmOnlyOpt p m d p' m' d' sub]
    cases p <;> cases m <;> cases d <;> rfl
theorem vmOnlyOpt_vmOnlyOpt (p m d p' m' d' : Bool) : ∀ o : Option VmTrace,
    vmOnlyOpt p m d (vmOnlyOpt p' m' d' o) = vmOnlyOpt (p && p') (m && m') (d && d') o
  | none => by simp only [vmOnlyOpt]
  | some v => by
    simp only [vmOnlyOpt]
    rw [vmOnly_vmOnly p m d p' m' d' v]
end

theorem map_map_R {α β γ : Type} (f : α → β) (g : β → γ) (r : R α) : (r.map f).map g = r.map (fun x => g (f x)) := by
  cases r <;> rfl

/-- **C109, the configuration documented to have everything enabled.** Over any sequence of hook calls and
for all options, the struct logs from a recording with `TracingInspectorConfig::all()` are those from the
configuration made for the options without any storage map; and, with precompile calls left out as for
parity, its `vmTrace` is that from the configuration made for the `vmTrace` type without any pushed item. -/
theorem C109_all_exact (es : List Event) (s : TI) (hr : TI.run Config.all TI.new es = .ok s) (gas : Nat) (ret : Bytes) :
    (∀ (opts : GethOptions) (s' : TI), TI.run (Config.fromGethConfig opts) TI.new es = .ok s' →
      gethTraces s.arena gas ret opts =
        (gethTraces s'.arena gas ret opts).map (onlyOf true true false)) ∧
    (∀ (types : List TraceType) (s1 s' : TI), TraceType.VmTrace ∈ types →
      TI.run (Config.all.setExcludePrecompileCalls true) TI.new es = .ok s1 →
      TI.run (Config.fromParityConfig types) TI.new es = .ok s' →
      vmTrace s1.arena = (vmTrace s'.arena).map (vmOnly false true true)) := by
  refine ⟨fun opts s' hr' => ?_, fun types s1 s' hv hr1 hr' => ?_⟩
  · let g : Config := { Config.fromGethConfig opts with recordStateDiff := false }
    have hga : RecordsLess g Config.all := by
      refine ⟨rfl, fun _ => rfl, fun _ => rfl, fun _ => rfl, fun _ => rfl, fun _ => rfl, by simp [g], ?_⟩
      show (if _ then _ else _) = _ ∨ (if _ then _ else _) = _
      split
      · exact .inl rfl
      · exact .inr rfl
    have hgb : RecordsLess g (Config.fromGethConfig opts) :=
      ⟨rfl, fun _ => rfl, id, id, id, id, by simp [g], .inr rfl⟩
    have hcomp : ∀ f, keepFrame g f = onlyOf true true false (keepFrame (Config.fromGethConfig opts) f) := by
      intro f
      simp [keepFrame, onlyOf, g]
    have hcomp' : ∀ f, keepFrame g f = keepFrame (Config.fromGethConfig opts) (keepFrame Config.all f) := by
      intro f
      simp [keepFrame, onlyOf, g, Config.all]
    have hself := gethTraces_keep Config.all rfl opts s.arena gas ret
    rw [self_arena hr] at hself
    have e := gethTraces_keep g rfl opts s.arena gas ret
    have el : (gethTraces s'.arena gas ret opts).map (keepFrame g) =
        (gethTraces s'.arena gas ret opts).map (onlyOf true true false) := by
      rw [funext hcomp, ← map_map_R, gethTraces_off]
    have er : (gethTraces s.arena gas ret opts).map (keepFrame g) = gethTraces s.arena gas ret opts := by
      rw [funext hcomp', ← map_map_R, ← hself, gethTraces_off]
    rw [meet_arena hga hgb hr hr', gethTraces_keep g rfl, el, er] at e
    exact e.symm
  · obtain ⟨h1, h2, h3⟩ := fromParity_vm types hv
    let g : Config := { Config.fromParityConfig types with recordStackSnapshots := .None }
    have hd : (Config.fromParityConfig types).recordStateDiff = false := rfl
    have hga : RecordsLess g (Config.all.setExcludePrecompileCalls true) :=
      ⟨rfl, fun _ => rfl, fun _ => rfl, fun _ => rfl, fun _ => rfl, fun _ => rfl, by simp [g, hd], .inl rfl⟩
    have hgb : RecordsLess g (Config.fromParityConfig types) :=
      ⟨rfl, fun _ => rfl, id, id, id, id, id, .inl rfl⟩
    have kg : keepVm g = vmOnly false true false := by
      funext v; simp [keepVm, g, h3, hd]
    have ka : keepVm (Config.all.setExcludePrecompileCalls true) = vmOnly false true false := by
      funext v; simp [keepVm, Config.all, Config.setExcludePrecompileCalls]
    have kp : keepVm (Config.fromParityConfig types) = vmOnly true true false := by
      funext v; simp [keepVm, h2, h3, hd]
    have e1 := vmTrace_keep (Config.all.setExcludePrecompileCalls true) rfl s1.arena
    rw [self_arena hr1, ka, ← kg, ← vmTrace_keep g h1, meet_arena hga hgb hr1 hr', vmTrace_keep g h1, kg] at e1
    have e2 := vmTrace_keep _ h1 s'.arena
    rw [self_arena hr', kp] at e2
    rw [e1]
    conv => rhs; rw [e2]
    rw [map_map_R]
    simp only [vmOnly_vmOnly, Bool.and_true, Bool.and_false]

/-- **C109, refuted for the configuration with everything enabled.** After an SSTORE of 9 to slot 5 the
struct logs of the default request show the slot; those from a recording with everything enabled do not.
The `vmTrace` from it does not show the item PC puts on the stack. -/
theorem C109_refuted_all : VmExample.txWrites.WF ∧ (∀ cfg, Safe cfg VmExample.txWrites.body) ∧
    (∃ s s' f f', TI.run Config.all TI.new VmExample.txWrites.events = .ok s ∧
      TI.run (Config.fromGethConfig {}) TI.new VmExample.txWrites.events = .ok s' ∧
      gethTraces s.arena 0 [] {} = .ok f ∧ gethTraces s'.arena 0 [] {} = .ok f' ∧
      f.structLogs.map (·.storage) = [none, none, none] ∧
      f'.structLogs.map (·.storage) = [none, some [(5, 9)], none]) ∧
    ∃ s s' v v', TI.run (Config.all.setExcludePrecompileCalls true) TI.new VmExample.txWrites.events = .ok s ∧
      TI.run (Config.fromParityConfig [.VmTrace]) TI.new VmExample.txWrites.events = .ok s' ∧
      vmTrace s.arena = .ok v ∧ vmTrace s'.arena = .ok v' ∧
      v.ops.map (fun x => (entryFields x).2.2.1.push) = [[], [], []] ∧
      v'.ops.map (fun x => (entryFields x).2.2.1.push) = [[], [], [2]] :=
  ⟨VmExample.wfWrites, VmExample.safeWrites, ⟨_, _, _, _, rfl, rfl, rfl, rfl, by decide +kernel, by decide +kernel⟩,
    ⟨_, _, _, _, rfl, rfl, rfl, rfl, by decide +kernel, by decide +kernel⟩⟩

/-- **C109, refuted for the storage entries.** The configuration made for the `vmTrace` type and the same one
with storage changes recorded besides: the `vmTrace` from the second shows the slot SSTORE wrote, that from
the first does not. -/
theorem C109_refuted_stores : VmExample.txWrites.WF ∧ (∀ cfg, Safe cfg VmExample.txWrites.body) ∧
    RecordsLess (Config.fromParityConfig [.VmTrace]) ((Config.fromParityConfig [.VmTrace]).setStateDiffs true) ∧
    ∃ s s' v v', TI.run (Config.fromParityConfig [.VmTrace]) TI.new VmExample.txWrites.events = .ok s ∧
      TI.run ((Config.fromParityConfig [.VmTrace]).setStateDiffs true) TI.new VmExample.txWrites.events = .ok s' ∧
      vmTrace s.arena = .ok v ∧ vmTrace s'.arena = .ok v' ∧
      v.ops.map (fun x => (entryFields x).2.2.1.store) = [none, none, none] ∧
      v'.ops.map (fun x => (entryFields x).2.2.1.store) = [none, some (5, 9), none] :=
  ⟨VmExample.wfWrites, VmExample.safeWrites,
    ⟨rfl, fun _ => rfl, id, id, id, id, fun _ => rfl, .inr rfl⟩,
    ⟨_, _, _, _, rfl, rfl, rfl, rfl, by decide +kernel, by decide +kernel⟩⟩

/-- The hypotheses of `C109_struct_logs` and `C109_struct_logs_exact` are met: a recording with everything
and storage changes holds what each set of options needs, and the example with five frames runs under both. -/
example : (∀ opts, RecordsLess (Config.fromGethConfig opts) (Config.all.setStateDiffs true)) ∧
    SameSteps (Config.fromParityConfig [.VmTrace]) { Config.all with excludePrecompileCalls := true } ∧
    (TI.run (Config.all.setStateDiffs true) TI.new Example.tx.events).toOption.map
      (fun s => (gethTraces s.arena 0 [] {}).toOption.map (fun f => f.structLogs.length)) = some (some 9) ∧
    (TI.run (Config.fromGethConfig {}) TI.new Example.tx.events).toOption.map
      (fun s => (gethTraces s.arena 0 [] {}).toOption.map (fun f => f.structLogs.length)) = some (some 9) := by
  refine ⟨fun opts => ⟨rfl, fun _ => rfl, fun _ => rfl, fun _ => rfl, fun _ => rfl, fun _ => rfl, fun _ => rfl, ?_⟩,
    ⟨rfl, rfl, rfl, rfl⟩, by decide +kernel, by decide +kernel⟩
  show (if _ then _ else _) = _ ∨ (if _ then _ else _) = _
  split
  · exact .inl rfl
  · exact .inr rfl

end Verif.Props
