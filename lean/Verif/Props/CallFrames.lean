import Verif.Lemmas.CallFrames
import Verif.Props.Arena
import Verif.Props.Config
/-!
# C20–C23: the call frames of `geth_call_traces`
-/
namespace Verif.Props
open Spec Rec

theorem ownLogs_eq (cfg : Config) (b : Body) :
    ownLogs cfg b = if cfg.recordLogs then (emitted b).map CallLog.ofLog else [] := by
  induction b with
  | nil => cases cfg.recordLogs <;> rfl
  | act a rest ih =>
    cases hrl : cfg.recordLogs <;> simp only [hrl] at ih <;> cases a <;>
      simp [ownLogs, emitted, ih, hrl]
  | sub h b o rest _ ih => simpa [ownLogs, emitted] using ih

theorem nodeOf_logs (cfg : Config) (f : FrameCtx) :
    (nodeOf cfg f).logs = if cfg.recordLogs then (emitted f.body).map CallLog.ofLog else [] := by
  simp only [nodeOf, leaveNode, own_logs, List.nil_append]
  exact ownLogs_eq cfg f.body

theorem asErrorMsg_eq (t : CallTrace) (style : TraceStyle) :
    t.asErrorMsg style = if t.status.isOk then none else some (errorText style t.status) := by
  obtain ⟨_, _, _, _, _, _, _, _, _, _, _, _, _, st, _, _⟩ := t
  cases st <;> cases style <;>
    simp [CallTrace.asErrorMsg, CallTrace.isError, InstructionResult.isOk, errorText,
      InstructionResult.debug]

theorem nodeOf_gasLimit (cfg : Config) (t : Tx) {f : FrameCtx} (hf : f ∈ frames t) :
    (nodeOf cfg f).trace.gasLimit = if f.parent = none then txGasLimit f.hdr else gasLimit f.hdr := by
  have hgl : (nodeOf cfg f).trace.gasLimit = (enterTrace cfg f.parentValue f.depth f.hdr).gasLimit := by
    simp only [nodeOf, leaveNode, TI.fillTrace, own_trace]
    split <;> rfl
  have h := (frames_root_iff hf).1
  rw [hgl]
  cases hp : f.parent <;> cases hv : f.parentValue <;> rw [hp, hv] at h <;> simp at h <;>
    cases f.hdr <;> simp [enterTrace, txGasLimit, gasLimit]

theorem nodeOf_gasUsed (cfg : Config) (f : FrameCtx) (hi : f.index ≠ 0) :
    (nodeOf cfg f).trace.gasUsed = f.out.result.gas.limit - f.out.result.gas.remaining := by
  simp only [nodeOf, leaveNode, TI.fillTrace, own_trace, if_neg hi]
  split <;> rfl

theorem kindText_eq (k : CallKind) : k.toStr = kindText k := by cases k <;> rfl

theorem runsAs_eq (cfg : Config) (f : FrameCtx) : (nodeOf cfg f).executionAddress = runsAs f := by
  have hrd := nodeOf_readFrame cfg f
  have hk : (nodeOf cfg f).trace.kind = kind f.hdr := congrArg FrameData.kind hrd
  have hc : (nodeOf cfg f).trace.caller = caller f.hdr := congrArg FrameData.caller hrd
  have had : (nodeOf cfg f).trace.address = (frameData f).address := congrArg FrameData.address hrd
  rw [Node.executionAddress, hk, hc, had, runsAs]
  cases kind f.hdr <;> simp [CallKind.isDelegate]

theorem revertReason_eq (decode : RevertDecoder) (output : Bytes) :
    maybeRevertReason decode output = reasonShown decode output := by
  unfold maybeRevertReason reasonShown
  cases decode.decode output with
  | none => rfl
  | some r =>
    rcases r with (reason | code) | s <;> dsimp only [Option.map, told, Option.filter] <;> split <;>
      simp_all

/-- The frame made for a node, with any gas used put in. -/
theorem emptyFrame_eq (decode : RevertDecoder) (cfg : Config) (t : Tx) {f : FrameCtx}
    (hf : f ∈ frames t) (incl : Bool) (gas : Nat) :
    { (nodeOf cfg f).gethEmptyCallFrame decode incl with gasUsed := gas } =
      { leaf decode cfg incl f with gasUsed := gas } := by
  have hrd := nodeOf_readFrame cfg f
  have hk : (nodeOf cfg f).trace.kind = kind f.hdr := congrArg FrameData.kind hrd
  have hc : (nodeOf cfg f).trace.caller = caller f.hdr := congrArg FrameData.caller hrd
  have had : (nodeOf cfg f).trace.address = (frameData f).address := congrArg FrameData.address hrd
  have hva : (nodeOf cfg f).trace.value = f.value := congrArg FrameData.value hrd
  have hin : (nodeOf cfg f).trace.data = input f.hdr := congrArg FrameData.input hrd
  have hou : (nodeOf cfg f).trace.output = f.out.result.output := congrArg FrameData.output hrd
  have hst : (nodeOf cfg f).trace.status = f.out.result.result := congrArg FrameData.status hrd
  have hsu : (nodeOf cfg f).trace.success = f.out.result.result.isOk := congrArg FrameData.success hrd
  have hgl := nodeOf_gasLimit cfg t hf
  have hlg := nodeOf_logs cfg f
  have hra := runsAs_eq cfg f
  simp only [Node.gethEmptyCallFrame, leaf, hk, hc, had, hva, hin, hou, hst, hsu, hgl, hlg, hra,
    asErrorMsg_eq, kindText_eq, revertReason_eq]
  have e1 : (kind f.hdr).isStaticCall = decide (kind f.hdr = .StaticCall) := by
    cases kind f.hdr <;> rfl
  rw [e1]
  cases hs : decide (kind f.hdr = .StaticCall) <;> simp only [decide_eq_true_eq, decide_eq_false_iff_not] at hs <;>
    cases f.out.result.result.isOk <;> cases incl <;> cases cfg.recordLogs <;>
    cases f.out.result.output <;> cases emitted f.body <;>
    simp [hs, CallLog.ofLog]

theorem emptyFrame_leaf (decode : RevertDecoder) (cfg : Config) (t : Tx) {f : FrameCtx}
    (hf : f ∈ frames t) (hi : f.index ≠ 0) (incl : Bool) :
    (nodeOf cfg f).gethEmptyCallFrame decode incl = leaf decode cfg incl f := by
  have h := emptyFrame_eq decode cfg t hf incl (leaf decode cfg incl f).gasUsed
  have hg : ((nodeOf cfg f).gethEmptyCallFrame decode incl).gasUsed = (leaf decode cfg incl f).gasUsed := by
    rw [show (leaf decode cfg incl f).gasUsed = _ from (nodeOf_gasUsed cfg f hi).symm]
    simp only [Node.gethEmptyCallFrame]
    split <;> split <;> split <;> rfl
  rw [← hg] at h
  have h2 := congrArg (fun c : CallFrame => { c with gasUsed := (leaf decode cfg incl f).gasUsed }) h
  revert hg h2
  generalize (nodeOf cfg f).gethEmptyCallFrame decode incl = a
  generalize leaf decode cfg incl f = b
  intro hg h2
  cases a; cases b
  simp at hg h2 ⊢
  simp [hg, h2]

theorem sdList_nodeOf (cfg : Config) (f : FrameCtx) : sdList (nodeOf cfg f) = sdFrame f := by
  have hrd := nodeOf_readFrame cfg f
  have hc : (nodeOf cfg f).trace.caller = caller f.hdr := congrArg FrameData.caller hrd
  have hst : (nodeOf cfg f).trace.status = f.out.result.result := congrArg FrameData.status hrd
  have ht : (nodeOf cfg f).trace.selfdestructRefundTarget = (lastSelfdestruct f.body).map (·.2.1) :=
    congrArg FrameData.refundTarget hrd
  have hv : (nodeOf cfg f).trace.selfdestructTransferredValue = (lastSelfdestruct f.body).map (·.2.2) :=
    congrArg FrameData.refundValue hrd
  have hs : (nodeOf cfg f).isSelfdestruct = selfdestructed f := by
    rw [Node.isSelfdestruct, CallTrace.isSelfdestruct, hst, ht, selfdestructed, Option.isSome_map]
  rw [sdList, Node.gethSelfdestructCallTrace, hs, hc, ht, hv, sdFrame]
  cases selfdestructed f <;> rfl

/-- Where the builder puts the selfdestruct frames: the root's own, and that of the frame entered
right after frame `i`, go to frame `i`. -/
def sdUnder (t : Tx) (i : Nat) : List CallFrame :=
  (if i = 0 then sdFrame (rootOf t) else []) ++ (((frames t)[i + 1]?).map sdFrame).getD []

theorem parentLoop_ok (nodes : List Node)
    (h : ∀ (k : Nat) (x : Node), nodes[k]? = some x → ∀ p, x.parent = some p → p < k)
    (fuel : Nat) : ∀ q, q < fuel → q < nodes.length → ∃ b, parentFailedLoop nodes fuel (some q) = .ok b := by
  induction fuel with
  | zero => intro q hq; omega
  | succ fuel ih =>
    intro q hq hl
    have hx := List.getElem?_eq_getElem hl
    simp only [parentFailedLoop, hx]
    split
    · exact ⟨_, rfl⟩
    · cases hp : (nodes[q]).parent with
      | none => exact ⟨false, by cases fuel <;> rfl⟩
      | some p =>
        have := h q _ hx p hp
        exact ih p (by omega) (by omega)

theorem rootFrame_eq (decode : RevertDecoder) (cfg : Config) (t : Tx) (w : Bool) (gas : Nat) :
    gethRootFrame decode (nodeOf cfg (rootOf t)) w gas =
      { leaf decode cfg w (rootOf t) with gasUsed := gas, calls := sdFrame (rootOf t) } := by
  have h := emptyFrame_eq decode cfg t (f := rootOf t) (by simp [frames, rootOf]) w gas
  rw [gethRootFrame, h, ← sdList_nodeOf cfg (rootOf t), sdList]
  cases (nodeOf cfg (rootOf t)).gethSelfdestructCallTrace <;> simp [leaf]

/-- The full result for any recording. -/
theorem gethCallTraces_run (decode : RevertDecoder) (cfg : Config) (t : Tx) (opts : CallConfig)
    (gas : Nat) (honly : opts.onlyTopCall.getD false = false) :
    gethCallTraces decode ((frames t).map (nodeOf cfg)) opts gas =
      .ok (callFrameTree decode cfg (opts.withLog.getD false) (opts.withLog.getD false) (sdUnder t)
        gas t) := by
  generalize hw : opts.withLog.getD false = w
  generalize hnodes : (frames t).map (nodeOf cfg) = nodes
  have hlen : nodes.length = 1 + t.body.size := by
    rw [← hnodes, List.length_map]; simp [frames, subFrames_length]; omega
  -- every node is the node of its frame
  have hget : ∀ (k : Nat) (x : Node), nodes[k]? = some x →
      ∃ f, (frames t)[k]? = some f ∧ x = nodeOf cfg f := by
    intro k x hx
    rw [← hnodes, List.getElem?_map] at hx
    cases hk : (frames t)[k]? with
    | none => rw [hk] at hx; simp at hx
    | some f => rw [hk] at hx; exact ⟨f, rfl, by simpa using hx.symm⟩
  have hpar : ∀ f, (nodeOf cfg f).parent = f.parent := fun f =>
    congrArg FrameData.parent (nodeOf_readFrame cfg f)
  have hstat : ∀ f, (nodeOf cfg f).trace.isError = !f.out.result.result.isOk := fun f => by
    rw [CallTrace.isError]
    rw [show (nodeOf cfg f).trace.status = _ from congrArg FrameData.status (nodeOf_readFrame cfg f)]
    rfl
  have hplt : ∀ (k : Nat) (x : Node), nodes[k]? = some x → ∀ p, x.parent = some p → p < k := by
    intro k x hx p hp
    obtain ⟨f, hf, rfl⟩ := hget k x hx
    rw [hpar] at hp
    rcases frames_parent_in hf with ⟨h1, _⟩ | ⟨q, g, h1, h2, _⟩
    · rw [h1] at hp; simp at hp
    · rw [h1] at hp; simp at hp; omega
  have hcpf : ∀ x ∈ nodes, ∃ b, callOrParentFailed nodes x = .ok b := by
    intro x hx
    obtain ⟨k, hk⟩ := List.mem_iff_getElem?.1 hx
    rw [callOrParentFailed]
    split
    · exact ⟨_, rfl⟩
    · cases hp : x.parent with
      | none => exact ⟨false, by cases nodes.length <;> rfl⟩
      | some p =>
        have h1 := hplt k x hk p hp
        have h2 := (List.getElem?_eq_some_iff.1 hk).1
        exact parentLoop_ok nodes hplt nodes.length p (by omega) (by omega)
  -- split the nodes
  have hcons : nodes = nodeOf cfg (rootOf t) ::
      (subFrames 1 0 (valueInScope none t.hdr) 1 t.body).map (nodeOf cfg) := by
    rw [← hnodes]; rfl
  generalize hrest : (subFrames 1 0 (valueInScope none t.hdr) 1 t.body).map (nodeOf cfg) = rest at hcons
  generalize hrf : ({ leaf decode cfg w (rootOf t) with gasUsed := gas, calls := sdFrame (rootOf t) } :
    CallFrame) = rf
  have hroot := (rootFrame_eq decode cfg t w gas).trans hrf
  let incl : Node → Bool := fun x => match callOrParentFailed nodes x with
    | .ok failed => w && !failed
    | .error _ => false
  have hmk := makeFrames_eq decode nodes w incl rest 0 rf []
    (fun h x hx => by
      obtain ⟨b, hb⟩ := hcpf x (by rw [hcons]; simp [hx])
      simp [incl, hb, h])
    (fun h x hx => by
      obtain ⟨b, hb⟩ := hcpf x (by rw [hcons]; simp [hx])
      simp [incl, hb, h])
  generalize hff : finishFrames (fun x => x.gethEmptyCallFrame decode (incl x)) 0 rf rest = ff at hmk
  have hfl : ff.length = 1 + t.body.size := by
    rw [← hff, finishFrames_length, ← hrest, List.length_map, subFrames_length]; omega
  let base : Nat → CallFrame := fun i => ((ff[i]?).map (·.2)).getD {}
  have hrget : ∀ k, rest[k]? = nodes[k + 1]? := by intro k; rw [hcons]; simp
  have hgetff : ∀ k : Nat, ff[k]? = (if k = 0 then some rf else (nodes[k]?).map
      (fun x => x.gethEmptyCallFrame decode (incl x))).map
        (fun c => (k, { c with calls := c.calls ++ (((frames t)[k + 1]?).map sdFrame).getD [] })) := by
    intro k
    rw [← hff, finishFrames_get, Nat.zero_add, hrget, ← hnodes, List.getElem?_map, Option.map_map,
      funext (f := sdList ∘ nodeOf cfg) (g := sdFrame) (sdList_nodeOf cfg)]
    cases k with
    | zero => rfl
    | succ k => rw [Nat.add_sub_cancel, hrget, ← hnodes]
  have hbl : ff = baseList base 0 (1 + t.body.size) := by
    apply List.ext_getElem?
    intro k
    rw [baseList, List.getElem?_map]
    by_cases hk : k < 1 + t.body.size
    · rw [List.getElem?_range' hk]
      have hk' : k < ff.length := by omega
      have h1 := hgetff k
      rw [List.getElem?_eq_getElem hk'] at h1
      have h2 : (ff[k]).1 = k := by
        cases hc : (if k = 0 then some rf else (nodes[k]?).map
          (fun x => x.gethEmptyCallFrame decode (incl x))) with
        | none => rw [hc] at h1; simp at h1
        | some c => rw [hc] at h1; simp at h1; rw [h1]
      simp only [base, List.getElem?_eq_getElem hk', Option.map_some, Option.getD_some, Nat.zero_add,
        Nat.one_mul]
      simp only [Option.some.injEq]
      exact Prod.ext h2 rfl
    · rw [List.getElem?_eq_none (by omega), List.getElem?_eq_none (by simp; omega)]; rfl
  -- the base frames
  have hbase0 : base 0 = { rf with calls := sdUnder t 0 } := by
    simp only [base, hgetff 0, if_true, Option.map_some, Option.getD_some, sdUnder]
    rw [← hrf]
  have hbasei : ∀ f ∈ subFrames 1 0 (valueInScope none t.hdr) 1 t.body, ∀ x,
      nodes[f.index]? = some x → x = nodeOf cfg f := by
    intro f hf x hx
    have hm : f ∈ frames t := by simp only [frames, List.mem_cons]; exact Or.inr hf
    obtain ⟨k, hk⟩ := List.mem_iff_getElem?.1 hm
    obtain ⟨g, hg, rfl⟩ := hget _ _ hx
    rw [frames_index hk] at hg
    rw [hk] at hg
    simp at hg; rw [hg]
  have htrees : trees base 1 t.body = callTree decode cfg w (sdUnder t) t.out.result.result.isOk 1 0
      (valueInScope none t.hdr) 1 t.body := by
    refine parentFailed_body nodes t.body 1 0 (valueInScope none t.hdr) 1 t.out.result.result.isOk
      (by omega) (by omega) ?_ ?_
      (fun i ok f => { leaf decode cfg (w && ok) f with calls := sdUnder t i }) base ?_
      (callTree decode cfg w (sdUnder t)) (fun _ _ _ _ _ => rfl) (fun _ _ _ _ _ _ _ => rfl)
      (fun _ _ _ _ _ _ _ _ _ => rfl)
    · intro fuel hfu
      cases fuel with
      | zero => omega
      | succ fuel =>
        have h0 : nodes[0]? = some (nodeOf cfg (rootOf t)) := by rw [hcons]; rfl
        simp only [parentFailedLoop, h0, hstat, hpar]
        show (if (!t.out.result.result.isOk) = true then _ else parentFailedLoop nodes fuel none) = _
        cases t.out.result.result.isOk <;> simp <;> cases fuel <;> rfl
    · intro f hf
      have hm : f ∈ frames t := by simp only [frames, List.mem_cons]; exact Or.inr hf
      obtain ⟨k, hk⟩ := List.mem_iff_getElem?.1 hm
      refine ⟨nodeOf cfg f, ?_, hpar f, hstat f⟩
      rw [frames_index hk, ← hnodes, List.getElem?_map, hk]; rfl
    · intro f hf x hx fail hcp
      have hm : f ∈ frames t := by simp only [frames, List.mem_cons]; exact Or.inr hf
      obtain ⟨q, _, _, _, hi⟩ := subFrames_parent _ _ _ _ _ _ (Nat.lt_succ_self 0) hf
      have hxe := hbasei f hf x hx
      have hne : f.index ≠ 0 := by omega
      simp only [base, hgetff f.index, if_neg hne, hx, Option.map_some, Option.getD_some, incl, hcp]
      rw [hxe, emptyFrame_leaf decode cfg t hm hne]
      simp [sdUnder, hne, leaf]
  rw [hcons] at hmk ⊢
  simp only [gethCallTraces, hw, honly, Bool.false_eq_true, if_false]
  rw [hroot]
  rw [show (1 : Nat) = 0 + 1 from rfl, hmk, ← hcons]
  simp only [List.append_nil, List.length_reverse, hfl]
  rw [hbl, Nat.add_comm 1 t.body.size]
  have happ : baseList base 0 (t.body.size + 1) = [(0, base 0)] ++ baseList base 1 t.body.size := by
    rw [Nat.add_comm, baseList_append]; rfl
  rw [happ, rollUp_body nodes base t.body 1 0 (valueInScope none t.hdr) 1 [(0, base 0)] 1 rfl
    (by omega)]
  · rw [htrees]
    have h0 : nodes[0]? = some (nodeOf cfg (rootOf t)) := by rw [hcons]; rfl
    simp only [List.modify_zero_cons, preCalls, List.reverse_cons, List.reverse_nil, List.nil_append,
      rollUp, h0, hpar, rootOf, List.isEmpty_nil, if_true]
    rw [hbase0, callFrameTree, ← hrf]
  · intro f hf
    have hm : f ∈ frames t := by simp only [frames, List.mem_cons]; exact Or.inr hf
    obtain ⟨k, hk⟩ := List.mem_iff_getElem?.1 hm
    refine ⟨nodeOf cfg f, ?_, hpar f⟩
    rw [frames_index hk, ← hnodes, List.getElem?_map, hk]; rfl

/-! ## C20 -/

/-- **C20.** For every configuration, execution tree without selfdestructs and call configuration
without `onlyTopCall`, building from the recording does not panic and gives the call-frame tree of
the execution: every frame with exactly the frames of its sub-calls, in call order, each with the
type, from, to, value, gas, gas used, input, output, error and revert reason of its call; the root
with the given gas used. (Which logs are shown is the subject of C22.) -/
theorem C20_call_frame_tree (decode : RevertDecoder) (cfg : Config) (t : Tx) (hwf : t.WF)
    (hsafe : Safe cfg t.body) (opts : CallConfig) (honly : opts.onlyTopCall ≠ some true) (gas : Nat)
    (hsd : ∀ f ∈ frames t, selfdestructed f = false) :
    ∃ s, TI.run cfg TI.new t.events = .ok s ∧
      gethCallTraces decode s.arena opts gas = .ok (callFrameTree decode cfg (opts.withLog == some true)
        (opts.withLog == some true) (fun _ => []) gas t) := by
  obtain ⟨s, hr, _, har, _⟩ := run_frames cfg t hwf hsafe
  refine ⟨s, hr, ?_⟩
  have hsd0 : sdUnder t = fun _ => [] := by
    funext i
    have h0 : sdFrame (rootOf t) = [] := by
      rw [sdFrame, hsd _ (by simp [frames, rootOf])]; rfl
    simp only [sdUnder, h0]
    cases hf : (frames t)[i + 1]? with
    | none => simp
    | some f => simp [sdFrame, hsd f (List.mem_of_getElem? hf)]
  rw [har, gethCallTraces_run decode cfg t opts gas (by
    obtain ⟨o, w⟩ := opts
    rcases o with _ | _ | _ <;> simp at honly ⊢), hsd0]
  obtain ⟨o, w⟩ := opts
  rcases w with _ | _ | _ <;> rfl

/-- A transaction without selfdestruct: a call that delegate-calls, then a failing creation. -/
def plain : Tx where
  hdr := Example.callHdr .Call 0x99 0xa 0xa 11
  body := .sub (Example.callHdr .Call 0xa 0xb 0xb 6)
      (.sub (Example.callHdr .DelegateCall 0xb 0xb 0xd 0) Example.lib (Example.out .Return) .nil)
      (Example.out .Stop)
    (.sub Example.createHdr .nil (Example.out .Revert) .nil)
  out := Example.out .Stop

/-- The hypotheses of C20 are met by it, and the tree has three levels. -/
example : plain.WF ∧ (∀ cfg, Safe cfg plain.body) ∧ (∀ f ∈ frames plain, selfdestructed f = false) ∧
    (callFrameTree ⟨fun _ => some (.contractError (.revert "no")), fun _ => "reverted"⟩
      Config.all true true (fun _ => []) 5 plain).calls.map
      (fun c => (c.typ, c.value, c.error, c.revertReason, c.calls.map (fun d => (d.typ, d.value)))) =
      [("CALL", some 6, none, none, [("DELEGATECALL", some 6)]),
       ("CREATE", some 1, some "Reverted", some "no", [])] := by
  refine ⟨?_, fun cfg => ⟨⟨⟨Example.stepSafe _ _ _ _ (by decide), trivial⟩, trivial⟩, trivial, trivial⟩, ?_, rfl⟩
  · refine ⟨fun _ => rfl, fun h => absurd h (by decide), ?_⟩
    refine ⟨fun _ => rfl, fun h => absurd h (by decide), ?_, ?_⟩
    · exact ⟨fun h => absurd h (by decide), fun h => absurd h (by decide), trivial, trivial⟩
    · exact ⟨trivial, fun h => absurd h (by decide), trivial, trivial⟩
  · have : (frames plain).map selfdestructed = [false, false, false, false] := by decide
    intro f hf
    have hm := List.mem_map_of_mem (f := selfdestructed) hf
    rw [this] at hm; simpa using hm

/-! ## C21 -/

/-- Selfdestruct frames as documented: among the calls of the parent of the frame that
selfdestructed (of the frame itself for the root). -/
def sdPlaced (t : Tx) (i : Nat) : List CallFrame :=
  (frames t).flatMap fun f => if f.parent.getD 0 = i then sdFrame f else []

theorem flatMap_single {α β : Type} (l : List α) (g : α → List β) (m : Nat)
    (h : ∀ (j : Nat) (x : α), l[j]? = some x → j ≠ m → g x = []) :
    l.flatMap g = ((l[m]?).map g).getD [] := by
  induction l generalizing m with
  | nil => rfl
  | cons a l ih =>
    cases m with
    | zero =>
      have hz : l.flatMap g = [] := by
        rw [List.flatMap_eq_nil_iff]
        intro x hx
        obtain ⟨j, hj⟩ := List.mem_iff_getElem?.1 hx
        exact h (j + 1) x (by simpa using hj) (by omega)
      simp [hz]
    | succ m =>
      rw [List.flatMap_cons, h 0 a rfl (by omega), List.nil_append, List.getElem?_cons_succ]
      exact ih m (fun j x hj hne => h (j + 1) x (by simpa using hj) (by omega))

theorem sdUnder_count (l : List FrameCtx) :
    ((List.range l.length).map fun i => (((l[i + 1]?).map sdFrame).getD []).length).sum +
      ((l.head?).map (fun f => (sdFrame f).length)).getD 0 = (l.filter selfdestructed).length := by
  induction l with
  | nil => rfl
  | cons f l ih =>
    have hf : (sdFrame f).length = (if selfdestructed f then 1 else 0) := by
      rw [sdFrame]; cases selfdestructed f <;> rfl
    have e : (List.range (f :: l).length).map (fun i => ((((f :: l)[i + 1]?).map sdFrame).getD []).length)
        = (List.range (l.length + 1)).map (fun i => (((l[i]?).map sdFrame).getD []).length) := by
      simp
    rw [e, List.range_succ_eq_map]
    simp only [List.map_cons, List.map_map, List.sum_cons, List.head?_cons, Option.map_some,
      Option.getD_some, hf]
    have e2 : (((l[0]?).map sdFrame).getD []).length = ((l.head?).map (fun f => (sdFrame f).length)).getD 0 := by
      cases l <;> rfl
    have e3 : ((fun i => (((l[i]?).map sdFrame).getD []).length) ∘ Nat.succ) =
        fun i => (((l[i + 1]?).map sdFrame).getD []).length := rfl
    rw [e2, e3]
    have : (List.filter selfdestructed (f :: l)).length =
        (if selfdestructed f then 1 else 0) + (List.filter selfdestructed l).length := by
      rw [List.filter_cons]; cases selfdestructed f <;> simp [Nat.add_comm]
    rw [this, ← ih]; omega

/-- **C21** (partial: the placement is only the documented one if each non-root frame that
selfdestructs is the first frame its parent entered; otherwise see `C21_refuted`). Building never
panics; there is exactly one SELFDESTRUCT frame per frame that selfdestructed; its position is that
of `sdUnder`: under the frame entered just before it; under the stated condition that is the parent. -/
theorem C21_selfdestruct_placement_partial (decode : RevertDecoder) (cfg : Config) (t : Tx)
    (hwf : t.WF) (hsafe : Safe cfg t.body) (opts : CallConfig)
    (honly : opts.onlyTopCall.getD false = false) (gas : Nat) :
    ∃ s, TI.run cfg TI.new t.events = .ok s ∧
      gethCallTraces decode s.arena opts gas = .ok (callFrameTree decode cfg (opts.withLog.getD false)
        (opts.withLog.getD false) (sdUnder t) gas t) ∧
      ((List.range (frames t).length).map fun i => (sdUnder t i).length).sum =
        ((frames t).filter selfdestructed).length ∧
      ((∀ f ∈ frames t, selfdestructed f = true → ∀ p, f.parent = some p → f.index = p + 1) →
        gethCallTraces decode s.arena opts gas = .ok (callFrameTree decode cfg
          (opts.withLog.getD false) (opts.withLog.getD false) (sdPlaced t) gas t)) := by
  obtain ⟨s, hr, _, har, _⟩ := run_frames cfg t hwf hsafe
  have hmain := gethCallTraces_run decode cfg t opts gas honly
  rw [← har] at hmain
  refine ⟨s, hr, hmain, ?_, fun hfirst => ?_⟩
  · have hc := sdUnder_count (frames t)
    have h0 : ((List.range (frames t).length).map fun i => (sdUnder t i).length).sum =
        ((List.range (frames t).length).map fun i =>
          ((((frames t)[i + 1]?).map sdFrame).getD []).length).sum + (sdFrame (rootOf t)).length := by
      have hl : (frames t).length = (frames t).tail.length + 1 := by simp [frames]
      rw [hl, List.range_succ_eq_map]
      simp only [List.map_cons, List.map_map, List.sum_cons, sdUnder, if_true, List.length_append]
      have : (fun i => ((if i = 0 then sdFrame (rootOf t) else []) ++
          (((frames t)[i + 1]?).map sdFrame).getD []).length) ∘ Nat.succ =
          (fun i => ((((frames t)[i + 1]?).map sdFrame).getD []).length) ∘ Nat.succ := by
        funext i; simp
      simp only [List.length_append] at this
      rw [this]; omega
    rw [h0, ← hc]
    rfl
  · rw [hmain]
    have : sdUnder t = sdPlaced t := by
      funext i
      have hempty : ∀ f : FrameCtx, selfdestructed f = false → sdFrame f = [] := by
        intro f hf; rw [sdFrame, hf]; rfl
      have htail := flatMap_single (frames t).tail
        (fun f => if f.parent.getD 0 = i then sdFrame f else []) i (by
        intro j f hj hne
        have hj' : (frames t)[j + 1]? = some f := by simpa [frames] using hj
        split
        · rename_i hpi
          cases hs : selfdestructed f with
          | false => exact hempty f hs
          | true =>
            have hm := List.mem_of_getElem? hj'
            have hidx := frames_index hj'
            have hroot := (frames_root_iff hm).2
            cases hp : f.parent with
            | none => have := hroot.2 hp; omega
            | some p =>
              have := hfirst f hm hs p hp
              rw [hp] at hpi; simp at hpi; omega
        · rfl)
      have htl : (frames t).tail[i]? = (frames t)[i + 1]? := by simp [frames]
      have hpl : sdPlaced t i = (if (rootOf t).parent.getD 0 = i then sdFrame (rootOf t) else []) ++
          (frames t).tail.flatMap (fun f => if f.parent.getD 0 = i then sdFrame f else []) := rfl
      rw [hpl, htail, sdUnder, htl]
      have h0 : (if (rootOf t).parent.getD 0 = i then sdFrame (rootOf t) else []) =
          if i = 0 then sdFrame (rootOf t) else [] := by
        show (if 0 = i then _ else _) = _
        by_cases hi : i = 0 <;> simp [hi, eq_comm]
      rw [h0]
      cases hf : (frames t)[i + 1]? with
      | none => rfl
      | some f =>
        simp only [Option.map_some, Option.getD_some]
        cases hs : selfdestructed f with
        | false => simp [hempty f hs]
        | true =>
          have hm := List.mem_of_getElem? hf
          have hidx := frames_index hf
          have hroot := (frames_root_iff hm).2
          cases hp : f.parent with
          | none => have := hroot.2 hp; omega
          | some p =>
            have := hfirst f hm hs p hp
            simp only [Option.getD_some]
            rw [if_pos (show p = i by omega)]
    rw [this]

/-- The example has one selfdestructing frame, the first of the root. -/
example : (frames Example.tx).map selfdestructed = [false, true, false, false, false] ∧
    ∀ f ∈ frames Example.tx, selfdestructed f = true → ∀ p, f.parent = some p → f.index = p + 1 := by
  refine ⟨by decide, ?_⟩
  intro f hf
  simp only [frames, Example.tx, Example.body, Example.callee, Example.lib, subFrames, List.mem_cons,
    List.mem_append, List.not_mem_nil, or_false, List.append_nil, List.nil_append] at hf
  rcases hf with rfl | rfl | rfl | rfl | rfl <;>
    simp [selfdestructed, lastSelfdestruct, Example.out, Example.stepAct]

/-- Two sibling calls, the second of which selfdestructs. -/
def twoCalls : Tx where
  hdr := Example.callHdr .Call 0x99 0xa 0xa 11
  body := .sub (Example.callHdr .Call 0xa 0xb 0xb 6) .nil (Example.out .Stop)
    (.sub (Example.callHdr .Call 0xa 0xc 0xc 6) (.act (.selfdestruct 0xc 0xe 4) .nil)
      (Example.out .SelfDestruct) .nil)
  out := Example.out .Stop

/-- **C21 is refuted in general**: of two sibling calls the second selfdestructs; the SELFDESTRUCT
frame is shown as a call of the first sibling, which is neither the frame that selfdestructed nor its
parent. -/
theorem C21_refuted : twoCalls.WF ∧ (∀ cfg, Safe cfg twoCalls.body) ∧
    (frames twoCalls).map selfdestructed = [false, false, true] ∧
    ∀ decode cfg gas, ∃ s r, TI.run cfg TI.new twoCalls.events = .ok s ∧
      gethCallTraces decode s.arena {} gas = .ok r ∧
      r.calls.map (fun c => (c.typ, c.to, c.calls.map (fun d => d.typ))) =
        [("CALL", some 0xb, ["SELFDESTRUCT"]), ("CALL", some 0xc, [])] := by
  have hwf : twoCalls.WF := by
    refine ⟨fun _ => rfl, fun h => absurd h (by decide), ?_⟩
    refine ⟨fun _ => rfl, fun h => absurd h (by decide), trivial, ?_⟩
    exact ⟨fun _ => rfl, fun h => absurd h (by decide), trivial, trivial⟩
  have hsafe : ∀ cfg, Safe cfg twoCalls.body := fun cfg => ⟨trivial, trivial, trivial⟩
  refine ⟨hwf, hsafe, by decide, fun decode cfg gas => ?_⟩
  obtain ⟨s, hr, h, _⟩ := C21_selfdestruct_placement_partial decode cfg twoCalls hwf (hsafe cfg) {} rfl gas
  exact ⟨s, _, hr, h, rfl⟩

/-! ## C22 -/

/-- **C22** (partial: if the root failed, the root's own logs are still shown with `withLog`, see
`C22_refuted`; the hypothesis excludes exactly that). With `withLog`, every frame lists its recorded
logs, as emitted by the account it runs as, if it and all its enclosing frames succeeded, and no logs
otherwise; without `withLog` no frame lists logs. -/
theorem C22_logs_partial (decode : RevertDecoder) (cfg : Config) (t : Tx)
    (hwf : t.WF) (hsafe : Safe cfg t.body) (opts : CallConfig)
    (honly : opts.onlyTopCall.getD false = false) (gas : Nat)
    (hroot : t.out.result.result.isOk = true ∨ emitted t.body = [] ∨ opts.withLog.getD false = false) :
    ∃ s, TI.run cfg TI.new t.events = .ok s ∧
      gethCallTraces decode s.arena opts gas = .ok (callFrameTree decode cfg (opts.withLog.getD false)
        (opts.withLog.getD false && t.out.result.result.isOk) (sdUnder t) gas t) := by
  obtain ⟨s, hr, h, _⟩ := C21_selfdestruct_placement_partial decode cfg t hwf hsafe opts honly gas
  refine ⟨s, hr, ?_⟩
  rw [h]
  rcases hroot with h1 | h1 | h1
  · rw [h1, Bool.and_true]
  · have : ∀ b, leaf decode cfg b (rootOf t) = leaf decode cfg false (rootOf t) := by
      intro b; simp [leaf, rootOf, h1]
    simp only [callFrameTree]
    rw [this (opts.withLog.getD false), this (_ && _)]
  · rw [h1, Bool.false_and]

/-- The example meets the hypotheses with a successful root and nested logs. -/
example : Example.tx.out.result.result.isOk = true ∧
    ((callFrameTree ⟨fun _ => none, fun _ => ""⟩ Config.all true true (fun _ => []) 5 Example.tx).calls.map
      (fun c => (c.logs, c.calls.map (fun d => d.logs)))) =
      [([⟨some 0xb, some [], some [9]⟩], [[⟨some 0xb, some [1], some [2]⟩]]), ([], []), ([], [])] := by
  decide

/-- A reverting transaction with a log in the root. -/
def failedRoot : Tx where
  hdr := Example.callHdr .Call 0x99 0xa 0xa 11
  body := .act (.log Example.ctx ⟨0xa, [1], [2]⟩) .nil
  out := Example.out .Revert

/-- **C22 is refuted for the root**: the root reverts, yet its log is shown. -/
theorem C22_refuted : failedRoot.WF ∧ (∀ cfg, Safe cfg failedRoot.body) ∧
    failedRoot.out.result.result.isOk = false ∧
    ∀ decode gas, ∃ s r, TI.run Config.all TI.new failedRoot.events = .ok s ∧
      gethCallTraces decode s.arena { withLog := some true } gas = .ok r ∧
      r.error = some "Reverted" ∧ r.logs = [⟨some 0xa, some [1], some [2]⟩] := by
  have hwf : failedRoot.WF := ⟨fun _ => rfl, fun h => absurd h (by decide), trivial⟩
  have hsafe : ∀ cfg, Safe cfg failedRoot.body := fun cfg => trivial
  refine ⟨hwf, hsafe, by decide, fun decode gas => ?_⟩
  obtain ⟨s, hr, h, _⟩ := C21_selfdestruct_placement_partial decode Config.all failedRoot hwf
    (hsafe _) { withLog := some true } rfl gas
  exact ⟨s, _, hr, h, rfl, rfl⟩

/-- **C22, exactly:** the result is the one with the root's logs left out if the root failed, exactly
if the root succeeded, emitted no logs, or logs were not recorded or not asked for; all sub-frames are
right in any case. -/
theorem C22_exact (decode : RevertDecoder) (cfg : Config) (t : Tx)
    (hwf : t.WF) (hsafe : Safe cfg t.body) (opts : CallConfig)
    (honly : opts.onlyTopCall.getD false = false) (gas : Nat) :
    ∃ s r ideal, TI.run cfg TI.new t.events = .ok s ∧ gethCallTraces decode s.arena opts gas = .ok r ∧
      ideal = callFrameTree decode cfg (opts.withLog.getD false)
        (opts.withLog.getD false && t.out.result.result.isOk) (sdUnder t) gas t ∧
      r.calls = ideal.calls ∧
      (r = ideal ↔ t.out.result.result.isOk = true ∨ emitted t.body = [] ∨
        opts.withLog.getD false = false ∨ cfg.recordLogs = false) ∧
      (opts.withLog.getD false = true → cfg.recordLogs = true → r.logs = (emitted t.body).map fun l =>
        { address := some (runsAs (rootOf t)), topics := some l.data.topics,
          data := some l.data.data }) := by
  obtain ⟨s, hr, h, _⟩ := C21_selfdestruct_placement_partial decode cfg t hwf hsafe opts honly gas
  refine ⟨s, _, _, hr, h, rfl, rfl, ?_, ?_⟩
  · constructor
    · intro he
      have hl := congrArg CallFrame.logs he
      simp only [callFrameTree, leaf, rootOf] at hl
      cases h1 : t.out.result.result.isOk with
      | true => exact Or.inl rfl
      | false =>
        cases h2 : opts.withLog.getD false with
        | false => exact Or.inr (Or.inr (Or.inl rfl))
        | true =>
          cases h3 : cfg.recordLogs with
          | false => exact Or.inr (Or.inr (Or.inr rfl))
          | true =>
            rw [h1, h2, h3] at hl
            simp only [Bool.and_self, Bool.and_false, Bool.false_eq_true, if_true, if_false,
              List.map_eq_nil_iff] at hl
            exact Or.inr (Or.inl hl)
    · have hleaf : (∀ b, leaf decode cfg b (rootOf t) = leaf decode cfg false (rootOf t)) →
          ∀ b b', callFrameTree decode cfg (opts.withLog.getD false) b (sdUnder t) gas t =
            callFrameTree decode cfg (opts.withLog.getD false) b' (sdUnder t) gas t := by
        intro hb b b'
        simp only [callFrameTree]
        rw [hb b, hb b']
      rintro (h1 | h1 | h1 | h1)
      · rw [h1, Bool.and_true]
      · exact hleaf (by intro b; simp [leaf, rootOf, h1]) _ _
      · rw [h1, Bool.false_and]
      · exact hleaf (by intro b; simp [leaf, h1]) _ _
  · intro h1 h2
    simp [callFrameTree, leaf, h1, h2, rootOf]

/-! ## C23 -/

/-- **C23.** For every recording and call configuration, `onlyTopCall` gives the root of the full
result with the sub-call frames removed; only a selfdestruct of the root itself is kept. -/
theorem C23_only_top_call (decode : RevertDecoder) (cfg : Config) (t : Tx) (hwf : t.WF)
    (hsafe : Safe cfg t.body) (withLog : Option Bool) (gas : Nat) :
    ∃ s full, TI.run cfg TI.new t.events = .ok s ∧
      gethCallTraces decode s.arena { withLog := withLog } gas = .ok full ∧
      gethCallTraces decode s.arena { onlyTopCall := some true, withLog := withLog } gas =
        .ok { full with calls := sdFrame (rootOf t) } := by
  obtain ⟨s, hr, _, har, _⟩ := run_frames cfg t hwf hsafe
  have hmain := gethCallTraces_run decode cfg t { withLog := withLog } gas rfl
  rw [← har] at hmain
  refine ⟨s, _, hr, hmain, ?_⟩
  rw [har, show frames t = rootOf t :: (frames t).tail from rfl, List.map_cons]
  simp only [gethCallTraces, Option.getD_some, if_true, rootFrame_eq]
  rfl

/-- In the example the full result has three calls and a selfdestruct, the top call none. -/
example : (callFrameTree ⟨fun _ => none, fun _ => ""⟩ Config.all true true (sdUnder Example.tx) 5 Example.tx).calls.length = 4 ∧
    (sdFrame (rootOf Example.tx)).length = 0 := by decide

end Verif.Props
