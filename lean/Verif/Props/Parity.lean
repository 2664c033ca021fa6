import Verif.Lemmas.Paths
import Verif.Props.Links
/-!
# C24–C28, C52, C56: the traces of the parity builder
-/
namespace Verif.Props
open Spec Rec Parity Par

/-- The node of a frame with the root's gas used replaced. -/
def nodeG (cfg : Config) (g : Nat) (f : FrameCtx) : Node :=
  if f.index = 0 then { nodeOf cfg f with trace := { (nodeOf cfg f).trace with gasUsed := g } }
  else nodeOf cfg f

theorem setGas_map (cfg : Config) (t : Tx) (g : Nat) :
    setTransactionGasUsed ((frames t).map (nodeOf cfg)) g = (frames t).map (nodeG cfg g) := by
  have h : ∀ f ∈ subFrames 1 0 (valueInScope none t.hdr) 1 t.body, nodeOf cfg f = nodeG cfg g f := by
    intro f hf
    obtain ⟨q, _, _, _, hi⟩ := subFrames_parent _ _ _ _ _ _ (Nat.lt_succ_self 0) hf
    rw [nodeG, if_neg (by omega)]
  rw [frames, List.map_cons, setTransactionGasUsed, List.map_cons, List.map_congr_left h]
  rfl

theorem nodeG_link (cfg : Config) (g : Nat) (t : Tx) (hwf : t.WF) : ∀ f ∈ frames t,
    LinkOf cfg (nodeG cfg g f) f := by
  intro f hf
  obtain ⟨h1, h2, _⟩ := frames_wf hwf hf
  have hp := nodeOf_maybePrecompile cfg f h1 (frames_root_iff hf).1
  have hpre : (nodeOf cfg f).isPrecompile = Spec.excluded cfg f := by
    rw [Node.isPrecompile]
    cases hm : (nodeOf cfg f).trace.maybePrecompile with
    | none =>
      rw [hm] at hp
      cases hx : Spec.excluded cfg f with
      | true => exact absurd (hp.2 hx) (by simp)
      | false => rfl
    | some b =>
      rw [hm] at hp
      cases b <;> cases hx : Spec.excluded cfg f <;> simp_all
  have hidx : (nodeOf cfg f).idx = f.index := by
    simp only [nodeOf, leaveNode, own_idx]
  have hpar : (nodeOf cfg f).parent = f.parent := congrArg FrameData.parent (nodeOf_readFrame cfg f)
  have hch := nodeOf_children cfg f h2
  rw [nodeG]
  split
  · exact ⟨hidx, hpar, hch, hpre⟩
  · exact ⟨hidx, hpar, hch, hpre⟩

/-- The trace of a node without the selfdestruct counted. -/
theorem nodeG_trace (cfg : Config) (g : Nat) (t : Tx) (hwf : t.WF) (f : FrameCtx) (hf : f ∈ frames t)
    (path : List Nat) :
    (nodeG cfg g f).parityTransactionTrace path =
      { frameTrace cfg g path f with subtraces := (shownCalls cfg f).length } := by
  have hrd := nodeOf_readFrame cfg f
  have hk : (nodeOf cfg f).trace.kind = kind f.hdr := congrArg FrameData.kind hrd
  have hc : (nodeOf cfg f).trace.caller = caller f.hdr := congrArg FrameData.caller hrd
  have had : (nodeOf cfg f).trace.address = (frameData f).address := congrArg FrameData.address hrd
  have hva : (nodeOf cfg f).trace.value = f.value := congrArg FrameData.value hrd
  have hin : (nodeOf cfg f).trace.data = input f.hdr := congrArg FrameData.input hrd
  have hou : (nodeOf cfg f).trace.output = f.out.result.output := congrArg FrameData.output hrd
  have hst : (nodeOf cfg f).trace.status = f.out.result.result := congrArg FrameData.status hrd
  have hgl := nodeOf_gasLimit cfg t hf
  have hr0 := (frames_root_iff hf).2
  have hlen : (nodeG cfg g f).children.length = (shownCalls cfg f).length := by
    rw [(nodeG_link cfg g t hwf f hf).children, ← shownBelow_index, List.length_map]; rfl
  have hgu : (nodeG cfg g f).trace.gasUsed = if f.parent = none then g
      else f.out.result.gas.limit - f.out.result.gas.remaining := by
    rw [nodeG]
    by_cases h0 : f.index = 0
    · rw [if_pos h0, if_pos (hr0.1 h0)]
    · rw [if_neg h0, if_neg (fun h => h0 (hr0.2 h)), nodeOf_gasUsed cfg f h0]
  have hk' : (nodeG cfg g f).trace.kind = kind f.hdr := by rw [nodeG]; split <;> exact hk
  have hc' : (nodeG cfg g f).trace.caller = caller f.hdr := by rw [nodeG]; split <;> exact hc
  have had' : (nodeG cfg g f).trace.address = (frameData f).address := by
    rw [nodeG]; split <;> exact had
  have hva' : (nodeG cfg g f).trace.value = f.value := by rw [nodeG]; split <;> exact hva
  have hin' : (nodeG cfg g f).trace.data = input f.hdr := by rw [nodeG]; split <;> exact hin
  have hou' : (nodeG cfg g f).trace.output = f.out.result.output := by rw [nodeG]; split <;> exact hou
  have hst' : (nodeG cfg g f).trace.status = f.out.result.result := by rw [nodeG]; split <;> exact hst
  have hgl' : (nodeG cfg g f).trace.gasLimit = if f.parent = none then txGasLimit f.hdr else gasLimit f.hdr := by
    rw [nodeG]; split <;> exact hgl
  have hact : (nodeG cfg g f).parityAction = action f := by
    rw [Node.parityAction, action, hk', hc', had', hva', hin', hgl']
    cases f.hdr with
    | call c inp => simp only [kind]; cases inp.scheme <;> rfl
    | create c inp => simp only [kind]; cases inp.scheme <;> rfl
  have hout : (nodeG cfg g f).parityTraceOutput = (match f.hdr with
      | .call _ _ => .call (if f.parent = none then g else f.out.result.gas.limit - f.out.result.gas.remaining) f.out.result.output
      | .create _ _ => .create (if f.parent = none then g else f.out.result.gas.limit - f.out.result.gas.remaining) f.out.result.output (frameData f).address) := by
    rw [Node.parityTraceOutput, hk', hou', had', hgu]
    cases f.hdr with
    | call c inp => simp only [kind]; cases inp.scheme <;> rfl
    | create c inp => simp only [kind]; cases inp.scheme <;> rfl
  rw [Node.parityTransactionTrace, hact, asErrorMsg_eq, hst', hlen, hout, frameTrace]
  congr 1
  simp only [CallTrace.isError, CallTrace.isRevert, hst', outcome]
  cases f.out.result.result <;> cases f.hdr <;> simp [InstructionResult.isOk]

theorem nodeG_selfdestruct (cfg : Config) (g : Nat) (f : FrameCtx) :
    (nodeG cfg g f).isSelfdestruct = selfdestructed f := by
  have hrd := nodeOf_readFrame cfg f
  have hst : (nodeOf cfg f).trace.status = f.out.result.result := congrArg FrameData.status hrd
  have ht : (nodeOf cfg f).trace.selfdestructRefundTarget = (lastSelfdestruct f.body).map (·.2.1) :=
    congrArg FrameData.refundTarget hrd
  rw [nodeG]
  split <;> simp only [Node.isSelfdestruct, CallTrace.isSelfdestruct, hst, ht, selfdestructed,
    Option.isSome_map]

theorem nodeG_sdTrace (cfg : Config) (g : Nat) (f : FrameCtx) (path : List Nat) :
    ((nodeG cfg g f).paritySelfdestructTrace (path ++ [(shownCalls cfg f).length])).toList =
      sdTrace cfg path f := by
  have hrd := nodeOf_readFrame cfg f
  have had : (nodeOf cfg f).trace.address = (frameData f).address := congrArg FrameData.address hrd
  have ht : (nodeOf cfg f).trace.selfdestructRefundTarget = (lastSelfdestruct f.body).map (·.2.1) :=
    congrArg FrameData.refundTarget hrd
  have hv : (nodeOf cfg f).trace.selfdestructTransferredValue = (lastSelfdestruct f.body).map (·.2.2) :=
    congrArg FrameData.refundValue hrd
  have had' : (nodeG cfg g f).trace.address = (frameData f).address := by
    rw [nodeG]; split <;> exact had
  have ht' : (nodeG cfg g f).trace.selfdestructRefundTarget = (lastSelfdestruct f.body).map (·.2.1) := by
    rw [nodeG]; split <;> exact ht
  have hv' : (nodeG cfg g f).trace.selfdestructTransferredValue = (lastSelfdestruct f.body).map (·.2.2) := by
    rw [nodeG]; split <;> exact hv
  rw [Node.paritySelfdestructTrace, Node.paritySelfdestructAction, nodeG_selfdestruct, had', ht', hv',
    sdTrace]
  cases selfdestructed f <;> rfl

/-- All traces of a recording. -/
theorem traces_run (cfg : Config) (g : Nat) (t : Tx) (hwf : t.WF) :
    intoTransactionTraces (setTransactionGasUsed ((frames t).map (nodeOf cfg)) g) =
      .ok (txTraces cfg g t) := by
  rw [setGas_map, traces_eq cfg t (nodeG cfg g) (nodeG_link cfg g t hwf) hwf, txTraces]
  congr 1
  have hmem : ∀ e ∈ located cfg t, e.2 ∈ frames t := by
    intro e he
    rw [← txAll_frames cfg t hwf]
    rw [← txAll_filter] at he
    exact List.mem_map_of_mem (List.mem_filter.1 he).1
  revert hmem
  generalize located cfg t = l
  intro hmem
  induction l with
  | nil => rfl
  | cons e l ih =>
    have ih := ih (fun e he => hmem e (List.mem_cons_of_mem _ he))
    simp only [List.map_cons, List.flatMap_cons, traceIter, nodeG_selfdestruct,
      nodeG_trace cfg g t hwf e.2 (hmem e List.mem_cons_self), ih]
    have hsd := nodeG_sdTrace cfg g e.2 e.1
    cases hs : selfdestructed e.2 with
    | false =>
      have : sdTrace cfg e.1 e.2 = [] := by simp [sdTrace, hs]
      rw [this]
      simp [frameTrace, hs]
    | true =>
      simp only [if_true]
      rw [show (frameTrace cfg g e.1 e.2).traceAddress = e.1 from rfl, hsd]
      simp [frameTrace, hs]

/-- The recording of a transaction, as the builder sees it. -/
theorem arena_setGas (nodes : List Node) (x : Node) (h : nodes[0]? = some x) :
    setTransactionGasUsed nodes x.trace.gasUsed = nodes := by
  cases nodes with
  | nil => rfl
  | cons y rest => simp at h; subst h; rfl

theorem run_traces (cfg : Config) (t : Tx) (hwf : t.WF) (hsafe : Safe cfg t.body) :
    ∃ s root, TI.run cfg TI.new t.events = .ok s ∧ s.arena[0]? = some root ∧
      s.arena = (frames t).map (nodeOf cfg) ∧
      intoTransactionTraces s.arena = .ok (txTraces cfg root.trace.gasUsed t) := by
  obtain ⟨s, hr, _, har, _⟩ := run_frames cfg t hwf hsafe
  have h0 : s.arena[0]? = some (nodeOf cfg (rootOf t)) := by rw [har]; rfl
  refine ⟨s, _, hr, h0, har, ?_⟩
  have := traces_run cfg (nodeOf cfg (rootOf t)).trace.gasUsed t hwf
  rw [← har, arena_setGas _ _ h0] at this
  exact this

/-! ## C24 -/

theorem mem_txTraces {cfg : Config} {g : Nat} {t : Tx} {tr : TransactionTrace} (h : tr ∈ txTraces cfg g t) :
    ∃ e ∈ located cfg t, tr = frameTrace cfg g e.1 e.2 ∨
      (selfdestructed e.2 = true ∧ tr ∈ sdTrace cfg e.1 e.2) := by
  obtain ⟨e, he, h⟩ := List.mem_flatMap.1 h
  refine ⟨e, he, ?_⟩
  rcases List.mem_cons.1 h with h | h
  · exact Or.inl h
  · refine Or.inr ⟨?_, h⟩
    cases hs : selfdestructed e.2 with
    | true => rfl
    | false => simp [sdTrace, hs] at h

theorem sdTrace_addr {cfg : Config} {path : List Nat} {f : FrameCtx} {tr : TransactionTrace}
    (h : tr ∈ sdTrace cfg path f) : tr.traceAddress = path ++ [(shownCalls cfg f).length] ∧
      tr.subtraces = 0 := by
  unfold sdTrace at h
  split at h
  · simp at h; subst h; exact ⟨rfl, rfl⟩
  · simp at h

theorem located_nodup (cfg : Config) (t : Tx) : ∀ e ∈ located cfg t, ∀ e' ∈ located cfg t,
    e.1 = e'.1 → e.2 = e'.2 := by
  intro e he e' he' h
  have h1 := located_follow cfg t e he
  have h2 := located_follow cfg t e' he'
  rw [h, h2] at h1
  simpa using h1.symm

theorem follow_sd_none (cfg : Config) (t : Tx) : ∀ e ∈ located cfg t,
    follow cfg (rootOf t) (e.1 ++ [(shownCalls cfg e.2).length]) = none := by
  intro e he
  rw [follow_snoc, located_follow cfg t e he]
  simp

theorem ne_of_lt {a b : List Nat} (h : a < b) : a ≠ b := by
  intro he; rw [he] at h; exact lt_irrefl' _ h

theorem txTraces_nodup (cfg : Config) (g : Nat) (t : Tx) :
    ((txTraces cfg g t).map (·.traceAddress)).Nodup := by
  rw [List.nodup_iff_pairwise_ne, List.pairwise_map, txTraces, List.pairwise_flatMap]
  constructor
  · intro e he
    rw [List.pairwise_cons]
    refine ⟨?_, ?_⟩
    · intro x hx
      rw [(sdTrace_addr hx).1]
      exact ne_of_lt (lt_append_right _ _ _)
    · unfold sdTrace; split <;> simp
  · have hs := located_sorted cfg t
    refine List.Pairwise.imp_of_mem ?_ hs
    intro a b ha hb hlt x hx y hy
    have key : ∀ z ∈ frameTrace cfg g a.1 a.2 :: sdTrace cfg a.1 a.2,
        z.traceAddress = a.1 ∨ z.traceAddress = a.1 ++ [(shownCalls cfg a.2).length] := by
      intro z hz
      rcases List.mem_cons.1 hz with rfl | hz
      · exact Or.inl rfl
      · exact Or.inr (sdTrace_addr hz).1
    have keyb : ∀ z ∈ frameTrace cfg g b.1 b.2 :: sdTrace cfg b.1 b.2,
        z.traceAddress = b.1 ∨ z.traceAddress = b.1 ++ [(shownCalls cfg b.2).length] := by
      intro z hz
      rcases List.mem_cons.1 hz with rfl | hz
      · exact Or.inl rfl
      · exact Or.inr (sdTrace_addr hz).1
    rcases key x hx with h1 | h1 <;> rcases keyb y hy with h2 | h2 <;> rw [h1, h2] <;> intro he
    · exact ne_of_lt hlt he
    · have := located_follow cfg t a ha
      rw [he, follow_sd_none cfg t b hb] at this
      simp at this
    · have := located_follow cfg t b hb
      rw [← he, follow_sd_none cfg t a ha] at this
      simp at this
    · have := (List.append_inj' he rfl).1
      exact ne_of_lt hlt this

/-- **C24.** For every configuration and execution tree, building the parity traces of the recording
does not panic; the address of the trace of a frame is the path to it, so that following it from the
root, position by position among the shown calls, leads back to the frame; a selfdestruct trace has
its frame's address extended by the number of shown calls; every shown frame has its trace; no two
traces have the same address. -/
theorem C24_trace_addresses (cfg : Config) (t : Tx) (hwf : t.WF) (hsafe : Safe cfg t.body) :
    ∃ s ts, TI.run cfg TI.new t.events = .ok s ∧ intoTransactionTraces s.arena = .ok ts ∧
      (∀ tr ∈ ts, ∃ f path, follow cfg (rootOf t) path = some f ∧
        ((tr.action = action f ∧ tr.traceAddress = path) ∨
         (selfdestructed f = true ∧ tr.action = .selfdestruct (frameData f).address
            (((lastSelfdestruct f.body).map (·.2.1)).getD 0)
            (((lastSelfdestruct f.body).map (·.2.2)).getD 0) ∧
          tr.traceAddress = path ++ [(shownCalls cfg f).length]))) ∧
      (∀ f path, follow cfg (rootOf t) path = some f →
        ∃ tr ∈ ts, tr.action = action f ∧ tr.traceAddress = path) ∧
      (ts.map (·.traceAddress)).Nodup := by
  obtain ⟨s, root, hr, _, _, htr⟩ := run_traces cfg t hwf hsafe
  refine ⟨s, _, hr, htr, ?_, ?_, txTraces_nodup _ _ _⟩
  · intro tr htr
    obtain ⟨e, he, h⟩ := mem_txTraces htr
    refine ⟨e.2, e.1, located_follow cfg t e he, ?_⟩
    rcases h with rfl | ⟨hs, h⟩
    · exact Or.inl ⟨rfl, rfl⟩
    · refine Or.inr ⟨hs, ?_, (sdTrace_addr h).1⟩
      simp [sdTrace, hs] at h
      rw [h]; simp
  · intro f path hf
    have he := located_complete cfg t path f hf
    refine ⟨frameTrace cfg root.trace.gasUsed path f, ?_, rfl, rfl⟩
    exact List.mem_flatMap.2 ⟨_, he, List.mem_cons_self⟩

/-- In the example with precompiles left out, the created contract is the second shown call of the
root, and the library frame is the first call of the first call. -/
example : (follow Config.defaultParity (rootOf Example.tx) [1]).map (·.index) = some 4 ∧
    (follow Config.defaultParity (rootOf Example.tx) [0, 0]).map (·.index) = some 2 ∧
    (follow Config.defaultParity (rootOf Example.tx) [2]).map (·.index) = none := by decide

/-! ## C25 -/

/-- `b` extends `a` by one component. -/
def ExtendsByOne (a b : List Nat) : Prop := ∃ i, b = a ++ [i]

instance (a b : List Nat) : Decidable (ExtendsByOne a b) :=
  decidable_of_iff (b ≠ [] ∧ b.dropLast = a) ⟨fun ⟨h1, h2⟩ => ⟨b.getLast h1, by
    rw [← h2]; exact (List.dropLast_concat_getLast h1).symm⟩, fun ⟨i, h⟩ => by rw [h]; simp⟩

/-- **C25.** For every configuration and execution tree, `subtraces` of every emitted trace is the
number of emitted traces whose address extends its own by exactly one component, selfdestruct traces
included. -/
theorem C25_subtraces (cfg : Config) (t : Tx) (hwf : t.WF) (hsafe : Safe cfg t.body) :
    ∃ s ts, TI.run cfg TI.new t.events = .ok s ∧ intoTransactionTraces s.arena = .ok ts ∧
      ∀ tr ∈ ts, tr.subtraces =
        (ts.filter (fun u => decide (ExtendsByOne tr.traceAddress u.traceAddress))).length := by
  obtain ⟨s, root, hr, _, _, htr⟩ := run_traces cfg t hwf hsafe
  refine ⟨s, _, hr, htr, ?_⟩
  generalize root.trace.gasUsed = g
  have hnd := txTraces_nodup cfg g t
  intro tr hm
  -- the addresses that extend the given one
  have hlen : (((txTraces cfg g t).filter
      (fun u => decide (ExtendsByOne tr.traceAddress u.traceAddress))).map (·.traceAddress)).length =
      ((List.range tr.subtraces).map (fun i => tr.traceAddress ++ [i])).length := by
    apply nodup_length_eq
    · exact hnd.sublist ((List.filter_sublist).map _)
    · rw [List.nodup_iff_pairwise_ne, List.pairwise_map]
      refine List.Pairwise.imp ?_ (List.nodup_range (n := tr.subtraces))
      intro a b hne he
      exact hne (by simpa using he)
    · intro a
      simp only [List.mem_map, List.mem_filter, decide_eq_true_eq, List.mem_range]
      obtain ⟨e, he, h⟩ := mem_txTraces hm
      have hfo := located_follow cfg t e he
      constructor
      · rintro ⟨u, ⟨hu, i, hi⟩, rfl⟩
        refine ⟨i, ?_, hi.symm⟩
        obtain ⟨e', he', h'⟩ := mem_txTraces hu
        have hfo' := located_follow cfg t e' he'
        -- a shown frame at an extension by one is a shown call
        rcases h with rfl | ⟨hs, h⟩
        · show i < (shownCalls cfg e.2).length + _
          rcases h' with rfl | ⟨hs', h'⟩
          · have hi : e'.1 = e.1 ++ [i] := hi
            rw [hi, follow_snoc, hfo, Option.bind_some] at hfo'
            have := (List.getElem?_eq_some_iff.1 hfo').1
            omega
          · rw [(sdTrace_addr h').1] at hi
            have hi : e'.1 ++ [(shownCalls cfg e'.2).length] = e.1 ++ [i] := hi
            have hinj := List.append_inj' hi rfl
            have he2 := located_nodup cfg t e' he' e he hinj.1
            have hii : (shownCalls cfg e'.2).length = i := by simpa using hinj.2
            rw [he2] at hii hs'
            rw [hs', ← hii]; simp
        · -- nothing extends the address of a selfdestruct
          rw [(sdTrace_addr h).1] at hi
          exfalso
          have hn : ∀ q, follow cfg (rootOf t) ((e.1 ++ [(shownCalls cfg e.2).length]) ++ q) = none := by
            intro q; rw [follow_append, follow_sd_none cfg t e he]; rfl
          rcases h' with rfl | ⟨hs', h'⟩
          · have hi : e'.1 = (e.1 ++ [(shownCalls cfg e.2).length]) ++ [i] := hi
            rw [hi, hn] at hfo'; simp at hfo'
          · rw [(sdTrace_addr h').1] at hi
            have := (List.append_inj' hi rfl).1
            have h0 := hn []
            rw [List.append_nil, ← this, hfo'] at h0
            simp at h0
      · rintro ⟨i, hi, rfl⟩
        rcases h with rfl | ⟨hs, h⟩
        · have hi : i < (shownCalls cfg e.2).length + (if selfdestructed e.2 then 1 else 0) := hi
          by_cases hlt : i < (shownCalls cfg e.2).length
          · have hc := located_calls cfg t e he i _ (List.getElem?_eq_getElem hlt)
            exact ⟨frameTrace cfg g (e.1 ++ [i]) _, ⟨List.mem_flatMap.2 ⟨_, hc, List.mem_cons_self⟩,
              i, rfl⟩, rfl⟩
          · cases hs : selfdestructed e.2 with
            | false => rw [hs] at hi; simp at hi; omega
            | true =>
              rw [hs] at hi
              have hie : i = (shownCalls cfg e.2).length := by simp at hi; omega
              have hsd : sdTrace cfg e.1 e.2 ≠ [] := by simp [sdTrace, hs]
              obtain ⟨x, hx⟩ := List.exists_mem_of_ne_nil _ hsd
              refine ⟨x, ⟨List.mem_flatMap.2 ⟨e, he, List.mem_cons_of_mem _ hx⟩, i, ?_⟩, ?_⟩
              · rw [(sdTrace_addr hx).1, hie]; rfl
              · rw [(sdTrace_addr hx).1, hie]; rfl
        · rw [(sdTrace_addr h).2] at hi
          omega
  simpa using hlen.symm

/-- In the example the called contract has one call and a selfdestruct: two subtraces. -/
example : (txTraces Config.defaultParity 0 Example.tx).map (fun t => (t.traceAddress, t.subtraces)) =
    [([], 2), ([0], 2), ([0, 1], 0), ([0, 0], 0), ([1], 0)] := by decide

/-! ## C26 -/

/-- **C26** (partial, exact). The traces of calls and creations come in strictly increasing
lexicographic order of their addresses, and each selfdestruct trace comes right after the trace of
its frame (`txTraces`). All traces together are in lexicographic order if and only if no
selfdestructing frame made a shown call: the selfdestruct trace is emitted before the traces of the
calls, while its address comes after theirs (see `C26_refuted`). -/
theorem C26_order_partial (cfg : Config) (t : Tx) (hwf : t.WF) (hsafe : Safe cfg t.body) :
    ∃ s ts, TI.run cfg TI.new t.events = .ok s ∧ intoTransactionTraces s.arena = .ok ts ∧
      (ts.filter (fun tr => match tr.action with | .selfdestruct _ _ _ => false | _ => true)).Pairwise
        (fun a b => a.traceAddress < b.traceAddress) ∧
      (ts.Pairwise (fun a b => a.traceAddress < b.traceAddress) ↔
        ∀ f path, follow cfg (rootOf t) path = some f → selfdestructed f = true →
          shownCalls cfg f = []) := by
  obtain ⟨s, root, hr, _, _, htr⟩ := run_traces cfg t hwf hsafe
  refine ⟨s, _, hr, htr, ?_, ?_⟩
  · have hf : ∀ l : List (List Nat × FrameCtx), (l.flatMap fun e => frameTrace cfg root.trace.gasUsed e.1 e.2 ::
        sdTrace cfg e.1 e.2).filter (fun tr => match tr.action with | .selfdestruct _ _ _ => false | _ => true) =
        l.map (fun e => frameTrace cfg root.trace.gasUsed e.1 e.2) := by
      intro l
      induction l with
      | nil => rfl
      | cons e l ih =>
        rw [List.flatMap_cons, List.filter_append, ih, List.map_cons, List.filter_cons_of_pos]
        · have : (sdTrace cfg e.1 e.2).filter
              (fun tr => match tr.action with | .selfdestruct _ _ _ => false | _ => true) = [] := by
            unfold sdTrace; split <;> simp
          rw [this]; rfl
        · simp only [frameTrace, action]; cases e.2.hdr <;> rfl
    rw [txTraces, hf, List.pairwise_map]
    exact located_sorted cfg t
  · rw [txTraces, List.pairwise_flatMap]
    constructor
    · intro ⟨_, hp⟩ f path hfo hs
      cases hsc : shownCalls cfg f with
      | nil => rfl
      | cons c cs =>
        exfalso
        have he := located_complete cfg t path f hfo
        have hc := located_calls cfg t _ he 0 c (by simp [hsc])
        obtain ⟨i, hi, hie⟩ := List.mem_iff_getElem.1 he
        obtain ⟨j, hj, hje⟩ := List.mem_iff_getElem.1 hc
        have hij : i < j := by
          rcases Nat.lt_trichotomy i j with h | h | h
          · exact h
          · subst h; rw [hie] at hje
            have := congrArg Prod.fst hje
            simp at this
          · have := List.pairwise_iff_getElem.1 (located_sorted cfg t) j i hj hi h
            rw [hje, hie] at this
            have h2 := lt_append_right path 0 []
            exact absurd (List.lt_trans this h2) (lt_irrefl' _)
        have h := List.pairwise_iff_getElem.1 hp i j hi hj hij
        rw [hie, hje] at h
        have hsd : sdTrace cfg path f ≠ [] := by simp [sdTrace, hs]
        obtain ⟨x, hx⟩ := List.exists_mem_of_ne_nil _ hsd
        have hlt := h x (List.mem_cons_of_mem _ hx) (frameTrace cfg _ (path ++ [0]) c) List.mem_cons_self
        rw [(sdTrace_addr hx).1, hsc] at hlt
        have hlt : path ++ [cs.length + 1] < path ++ [0] := hlt
        have hgt : path ++ [0] < path ++ [cs.length + 1] :=
          append_lt_append path (List.Lex.rel (by omega))
        exact absurd (List.lt_trans hlt hgt) (lt_irrefl' _)
    · intro hall
      refine ⟨?_, ?_⟩
      · intro e he
        rw [List.pairwise_cons]
        refine ⟨?_, ?_⟩
        · intro x hx
          rw [(sdTrace_addr hx).1]
          exact lt_append_right _ _ _
        · unfold sdTrace; split <;> simp
      · refine List.Pairwise.imp_of_mem ?_ (located_sorted cfg t)
        intro a b ha hb hlt x hx y hy
        have hfa := located_follow cfg t a ha
        have hfb := located_follow cfg t b hb
        have hy' : ∃ q, y.traceAddress = b.1 ++ q := by
          rcases List.mem_cons.1 hy with rfl | hy
          · exact ⟨[], (List.append_nil _).symm⟩
          · exact ⟨_, (sdTrace_addr hy).1⟩
        obtain ⟨q, hq⟩ := hy'
        rw [hq]
        rcases lt_cases hlt with ⟨i, r, hbr⟩ | h
        · rcases List.mem_cons.1 hx with rfl | hx
          · show a.1 < _
            rw [hbr, List.append_assoc]; exact lt_append_right _ _ _
          · exfalso
            have hs : selfdestructed a.2 = true := by
              cases h : selfdestructed a.2 with
              | true => rfl
              | false => simp [sdTrace, h] at hx
            have hn := hall a.2 a.1 hfa hs
            rw [hbr, follow_append, hfa, Option.bind_some, follow, hn] at hfb
            simp at hfb
        · rcases List.mem_cons.1 hx with rfl | hx
          · have := h [] q
            rwa [List.append_nil] at this
          · rw [(sdTrace_addr hx).1]; exact h _ q

/-- **C26 fails in general.** In the example the called contract delegate-calls a library and then
selfdestructs; its selfdestruct trace `[0, 1]` comes before the library's trace `[0, 0]`. -/
theorem C26_refuted : ∃ t : Tx, t.WF ∧ (∀ cfg, Safe cfg t.body) ∧
    ∃ s ts, TI.run Config.defaultParity TI.new t.events = .ok s ∧
      intoTransactionTraces s.arena = .ok ts ∧
      ts.map (·.traceAddress) = [[], [0], [0, 1], [0, 0], [1]] ∧
      ¬ ts.Pairwise (fun a b => a.traceAddress < b.traceAddress) := by
  refine ⟨Example.tx, Example.wf, Example.safe, _, _, rfl, rfl, by decide, ?_⟩
  rw [← List.pairwise_map (f := TransactionTrace.traceAddress) (R := (· < ·))]
  decide

/-! ## C27 -/

theorem traceLoop_eq (all : List Node) : ∀ (l : List Node) (acc : List TransactionTrace),
    (∀ x ∈ l, x.isPrecompile = true → ∃ a, traceAddress all x.idx = .ok a) →
    traceLoop all true (l.filter (fun n => !n.isPrecompile)) acc =
      match traceAddressesOf all (l.map (·.idx)) with
      | .error e => .error e
      | .ok as => .ok (acc ++ traceIter (((l.zip as).filter (fun p => !p.1.isPrecompile)).map
          (fun p => (p.1.parityTransactionTrace p.2, p.1)))) := by
  intro l
  induction l with
  | nil => intro acc _; simp [traceLoop, traceAddressesOf, traceIter]
  | cons x l ih =>
    intro acc h
    have hl : ∀ y ∈ l, y.isPrecompile = true → ∃ a, traceAddress all y.idx = .ok a :=
      fun y hy => h y (List.mem_cons_of_mem _ hy)
    simp only [List.map_cons, traceAddressesOf]
    cases hp : x.isPrecompile with
    | true =>
      obtain ⟨a, ha⟩ := h x List.mem_cons_self hp
      rw [List.filter_cons_of_neg (by simp [hp]), ih acc hl, ha]
      cases traceAddressesOf all (l.map (·.idx)) with
      | error e => rfl
      | ok as => simp [hp]
    | false =>
      rw [List.filter_cons_of_pos (by simp [hp])]
      simp only [traceLoop]
      cases traceAddress all x.idx with
      | error e => rfl
      | ok a =>
        simp only [if_true]
        cases hsd : x.isSelfdestruct with
        | false =>
          simp only [Bool.false_eq_true, if_false, ih _ hl]
          cases traceAddressesOf all (l.map (·.idx)) with
          | error e => rfl
          | ok as => simp [hp, traceIter, hsd]
        | true =>
          simp only [if_true]
          cases hst : x.paritySelfdestructTrace ((x.parityTransactionTrace a).traceAddress ++
              [(x.parityTransactionTrace a).subtraces]) with
          | none =>
            simp only [ih _ hl]
            cases traceAddressesOf all (l.map (·.idx)) with
            | error e => rfl
            | ok as => simp [hp, traceIter, hsd, hst]
          | some sd =>
            simp only [ih _ hl]
            cases traceAddressesOf all (l.map (·.idx)) with
            | error e => rfl
            | ok as => simp [hp, traceIter, hsd, hst]

/-- **C27.** For every recording (any sequence of hook calls at all, complete or not) and every set of
trace types with `Trace` in it for which the vm trace, if requested, does not panic: the list of
traces in `into_trace_type_traces` is that of `into_transaction_traces` (including whether they
panic), and the localized variant is that list with the transaction info added to each trace. -/
theorem C27_entry_points_agree (cfg : Config) (es : List Event) (s : TI)
    (hr : TI.run cfg TI.new es = .ok s) (types : List TraceType) (hT : TraceType.Trace ∈ types)
    (hvm : TraceType.VmTrace ∈ types → ∃ v, vmTrace s.arena = .ok v) (info : TxInfo) :
    (intoTraceTypeTraces s.arena types).map (·.traces) =
      (intoTransactionTraces s.arena).map some ∧
    (∀ ts, intoTransactionTraces s.arena = .ok ts →
      ∃ ls, intoLocalizedTransactionTraces s.arena info = .ok ls ∧ ls.map (·.trace) = ts ∧
        ∀ l ∈ ls, l.transactionPosition = info.index ∧ l.transactionHash = info.hash ∧
          l.blockNumber = info.blockNumber ∧ l.blockHash = info.blockHash) := by
  have hlk := C04_links cfg es s hr
  refine ⟨?_, ?_⟩
  · have hidx : s.arena.map (·.idx) = List.range s.arena.length := by
      apply List.ext_getElem?
      intro k
      rw [List.getElem?_map]
      cases hk : s.arena[k]? with
      | none => simp at hk ⊢; exact hk
      | some f =>
        have hlt := (List.getElem?_eq_some_iff.1 hk).1
        rw [List.getElem?_range hlt, Option.map_some, hlk.idx k f hk]
    have hloop := traceLoop_eq s.arena s.arena [] (by
      intro x hx hp
      obtain ⟨k, hk⟩ := List.getElem?_of_mem hx
      rw [hlk.idx k x hk, traceAddress]
      split
      · exact ⟨_, rfl⟩
      · rw [hk]; simp only [hp, if_true]; exact ⟨_, rfl⟩)
    rw [hidx] at hloop
    have hne : types.isEmpty = false := by cases types <;> simp_all
    have hne2 : s.arena.isEmpty = false := by
      have := hlk.nonempty
      cases h : s.arena <;> simp_all
    have hTc : types.contains .Trace = true := by simpa using hT
    unfold intoTraceTypeTraces intoTransactionTraces traceAddresses
    rw [hne, hne2]
    simp only [Bool.or_self, Bool.false_eq_true, if_false, hTc]
    rw [hloop]
    by_cases hv : TraceType.VmTrace ∈ types
    · obtain ⟨v, hv'⟩ := hvm hv
      have hvc : types.contains .VmTrace = true := by simpa using hv
      simp only [hvc, if_true, hv', List.nil_append]
      cases traceAddressesOf s.arena (List.range s.arena.length) <;> rfl
    · have hvc : types.contains .VmTrace = false := by simpa using hv
      simp only [hvc, Bool.false_eq_true, if_false, List.nil_append]
      cases traceAddressesOf s.arena (List.range s.arena.length) <;> rfl
  · intro ts hts
    refine ⟨_, by rw [intoLocalizedTransactionTraces, hts], ?_, ?_⟩
    · rw [List.map_map]
      have : ((·.trace) ∘ fun t => ({ trace := t, transactionPosition := info.index, transactionHash := info.hash, blockNumber := info.blockNumber, blockHash := info.blockHash } : Localized)) = id := rfl
      rw [this, List.map_id]
    · intro l hl
      obtain ⟨t, _, rfl⟩ := List.mem_map.1 hl
      exact ⟨rfl, rfl, rfl, rfl⟩

/-- A recording with the hypotheses: the example, both entry points give five traces. -/
example : ∃ s ts r, TI.run Config.defaultParity TI.new Example.tx.events = .ok s ∧
    intoTransactionTraces s.arena = .ok ts ∧ intoTraceTypeTraces s.arena [.StateDiff, .Trace] = .ok r ∧
    ts.length = 5 ∧ r.traces.map List.length = some 5 :=
  ⟨_, _, _, rfl, rfl, rfl, by decide, by decide⟩

/-! ## C28 -/

/-- **C28.** For every execution tree and configuration, the traces of the recording are those of the
execution (`txTraces`): in particular, for every shown frame the trace at its path has an error
exactly if the frame failed, with the documented text; a result exactly if the frame succeeded or
reverted; and for a call frame the call's data in action and result, for a create frame the
creation's data. The root shows the recorded root gas (C11). -/
theorem C28_outcomes (cfg : Config) (t : Tx) (hwf : t.WF) (hsafe : Safe cfg t.body) :
    ∃ s ts root, TI.run cfg TI.new t.events = .ok s ∧ intoTransactionTraces s.arena = .ok ts ∧
      s.arena[0]? = some root ∧ ts = txTraces cfg root.trace.gasUsed t ∧
      ∀ f path, follow cfg (rootOf t) path = some f → ∃ tr ∈ ts, tr.traceAddress = path ∧
        tr.action = action f ∧
        (tr.error.isSome = true ↔ f.out.result.result.isOk = false) ∧
        (∀ e, tr.error = some e → e = errorText .Parity f.out.result.result) ∧
        (tr.result.isSome = true ↔ f.out.result.result.isOk = true ∨ f.out.result.result = .Revert) ∧
        (∀ r, tr.result = some r → ∃ gas, (f.index ≠ 0 → gas = f.out.result.gas.limit - f.out.result.gas.remaining) ∧
          match f.hdr with
          | .call _ _ => r = .call gas f.out.result.output
          | .create _ _ => r = .create gas f.out.result.output (frameData f).address) := by
  obtain ⟨s, root, hr, h0, _, htr⟩ := run_traces cfg t hwf hsafe
  refine ⟨s, _, root, hr, htr, h0, rfl, ?_⟩
  intro f path hf
  have he := located_complete cfg t path f hf
  have hpar : f.index ≠ 0 → f.parent ≠ none := by
    have hm : f ∈ frames t := by
      rw [← txAll_frames cfg t hwf]
      rw [← txAll_filter] at he
      exact List.mem_map_of_mem (f := fun e : List Nat × FrameCtx => e.2) (List.mem_filter.1 he).1
    exact fun h h' => h ((frames_root_iff hm).2.2 h')
  refine ⟨frameTrace cfg root.trace.gasUsed path f, List.mem_flatMap.2 ⟨_, he, List.mem_cons_self⟩,
    rfl, rfl, ?_, ?_, ?_, ?_⟩
  · simp only [frameTrace]
    cases f.out.result.result.isOk <;> simp
  · intro e
    simp only [frameTrace]
    cases f.out.result.result.isOk <;> simp
    exact fun h => h.symm
  · simp only [frameTrace, outcome]
    split
    · rename_i h; cases f.hdr <;> simp [h]
    · rename_i h; simp [h]
  · intro r hres
    refine ⟨if f.parent = none then root.trace.gasUsed
      else f.out.result.gas.limit - f.out.result.gas.remaining, fun h => if_neg (hpar h), ?_⟩
    simp only [frameTrace, outcome] at hres
    split at hres
    · cases hh : f.hdr <;> rw [hh] at hres <;> simp at hres <;> simp [hres]
    · simp at hres

/-- **C28**, trace types: whenever `into_trace_type_traces` returns, exactly the requested parts are
present. -/
theorem C28_types (cfg : Config) (es : List Event) (s : TI) (hr : TI.run cfg TI.new es = .ok s)
    (types : List TraceType) (r : TypeTraces) (h : intoTraceTypeTraces s.arena types = .ok r) :
    (r.traces.isSome = true ↔ .Trace ∈ types) ∧ (r.vmTrace.isSome = true ↔ .VmTrace ∈ types) ∧
    (r.stateDiff.isSome = true ↔ .StateDiff ∈ types) := by
  have hlk := C04_links cfg es s hr
  have hne2 : s.arena.isEmpty = false := by
    have := hlk.nonempty
    cases h : s.arena <;> simp_all
  unfold intoTraceTypeTraces at h
  rw [hne2, Bool.or_false] at h
  by_cases ht : types = []
  · subst ht
    simp only [List.isEmpty_nil, if_true, Except.ok.injEq] at h
    subst h
    simp
  · have : types.isEmpty = false := by cases types <;> simp_all
    simp only [this, Bool.false_eq_true, if_false] at h
    simp only [← List.contains_iff_mem]
    split at h
    · simp at h
    · rename_i vm hvm
      split at h
      · simp at h
      · simp only [Except.ok.injEq] at h
        subst h
        refine ⟨?_, ?_, ?_⟩
        · cases types.contains .Trace <;> simp
        · cases hc : types.contains .VmTrace <;> rw [hc] at hvm
          · simp at hvm; subst hvm; simp
          · simp only [if_true] at hvm
            split at hvm
            · simp at hvm
            · simp at hvm; subst hvm; simp
        · cases types.contains .StateDiff <;> simp

/-- The example has a failing frame when its library reverts: error and result are both there. -/
example : ∃ tr : TransactionTrace,
    tr = frameTrace Config.defaultParity 0 [0] ⟨1, some 0, 1, some 0, Example.callHdr .Call 1 2 2 0, .nil,
      Example.out .Revert⟩ ∧ tr.error = some "Reverted" ∧ tr.result = some (.call 600 [7, 8]) :=
  ⟨_, rfl, by decide, by decide⟩

/-! ## C52, parity part -/

theorem setRoot_txTraces (cfg : Config) (g g' : Nat) (t : Tx) :
    setRootTraceGasUsed g' (txTraces cfg g t) = txTraces cfg g' t := by
  simp only [txTraces, located, List.flatMap_cons, List.cons_append, setRootTraceGasUsed]
  congr 1
  · simp only [frameTrace, rootOf]
    congr 1
    simp only [outcome, if_true]
    split
    · cases t.hdr <;> rfl
    · rfl
  · congr 1
    have h : ∀ l : List (List Nat × FrameCtx), (∀ e ∈ l, e.2.parent ≠ none) →
        (l.flatMap fun e => frameTrace cfg g e.1 e.2 :: sdTrace cfg e.1 e.2) =
        (l.flatMap fun e => frameTrace cfg g' e.1 e.2 :: sdTrace cfg e.1 e.2) := by
      intro l hl
      induction l with
      | nil => rfl
      | cons e l ih =>
        rw [List.flatMap_cons, List.flatMap_cons, ih (fun e he => hl e (List.mem_cons_of_mem _ he))]
        have he := hl e List.mem_cons_self
        simp only [frameTrace, outcome, if_neg he]
    apply h
    have hp : ∀ (b : Body) d p v n path k, ∀ e ∈ locate cfg d p v n path k b, e.2.parent ≠ none := by
      intro b
      induction b with
      | nil => intro d p v n path k e he; simp [locate] at he
      | act a rest ih => intro d p v n path k e he; exact ih _ _ _ _ _ _ e he
      | sub h b o rest ihb ihr =>
        intro d p v n path k e he
        simp only [locate] at he
        split at he
        · exact ihr _ _ _ _ _ _ e he
        · rcases List.mem_cons.1 he with rfl | he
          · simp
          · rcases List.mem_append.1 he with he | he
            · exact ihb _ _ _ _ _ _ e he
            · exact ihr _ _ _ _ _ _ e he
    exact fun e he => hp _ _ _ _ _ _ _ e he

/-- **C52**, parity builder. Setting the transaction gas on the builder changes the root node's gas
used and nothing else; the traces built afterwards are the traces built without it, with the gas of
the first trace set; and that is also what `into_trace_results` reports for the gas used of the
execution result. -/
theorem C52_parity (cfg : Config) (t : Tx) (hwf : t.WF) (hsafe : Safe cfg t.body) (g : Nat) :
    ∃ s ts, TI.run cfg TI.new t.events = .ok s ∧ intoTransactionTraces s.arena = .ok ts ∧
      (∀ x, s.arena[0]? = some x → (setTransactionGasUsed s.arena g)[0]? =
        some { x with trace := { x.trace with gasUsed := g } }) ∧
      (∀ k, k ≠ 0 → (setTransactionGasUsed s.arena g)[k]? = s.arena[k]?) ∧
      intoTransactionTraces (setTransactionGasUsed s.arena g) = .ok (setRootTraceGasUsed g ts) ∧
      (∀ out, ∃ res, intoTraceResults s.arena g out [.Trace] = .ok res ∧
        res.trace = setRootTraceGasUsed g ts) := by
  obtain ⟨s, root, hr, h0, har, htr⟩ := run_traces cfg t hwf hsafe
  refine ⟨s, _, hr, htr, ?_, ?_, ?_, ?_⟩
  · intro x hx
    cases ha : s.arena with
    | nil => rw [ha] at hx; simp at hx
    | cons y rest => rw [ha] at hx; simp at hx; subst hx; rfl
  · intro k hk
    cases ha : s.arena with
    | nil => rfl
    | cons y rest =>
      cases k with
      | zero => exact absurd rfl hk
      | succ k => rfl
  · rw [setRoot_txTraces, har, traces_run cfg g t hwf]
  · intro out
    have h := (C27_entry_points_agree cfg t.events s hr [.Trace] (by simp) (by simp)
      ⟨none, none, none, none⟩).1
    rw [htr] at h
    cases hi : intoTraceTypeTraces s.arena [.Trace] with
    | error e => rw [hi] at h; simp [Except.map] at h
    | ok r =>
      rw [hi] at h
      simp only [Except.map, Except.ok.injEq] at h
      refine ⟨_, by rw [intoTraceResults, hi], ?_⟩
      simp only [h, Option.getD_some]

/-! ## C56 -/

/-- **C56.** The callers are exactly the callers of the frames of the execution. -/
theorem C56_callers (cfg : Config) (t : Tx) (hwf : t.WF) (hsafe : Safe cfg t.body) :
    ∃ s, TI.run cfg TI.new t.events = .ok s ∧
      ∀ a, a ∈ callers s.arena ↔ ∃ f ∈ frames t, caller f.hdr = a := by
  obtain ⟨s, root, hr, h0, har, htr⟩ := run_traces cfg t hwf hsafe
  refine ⟨s, hr, ?_⟩
  intro a
  rw [har, callers, List.map_map]
  have : ((·.trace.caller) ∘ nodeOf cfg) = fun f => caller f.hdr :=
    funext fun f => congrArg FrameData.caller (nodeOf_readFrame cfg f)
  rw [this, List.mem_map]

example : (callers ((frames Example.tx).map (nodeOf Config.all))) = [0x99, 0xa, 0xb, 0xa, 0xa] := by decide

end Verif.Props
