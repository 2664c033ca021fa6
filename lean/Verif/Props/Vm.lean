import Verif.Props.Parity
import Verif.Props.Walk
import Verif.Lemmas.Populate
/-!
# C29, C30: vmTrace and its bytecodes
-/
namespace Verif.Props
open Spec Rec Parity Par

/-- The recorded steps of a node. -/
def stepsAt (A : List Node) (i : Nat) : List CallTraceStep := ((A[i]?).map (·.trace.steps)).getD []

theorem subFrames_trans (b : Body) : ∀ (d p : Nat) (v : U256) (n : Nat), ∀ f ∈ subFrames d p v n b,
    ∀ g ∈ subFrames (f.depth + 1) f.index f.value (f.index + 1) f.body, g ∈ subFrames d p v n b := by
  induction b with
  | nil => intro d p v n f hf; simp [subFrames] at hf
  | act a rest ih => intro d p v n f hf g hg; exact ih d p v n f hf g hg
  | sub h b o rest ihb ihr =>
    intro d p v n f hf g hg
    simp only [subFrames, List.mem_cons, List.mem_append] at hf ⊢
    rcases hf with rfl | hf | hf
    · exact Or.inr (Or.inl hg)
    · exact Or.inr (Or.inl (ihb _ _ _ _ f hf g hg))
    · exact Or.inr (Or.inr (ihr _ _ _ _ f hf g hg))

theorem frames_trans (t : Tx) : ∀ f ∈ frames t,
    ∀ g ∈ subFrames (f.depth + 1) f.index f.value (f.index + 1) f.body, g ∈ frames t := by
  intro f hf g hg
  simp only [frames, List.mem_cons] at hf ⊢
  rcases hf with rfl | hf
  · exact Or.inr hg
  · exact Or.inr (subFrames_trans _ _ _ _ _ f hf g hg)

theorem nodeOf_link (cfg : Config) (t : Tx) (hwf : t.WF) : ∀ f ∈ frames t,
    LinkOf cfg (nodeOf cfg f) f := by
  intro f hf
  have h := nodeG_link cfg (nodeOf cfg f).trace.gasUsed t hwf f hf
  rw [nodeG] at h
  split at h
  · exact h
  · exact h

theorem vmNodes_run (cfg : Config) (t : Tx) (hwf : t.WF) :
    VmNodes cfg t ((frames t).map (nodeOf cfg)) (stepsAt ((frames t).map (nodeOf cfg))) := by
  refine ⟨by simp, ?_, ?_⟩
  · intro g hg
    refine ⟨nodeOf cfg g, frames_lookup cfg t g hg, nodeOf_link cfg t hwf g hg, ?_⟩
    rw [stepsAt, frames_lookup cfg t g hg]; rfl
  · rw [List.map_map]
    apply List.map_congr_left
    intro g hg
    rw [Function.comp, (nodeOf_link cfg t hwf g hg).children]

/-! ## C29 -/

/-- For every execution and configuration `vm_trace` does not panic and has at most as many
sub-traces (itself included) as there are shown frames. -/
theorem C29_no_panic (cfg : Config) (t : Tx) (hwf : t.WF) (hsafe : Safe cfg t.body) :
    ∃ s v, TI.run cfg TI.new t.events = .ok s ∧ vmTrace s.arena = .ok v ∧
      v.count ≤ (located cfg t).length := by
  obtain ⟨s, hr, _, ha, _⟩ := run_frames cfg t hwf hsafe
  obtain ⟨v, hv, hc⟩ := vmTrace_count cfg t hwf _ _ (vmNodes_run cfg t hwf)
  exact ⟨s, v, hr, by rw [ha]; exact hv, hc⟩

/-- C27 for complete executions, where `vm_trace` never panics. -/
theorem C27_executions (cfg : Config) (t : Tx) (hwf : t.WF) (hsafe : Safe cfg t.body)
    (types : List TraceType) (hT : TraceType.Trace ∈ types) :
    ∃ s r ts, TI.run cfg TI.new t.events = .ok s ∧ intoTraceTypeTraces s.arena types = .ok r ∧
      intoTransactionTraces s.arena = .ok ts ∧ r.traces = some ts := by
  obtain ⟨s, v, hr, hv, _⟩ := C29_no_panic cfg t hwf hsafe
  obtain ⟨s', root, hr', _, _, htx⟩ := run_traces cfg t hwf hsafe
  rw [hr] at hr'
  simp only [Except.ok.injEq] at hr'
  subst hr'
  have h := (C27_entry_points_agree cfg t.events s hr types hT (fun _ => ⟨v, hv⟩)
    ⟨none, none, none, none⟩).1
  rw [htx] at h
  cases hi : intoTraceTypeTraces s.arena types with
  | error e => rw [hi] at h; simp [Except.map] at h
  | ok r =>
    rw [hi] at h
    simp only [Except.map, Except.ok.injEq] at h
    exact ⟨s, r, _, hr, hi, htx, h⟩

/-- Nothing stands in the way of the `vmTrace`: all instructions are recorded, no frame is left out,
every frame is entered by the call instruction before it; only first sub-frames call further
(`FirstChain`); and no frame starts with STOP, or the frame entered last does not end with it. -/
structure VmFriendly (cfg : Config) (t : Tx) : Prop where
  all : ∀ op, records cfg op = true
  shown : ∀ f ∈ frames t, Spec.excluded cfg f = false
  attached : Attached false t.body
  chain : FirstChain true t.body
  stop : (∀ f ∈ frames t, firstOp f.body ≠ some 0) ∨
    ∀ f, (frames t).getLast? = some f → lastOp f.body ≠ some 0

theorem stepsAt_frame (cfg : Config) (t : Tx) : ∀ f ∈ frames t,
    stepsAt ((frames t).map (nodeOf cfg)) f.index =
      stepsFor cfg (f.depth + 1) (instrs cfg f.body) none := by
  intro f hf
  rw [stepsAt, frames_lookup cfg t f hf, Option.map_some, Option.getD_some, nodeOf_steps]

theorem isStop_iff (st : CallTraceStep) : st.isStop = true ↔ st.op = 0 := by
  simp [CallTraceStep.isStop, Op.STOP]

theorem lastStop_iff (cfg : Config) (t : Tx) (hall : RecordsAll cfg) :
    isLastStepStopOp ((frames t).map (nodeOf cfg)) = true →
      ∃ f, (frames t).getLast? = some f ∧ lastOp f.body = some 0 := by
  intro h
  unfold isLastStepStopOp at h
  rw [List.getLast?_map] at h
  cases hl : (frames t).getLast? with
  | none => rw [hl] at h; simp at h
  | some f =>
    rw [hl] at h
    simp only [Option.map_some, nodeOf_steps] at h
    refine ⟨f, rfl, ?_⟩
    rw [← last_stepsFor cfg hall (f.depth + 1) f.body none]
    cases hs : (stepsFor cfg (f.depth + 1) (instrs cfg f.body) none).getLast? with
    | none => rw [hs] at h; simp at h
    | some st => rw [hs] at h; simp only [Option.map_some, (isStop_iff st).1 h]

theorem attached_frames (b : Body) : ∀ (pend : Bool) (d p : Nat) (v : U256) (n : Nat),
    Attached pend b → ∀ f ∈ subFrames d p v n b, Attached false f.body := by
  induction b with
  | nil => intro pend d p v n _ f hf; simp [subFrames] at hf
  | act a rest ih => intro pend d p v n h f hf; exact ih _ d p v n h.2 f hf
  | sub h b o rest ihb ihr =>
    intro pend d p v n hatt f hf
    obtain ⟨_, h2, h3⟩ := hatt
    simp only [subFrames, List.mem_cons, List.mem_append] at hf
    rcases hf with rfl | hf | hf
    · exact h2
    · exact ihb _ _ _ _ _ h2 f hf
    · exact ihr _ _ _ _ _ h3 f hf

theorem VmFriendly.ok {cfg : Config} {t : Tx} (h : VmFriendly cfg t) : ∀ f ∈ frames t,
    Spec.excluded cfg f = false ∧
      Match f.body (stepsAt ((frames t).map (nodeOf cfg)) f.index) ∧
      (isLastStepStopOp ((frames t).map (nodeOf cfg)) = true → ∀ st,
        (stepsAt ((frames t).map (nodeOf cfg)) f.index).head? = some st → st.isStop = false) ∧
      Attached false f.body := by
  intro f hf
  refine ⟨h.shown f hf, ?_, ?_, ?_⟩
  · rw [stepsAt_frame cfg t f hf]; exact match_stepsFor cfg h.all _ _ _
  · intro hls st hst
    obtain ⟨g, hg, hgl⟩ := lastStop_iff cfg t h.all hls
    rcases h.stop with hs | hs
    · have := head_stepsFor cfg h.all (f.depth + 1) f.body none
      rw [stepsAt_frame cfg t f hf] at hst
      rw [hst, Option.map_some] at this
      have h1 := hs f hf
      rw [← this] at h1
      cases hb : st.isStop with
      | false => rfl
      | true => exact absurd (by rw [(isStop_iff st).1 hb]) h1
    · exact absurd hgl (hs g hg)
  · simp only [frames, List.mem_cons] at hf
    rcases hf with rfl | hf
    · exact h.attached
    · exact attached_frames _ _ _ _ _ _ h.attached f hf

/-- **C29** (partial: holds under `VmFriendly`; without it the code attaches traces to the wrong
instructions or drops them, see the refutations). `vm_trace` lists for every frame its recorded steps
in order, with the trace of a frame below exactly the instruction that entered it. -/
theorem C29_vm_trace_partial (cfg : Config) (t : Tx) (hwf : t.WF) (hsafe : Safe cfg t.body)
    (hvm : VmFriendly cfg t) :
    ∃ s, TI.run cfg TI.new t.events = .ok s ∧
      vmTrace s.arena = .ok (vmTree (stepsAt s.arena) (fun _ => []) t) := by
  obtain ⟨s, hr, _, ha, _⟩ := run_frames cfg t hwf hsafe
  refine ⟨s, hr, ?_⟩
  rw [ha, vmTrace_eq cfg t hwf _ _ (vmNodes_run cfg t hwf)]
  have hok := hvm.ok
  have hd := dfs_tree cfg (isLastStepStopOp ((frames t).map (nodeOf cfg)))
    (stepsAt ((frames t).map (nodeOf cfg))) t.body 1 0 (valueInScope none t.hdr) 1 [] true false
    hvm.chain hvm.attached (fun _ => rfl) (fun g hg => by
      have := hok g (by simp [frames, hg])
      exact ⟨this.1, this.2.1, this.2.2.1⟩)
  rw [hd]
  obtain ⟨_, h2, h3, _⟩ := hok (rootOf t) (by simp [frames, rootOf])
  have hi := instrLoop_tree (isLastStepStopOp ((frames t).map (nodeOf cfg)))
    (stepsAt ((frames t).map (nodeOf cfg))) (fun _ => []) t.body 1 _ [] [] false hvm.attached h2
    (fun _ => rfl) (fun h _ => h3 h)
  simp only [Bool.false_eq_true, if_false, List.drop_zero, List.append_nil, List.nil_append] at hi ⊢
  rw [show (rootOf t).index = 0 from rfl] at hi
  rw [hi]
  rfl

/-! ## C30 -/

theorem follow_reach (cfg : Config) (t : Tx) (hwf : t.WF) (path : List Nat) : ∀ (f g : FrameCtx),
    f ∈ frames t → Reach ((frames t).map (nodeOf cfg)) f.index → follow cfg f path = some g →
    Reach ((frames t).map (nodeOf cfg)) g.index ∧ g ∈ frames t := by
  induction path with
  | nil =>
    intro f g hf hr h
    simp only [follow, Option.some.injEq] at h; subst h; exact ⟨hr, hf⟩
  | cons i path ih =>
    intro f g hf hr h
    simp only [follow] at h
    cases hi : (shownCalls cfg f)[i]? with
    | none => rw [hi] at h; simp at h
    | some g' =>
      rw [hi] at h
      have hm : g' ∈ shownCalls cfg f := List.mem_of_getElem? hi
      have hsub : ∀ (b : Body) (d p : Nat) (v : U256) (n : Nat), ∀ g ∈ shownBelow cfg d p v n b,
          g ∈ subFrames d p v n b := by
        intro b
        induction b with
        | nil => intro d p v n g hg; simp [shownBelow] at hg
        | act a rest ih => intro d p v n g hg; exact ih d p v n g hg
        | sub h b o rest _ ih =>
          intro d p v n g hg
          simp only [shownBelow, List.mem_append] at hg
          simp only [subFrames, List.mem_cons, List.mem_append]
          rcases hg with hg | hg
          · split at hg
            · simp at hg
            · exact Or.inl (by simpa using hg)
          · exact Or.inr (Or.inr (ih _ _ _ _ g hg))
      have hf' := frames_trans t f hf g' (hsub _ _ _ _ _ g' hm)
      refine ih g' g hf' (Reach.child hr ?_) h
      rw [childrenAt, frames_lookup cfg t f hf, Option.map_some, Option.getD_some,
        (nodeOf_link cfg t hwf f hf).children, ← shownBelow_index]
      exact List.mem_map_of_mem (f := (·.index)) hm

theorem located_reach (cfg : Config) (t : Tx) (hwf : t.WF) : ∀ e ∈ located cfg t,
    Reach ((frames t).map (nodeOf cfg)) e.2.index ∧ e.2 ∈ frames t := fun e he =>
  follow_reach cfg t hwf e.1 (rootOf t) e.2 (by simp [frames, rootOf]) Reach.root
    (located_follow cfg t e he)

theorem frames_indices (t : Tx) : (frames t).map (·.index) = List.range (frames t).length := by
  apply List.ext_getElem?
  intro k
  rw [List.getElem?_map]
  cases hk : (frames t)[k]? with
  | none => simp at hk ⊢; exact hk
  | some f =>
    have hlt := (List.getElem?_eq_some_iff.1 hk).1
    rw [List.getElem?_range hlt, Option.map_some, frames_index hk]

theorem located_indices_nodup (cfg : Config) (t : Tx) (hwf : t.WF) :
    ((located cfg t).map (·.2.index)).Nodup := by
  rw [← txAll_filter]
  have h1 : (txAll cfg t).map (·.2.index) = List.range (frames t).length := by
    rw [← frames_indices, ← txAll_frames cfg t hwf, List.map_map]; rfl
  have h2 : ((txAll cfg t).map (·.2.index)).Nodup := by rw [h1]; exact List.nodup_range
  exact h2.sublist (List.filter_sublist.map _)

theorem db_error {ε : Type} (db : DB ε) (ha : ∀ a, ∃ x, db.account a = .ok x)
    (hc : ∀ h, ∃ x, db.codeByHash h = .ok x) : ∀ (fuel : Nat) (r : VmTrace) (Q : List (List Nat))
    (addrs : List Address) (e : ε), populateLoop db fuel r Q addrs ≠ .error (.db e) := by
  intro fuel
  induction fuel with
  | zero => intro r Q addrs e; cases Q <;> simp [populateLoop]
  | succ fuel ih =>
    intro r Q addrs e
    cases Q with
    | nil => simp [populateLoop]
    | cons p Q =>
      simp only [populateLoop]
      cases r.at p with
      | none => simp
      | some w =>
        cases addrs with
        | nil => simp
        | cons a addrs =>
          obtain ⟨acc, hacc⟩ := ha a
          obtain ⟨code, hcode⟩ := hc acc.codeHash
          simp only [hacc, hcode]
          split
          · exact ih _ _ _ _
          · exact ih _ _ _ _

/-- The addresses of the breadth-first walk suffice. -/
theorem populate_no_panic {ε : Type} (cfg : Config) (t : Tx) (hwf : t.WF) (hsafe : Safe cfg t.body) :
    ∃ s v W, TI.run cfg TI.new t.events = .ok s ∧ vmTrace s.arena = .ok v ∧
      walkBF s.arena = .ok W ∧ ∀ (db : DB ε) e,
        populateVmTraceBytecodes db v (W.map (·.trace.address)) ≠ .error (.panic e) := by
  obtain ⟨s, hr, _, ha, _⟩ := run_frames cfg t hwf hsafe
  obtain ⟨v, hv, hc⟩ := vmTrace_count cfg t hwf _ _ (vmNodes_run cfg t hwf)
  obtain ⟨W, hW, _, _, hmem, _, _⟩ := C31_breadth_first cfg t.events s hr
  refine ⟨s, v, W, hr, by rw [ha]; exact hv, hW, ?_⟩
  have hlen : (located cfg t).length ≤ W.length := by
    have := nodup_subset_length (located_indices_nodup cfg t hwf) (l2 := W.map (·.idx)) (by
      intro i hi
      obtain ⟨e, he, rfl⟩ := List.mem_map.1 hi
      rw [hmem, ha]
      exact (located_reach cfg t hwf e he).1)
    simpa using this
  intro db e
  rw [populateVmTraceBytecodes]
  apply populateLoop_no_panic
  · intro p hp; simp only [List.mem_singleton] at hp; subst hp; simp [VmTrace.at]
  · simp [cnt, VmTrace.at]
  · simp [cnt, VmTrace.at]; omega

/-- **C30, safety** (in full). For every execution, configuration, database, state and set of trace
types, `into_trace_results_with_state` does not panic: it succeeds or returns an error of the
database. -/
theorem C30_no_panic {ε : Type} (cfg : Config) (t : Tx) (hwf : t.WF) (hsafe : Safe cfg t.body) :
    ∃ s, TI.run cfg TI.new t.events = .ok s ∧
      ∀ (db : DB ε) (gas : Nat) (output : Option Bytes) (state : List (Address × Account))
        (types : List TraceType) (e : Panic),
        intoTraceResultsWithState db s.arena gas output state types ≠ .error (.panic e) := by
  obtain ⟨s, v, W, hr, hv, hW, hp⟩ := populate_no_panic (ε := ε) cfg t hwf hsafe
  refine ⟨s, hr, ?_⟩
  intro db gas output state types e
  have htt : ∃ r, intoTraceTypeTraces s.arena types = .ok r ∧
      r.vmTrace = (if types.contains .VmTrace then some v else none) := by
    have hne : s.arena.isEmpty = false := by
      have := (C04_links cfg t.events s hr).nonempty
      cases h : s.arena <;> simp_all
    have hloop : ∃ ts, traceLoop s.arena (types.contains .Trace)
        (s.arena.filter (fun n => !n.isPrecompile)) [] = .ok ts := by
      by_cases hT : TraceType.Trace ∈ types
      · obtain ⟨s', r, ts, hr', hi, _, _⟩ := C27_executions cfg t hwf hsafe types hT
        rw [hr] at hr'
        simp only [Except.ok.injEq] at hr'
        subst hr'
        have hte : types.isEmpty = false := by cases types <;> simp_all
        unfold intoTraceTypeTraces at hi
        rw [hte, hne] at hi
        simp only [Bool.or_self, Bool.false_eq_true, if_false, hv] at hi
        have hT' : types.contains TraceType.Trace = true := by simpa using hT
        rw [hT'] at hi ⊢
        cases hl : traceLoop s.arena true (s.arena.filter (fun n => !n.isPrecompile)) [] with
        | error e => rw [hl] at hi; split at hi <;> simp_all
        | ok ts => exact ⟨ts, rfl⟩
      · obtain ⟨s', r, ts, hr', hi, _, _⟩ := C27_executions cfg t hwf hsafe [.Trace] (by simp)
        rw [hr] at hr'
        simp only [Except.ok.injEq] at hr'
        subst hr'
        have hT' : types.contains TraceType.Trace = false := by simpa using hT
        rw [hT']
        unfold intoTraceTypeTraces at hi
        rw [hne] at hi
        simp only [List.isEmpty_cons, Bool.or_self, Bool.false_eq_true, if_false] at hi
        have hvc : [TraceType.Trace].contains TraceType.VmTrace = false := rfl
        have htc : [TraceType.Trace].contains TraceType.Trace = true := rfl
        rw [hvc, htc] at hi
        simp only [Bool.false_eq_true, if_false, if_true] at hi
        -- both loops compute the same addresses
        have key : ∀ (l : List Node) (acc acc' ts : List TransactionTrace),
            traceLoop s.arena true l acc = .ok ts → traceLoop s.arena false l acc' = .ok acc' := by
          intro l
          induction l with
          | nil => intros; rfl
          | cons x l ih =>
            intro acc acc' ts h
            simp only [traceLoop] at h ⊢
            cases ht : traceAddress s.arena x.idx with
            | error e => rw [ht] at h; simp at h
            | ok a =>
              rw [ht] at h
              simp only [if_true, Bool.false_eq_true, if_false] at h ⊢
              split at h
              · split at h
                · exact ih _ _ _ h
                · exact ih _ _ _ h
              · exact ih _ _ _ h
        cases hl : traceLoop s.arena true (s.arena.filter (fun n => !n.isPrecompile)) [] with
        | error e => rw [hl] at hi; simp at hi
        | ok ts' => exact ⟨_, key _ _ _ _ hl⟩
    obtain ⟨ts, hts⟩ := hloop
    unfold intoTraceTypeTraces
    rw [hne, Bool.or_false]
    cases hte : types.isEmpty with
    | true =>
      have : types = [] := by simpa using hte
      subst this
      exact ⟨_, rfl, rfl⟩
    | false =>
      simp only [Bool.false_eq_true, if_false, hv]
      by_cases hV : types.contains TraceType.VmTrace = true
      · simp only [hV, if_true]
        rw [hts]
        exact ⟨_, rfl, rfl⟩
      · simp only [hV, Bool.false_eq_true, if_false]
        rw [hts]
        exact ⟨_, rfl, rfl⟩
  obtain ⟨r, hr1, hr2⟩ := htt
  unfold intoTraceResultsWithState intoTraceResults
  rw [hr1, hW]
  by_cases hV : types.contains TraceType.VmTrace = true
  · simp only [hV, if_true] at hr2 ⊢
    simp only [hr2]
    have hpd := hp db
    cases hpop : populateVmTraceBytecodes db v (W.map (·.trace.address)) with
    | error f =>
      rw [hpop] at hpd
      cases f with
      | panic e' => exact absurd rfl (hpd e')
      | db e' =>
        cases r.stateDiff with
        | none => simp
        | some d => dsimp only; cases populateStateDiff db d state <;> simp
    | ok v' =>
      cases r.stateDiff with
      | none => simp
      | some d => dsimp only; cases populateStateDiff db d state <;> simp
  · simp only [hV, Bool.false_eq_true, if_false] at hr2 ⊢
    simp only [hr2]
    cases r.stateDiff with
    | none => simp
    | some d => dsimp only; cases populateStateDiff db d state <;> simp

/-- The code the database has for a frame's address. -/
def frameCode {ε : Type} (db : DB ε) (t : Tx) (i : Nat) : Bytes :=
  match (frames t)[i]? with
  | some f => codeOf db (frameData f).address
  | none => []

/-- **C30, right frames** (partial: holds under `VmFriendly`, see the refutation). Populating the
`vmTrace` with the breadth-first addresses gives every frame's trace the code of the frame's address
(and changes nothing else); with a database that answers it succeeds. -/
theorem C30_codes_partial {ε : Type} (cfg : Config) (t : Tx) (hwf : t.WF) (hsafe : Safe cfg t.body)
    (hvm : VmFriendly cfg t) :
    ∃ s v W, TI.run cfg TI.new t.events = .ok s ∧ vmTrace s.arena = .ok v ∧
      walkBF s.arena = .ok W ∧ ∀ db : DB ε,
        (∀ r, populateVmTraceBytecodes db v (W.map (·.trace.address)) = .ok r →
          r = vmTree (stepsAt s.arena) (frameCode db t) t) ∧
        ((∀ a, ∃ x, db.account a = .ok x) → (∀ h, ∃ x, db.codeByHash h = .ok x) →
          populateVmTraceBytecodes db v (W.map (·.trace.address)) =
            .ok (vmTree (stepsAt s.arena) (frameCode db t) t)) := by
  obtain ⟨s, v, W, hr, hv, hW, hp⟩ := populate_no_panic (ε := ε) cfg t hwf hsafe
  obtain ⟨s', hr', hv'⟩ := C29_vm_trace_partial cfg t hwf hsafe hvm
  rw [hr] at hr'
  simp only [Except.ok.injEq] at hr'
  subst hr'
  rw [hv] at hv'
  simp only [Except.ok.injEq] at hv'
  obtain ⟨s', hr', _, ha, _⟩ := run_frames cfg t hwf hsafe
  rw [hr] at hr'
  simp only [Except.ok.injEq] at hr'
  subst hr'
  refine ⟨s, v, W, hr, hv, hW, ?_⟩
  intro db
  have main : ∀ r, populateVmTraceBytecodes db v (W.map (·.trace.address)) = .ok r →
      r = vmTree (stepsAt s.arena) (frameCode db t) t := by
    intro r hpop
    rw [populateVmTraceBytecodes, hv'] at hpop
    have hok := hvm.ok
    obtain ⟨c', hc1, hc2⟩ := populateLoop_codes db cfg t s.arena (stepsAt s.arena)
      (by rw [ha]; exact vmNodes_run cfg t hwf)
      (fun f hf => by
        have := hok f hf
        rw [ha]
        exact ⟨this.1, this.2.1, this.2.2.2⟩)
      (fun i => ((s.arena[i]?).map (·.trace.address)).getD 0)
      (fun i x hx => by simp [hx])
      (frames_trans t) _ s.arena.length (fun _ => []) [([], rootOf t)] W r
      (by
        intro e he
        simp only [List.mem_singleton] at he
        subst he
        exact ⟨Leads.root _ _, by simp [frames, rootOf]⟩)
      hW hpop (fun _ => Or.inl rfl)
    rw [hc1]
    obtain ⟨W', hW', _, _, hmem, _, _⟩ := C31_breadth_first cfg t.events s hr
    rw [hW] at hW'
    simp only [Except.ok.injEq] at hW'
    subst hW'
    have hcode : ∀ i, i < (frames t).length → c' i = frameCode db t i := by
      intro i hi
      have hget := List.getElem?_eq_getElem hi
      have hidx := frames_index hget
      have hfm : (frames t)[i] ∈ frames t := List.getElem_mem hi
      have hin : i ∈ W.map (·.idx) := by
        rw [hmem, ha]
        obtain ⟨e, he, hee⟩ : ∃ e ∈ txAll cfg t, e.2 = (frames t)[i] := by
          have hl := txAll_frames cfg t hwf
          have hfm' : (frames t)[i] ∈ (txAll cfg t).map (·.2) := by
            generalize (frames t)[i] = f at hfm
            rw [hl]; exact hfm
          obtain ⟨e, he, h⟩ := List.mem_map.1 hfm'
          exact ⟨e, he, h⟩
        have hel : e ∈ located cfg t := by
          rw [← txAll_filter]
          refine List.mem_filter.2 ⟨he, ?_⟩
          rw [hee, hvm.shown _ (List.getElem_mem hi)]; rfl
        have := (located_reach cfg t hwf e hel).1
        rw [hee, hidx] at this
        exact this
      have haddr : ((s.arena[i]?).map (·.trace.address)).getD 0 = (frameData (frames t)[i]).address := by
        rw [ha, List.getElem?_map, hget]
        exact congrArg FrameData.address (nodeOf_readFrame cfg _)
      have h := hc2 i
      simp only [haddr] at h
      rw [frameCode, hget]
      rcases h with h | ⟨_, h⟩ | h
      · exact h
      · exact absurd hin h
      · rw [h.1]; exact h.2.symm
    have hlen : (frames t).length = 1 + t.body.size := by
      simp [frames, subFrames_length]; omega
    rw [vmTree, vmTree, hcode 0 (by omega), (vmOps_congr _ c' (frameCode db t) t.body 1 _
      (fun i _ h => hcode i (by omega))).1]
  refine ⟨main, ?_⟩
  intro h1 h2
  cases hpop : populateVmTraceBytecodes db v (W.map (·.trace.address)) with
  | error f =>
    cases f with
    | panic e => exact absurd hpop (hp db e)
    | db e => exact absurd hpop (db_error db h1 h2 _ _ _ _ e)
  | ok r => rw [main r hpop]

end Verif.Props
