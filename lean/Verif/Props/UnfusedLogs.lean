import Verif.Lemmas.UnfusedLogs
import Verif.Props.UnfusedFrames
/-! C135: the call frames with logs that are built after several transactions without `fuse`. -/
namespace Verif.Props
open Spec Rec

/-- The contract whose code runs as which account, read off a call frame: the caller for code that is run on
behalf of the caller, otherwise the callee. -/
def frameAccount (f : CallFrame) : Option Address :=
  if f.typ = "DELEGATECALL" ∨ f.typ = "CALLCODE" then some f.from_ else f.to

/-- A log as it is reported. -/
def logEntry (a : Address) (l : CallLog) : CallLogFrame :=
  { address := some a, topics := some l.rawLog.topics, data := some l.rawLog.data }

theorem frame_logs (decode : RevertDecoder) (x : Node) (w : Bool) : x.gethEmptyCallFrame decode w =
    { x.gethEmptyCallFrame decode false with
      logs := if w then x.logs.map (logEntry x.executionAddress) else [] } := by
  cases w with
  | false =>
    cases h1 : x.trace.kind.isStaticCall <;> cases h2 : x.trace.success <;>
      simp [Node.gethEmptyCallFrame, h1, h2]
  | true =>
    cases hl : x.logs <;> cases h1 : x.trace.kind.isStaticCall <;> cases h2 : x.trace.success <;>
      simp [Node.gethEmptyCallFrame, h1, h2, hl, logEntry]

theorem frame_trace (decode : RevertDecoder) {x y : Node} (h : x.trace = y.trace) :
    x.gethEmptyCallFrame decode false = y.gethEmptyCallFrame decode false := by
  simp [Node.gethEmptyCallFrame, h]

theorem frame_account (decode : RevertDecoder) (x : Node) :
    frameAccount (x.gethEmptyCallFrame decode false) = some x.executionAddress := by
  have h1 : (x.gethEmptyCallFrame decode false).typ = x.trace.kind.toStr := by
    cases h1 : x.trace.kind.isStaticCall <;> cases h2 : x.trace.success <;>
      simp [Node.gethEmptyCallFrame, h1, h2]
  have h2 : (x.gethEmptyCallFrame decode false).from_ = x.trace.caller := by
    cases h1 : x.trace.kind.isStaticCall <;> cases h2 : x.trace.success <;>
      simp [Node.gethEmptyCallFrame, h1, h2]
  have h3 : (x.gethEmptyCallFrame decode false).to = some x.trace.address := by
    cases h1 : x.trace.kind.isStaticCall <;> cases h2 : x.trace.success <;>
      simp [Node.gethEmptyCallFrame, h1, h2]
  rw [frameAccount, h1, h2, h3, Node.executionAddress]
  cases x.trace.kind <;> simp [CallKind.toStr, CallKind.isDelegate]

/-- What is known of a recording. -/
structure LogsInv (decode : RevertDecoder) (w fails : Bool) (s : TI) (x : Node) (trs : List CallFrame) : Prop where
  empty : s.traceStack = []
  links : Links s.arena
  root : s.arena[0]? = some x
  ending : x.trace.isError = fails
  quiet : QuietStart s.arena
  shaped : ∃ b, Shaped s.arena b ∧ trs = trees (loggedFrame decode w s.arena) 1 b

theorem LogsInv.result {decode : RevertDecoder} {w fails : Bool} {s : TI} {x : Node} {trs : List CallFrame}
    (h : LogsInv decode w fails s x trs) (opts : CallConfig) (gas : Nat)
    (honly : opts.onlyTopCall.getD false = false) (hlog : opts.withLog.getD false = w) :
    gethCallTraces decode s.arena opts gas =
      .ok { x.gethEmptyCallFrame decode false with
            gasUsed := gas, calls := trs
            logs := if w then x.logs.map (logEntry x.executionAddress) else [] } := by
  obtain ⟨b, hb, rfl⟩ := h.shaped
  rw [shaped_logged decode hb h.root h.quiet
    (fun y hy => by
      obtain ⟨i, hi⟩ := List.mem_iff_getElem?.1 hy
      exact callOrParentFailed_ok h.links hi) opts gas honly w hlog, frame_logs]

theorem logsInv_one (decode : RevertDecoder) (w fails : Bool) (cfg : Config) (u : Tx) (hwf : u.WF)
    (hsafe : Safe cfg u.body) {s : TI} (hs : TI.run cfg TI.new u.events = .ok s)
    (hno : ∀ f ∈ frames u, f.index ≤ 1 → selfdestructed f = false) (hend : u.out.result.result.isOk = !fails) :
    ∃ x, LogsInv decode w fails s x (trees (loggedFrame decode w s.arena) 1 u.body) := by
  obtain ⟨s', hs', hst, har, -⟩ := run_frames cfg u hwf hsafe
  rw [hs] at hs'
  cases hs'
  obtain ⟨h1, h2⟩ := recorded_calls cfg u hwf hsafe hs hno
  have h0 : s.arena[0]? = some (nodeOf cfg (rootOf u)) := by rw [har]; rfl
  refine ⟨_, hst, C04_links cfg _ _ hs, h0, ?_, h2, _, h1, rfl⟩
  have hstat : (nodeOf cfg (rootOf u)).trace.status = u.out.result.result :=
    congrArg FrameData.status (nodeOf_readFrame cfg (rootOf u))
  rw [CallTrace.isError, hstat, hend, Bool.not_not]

theorem logsInv_next {decode : RevertDecoder} {w fails : Bool} {cfg : Config} {es : List Event} {s r : TI}
    {x z : Node} {trs urs : List CallFrame} (h : LogsInv decode w fails s x trs) (u : Tx)
    (hu : LogsInv decode w fails r z urs) (hwf : u.WF) (hsafe : Safe cfg u.body)
    (hs : TI.run cfg TI.new es = .ok s) (hr : TI.run cfg TI.new u.events = .ok r) :
    ∃ s' y, TI.run cfg TI.new (es ++ u.events) = .ok s' ∧ LogsInv decode w fails s' y (trs ++ urs) ∧
      y.trace = z.trace ∧ y.logs = x.logs ++ z.logs := by
  cases ho : s.arena with
  | nil => exact absurd ho h.links.nonempty
  | cons o os =>
    obtain ⟨s', hs', hst, har, -⟩ := unfused_one hwf hsafe h.empty ho hr
    have hrun : TI.run cfg TI.new (es ++ u.events) = .ok s' := by rw [Rec.run_append_ok hs, hs']
    cases hq : r.arena with
    | nil => exact absurd hq hu.links.nonempty
    | cons q qs =>
      rw [hq] at har
      have hxo : o = x := by have := h.root; rw [ho] at this; simpa using this
      have hzq : q = z := by have := hu.root; rw [hq] at this; simpa using this
      subst hxo
      subst hzq
      obtain ⟨a, hA, rfl⟩ := h.shaped
      obtain ⟨b, hB, rfl⟩ := hu.shaped
      have hlA := h.links
      have hlB := hu.links
      have hsA := h.quiet
      have hsB := hu.quiet
      rw [ho] at hA hlA hsA
      rw [hq] at hB hlB hsB
      refine ⟨s', sharedRoot os.length o q, hrun, ⟨hst, C04_links cfg _ _ hrun, by rw [har]; rfl, hu.ending, ?_,
        joinBody a b, by rw [har]; exact shaped_together hA hB, ?_⟩, rfl, rfl⟩
      · rw [har]
        exact quiet_together hsA hsB (by simp)
      · rw [har, ho, hq, logged_together decode w hA hB hlA hlB (h.ending.trans hu.ending.symm) hsB]

theorem logsInv_all (decode : RevertDecoder) (w fails : Bool) (cfg : Config) (r : Tx → TI) (x : Tx → Node)
    (c : Tx → List CallFrame) (ts : List Tx) : ∀ (last : Tx) (es : List Event) (s : TI) (y : Node)
    (trs : List CallFrame), LogsInv decode w fails s y trs → TI.run cfg TI.new es = .ok s →
    y.trace = (x last).trace →
    (∀ u ∈ ts, (u.WF ∧ Safe cfg u.body) ∧ TI.run cfg TI.new u.events = .ok (r u) ∧
      LogsInv decode w fails (r u) (x u) (c u)) →
    ∃ s' y', TI.run cfg TI.new (es ++ ts.flatMap Tx.events) = .ok s' ∧
      LogsInv decode w fails s' y' (trs ++ ts.flatMap c) ∧ y'.trace = (x (ts.getLastD last)).trace ∧
      y'.logs = y.logs ++ ts.flatMap (fun u => (x u).logs) := by
  induction ts with
  | nil => intro last es s y trs h hs hl _; exact ⟨s, y, by simpa using hs, by simpa using h, hl, by simp⟩
  | cons u ts ih =>
    intro last es s y trs h hs _ hall
    obtain ⟨⟨hwf, hsafe⟩, hr, hu⟩ := hall u (by simp)
    obtain ⟨m, ym, hm, hi, ht, hlg⟩ := logsInv_next h u hu hwf hsafe hs hr
    obtain ⟨s', y', h1, h2, h3, h4⟩ := ih u _ m ym _ hi hm ht (fun v hv => hall v (by simp [hv]))
    refine ⟨s', y', ?_, ?_, ?_, ?_⟩
    · simpa [List.append_assoc] using h1
    · simpa [List.append_assoc] using h2
    · rw [List.getLastD_cons]; exact h3
    · rw [h4, hlg]; simp

theorem same_ending (decode : RevertDecoder) (cfg : Config) (opts : CallConfig) (gas : Nat) (fails : Bool)
    (r : Tx → TI) (g : Tx → CallFrame) (t : Tx) (ts : List Tx)
    (hall : ∀ u ∈ t :: ts, (u.WF ∧ Safe cfg u.body) ∧ TI.run cfg TI.new u.events = .ok (r u) ∧
      gethCallTraces decode (r u).arena opts gas = .ok (g u))
    (hno : ∀ u ∈ t :: ts, ∀ f ∈ frames u, f.index ≤ 1 → selfdestructed f = false)
    (hend : ∀ u ∈ t :: ts, u.out.result.result.isOk = !fails)
    (honly : opts.onlyTopCall.getD false = false) :
    ∃ s, TI.run cfg TI.new ((t :: ts).flatMap Tx.events) = .ok s ∧
      gethCallTraces decode s.arena opts gas =
        .ok { g (ts.getLastD t) with
              calls := (t :: ts).flatMap (fun u => (g u).calls)
              logs := (t :: ts).flatMap (fun u => (g u).logs.map (fun l =>
                { l with address := frameAccount (g (ts.getLastD t)) })) } := by
  generalize hw : opts.withLog.getD false = w
  have hone : ∀ u, ∃ x, u ∈ t :: ts →
      LogsInv decode w fails (r u) x (trees (loggedFrame decode w (r u).arena) 1 u.body) := by
    intro u
    by_cases hu : u ∈ t :: ts
    · obtain ⟨x, hx⟩ := logsInv_one decode w fails cfg u (hall u hu).1.1 (hall u hu).1.2 (hall u hu).2.1
        (hno u hu) (hend u hu)
      exact ⟨x, fun _ => hx⟩
    · exact ⟨default, fun h => absurd h hu⟩
  let x : Tx → Node := fun u => Classical.choose (hone u)
  have hx : ∀ u ∈ t :: ts, LogsInv decode w fails (r u) (x u)
      (trees (loggedFrame decode w (r u).arena) 1 u.body) := fun u hu => Classical.choose_spec (hone u) hu
  have hg : ∀ u ∈ t :: ts, g u = { (x u).gethEmptyCallFrame decode false with
      gasUsed := gas, calls := trees (loggedFrame decode w (r u).arena) 1 u.body
      logs := if w then (x u).logs.map (logEntry (x u).executionAddress) else [] } := by
    intro u hu
    have := (hx u hu).result opts gas honly hw
    rw [(hall u hu).2.2] at this
    injection this
  obtain ⟨s, y, hs, hi, hty, hly⟩ := logsInv_all decode w fails cfg r x
    (fun u => trees (loggedFrame decode w (r u).arena) 1 u.body) ts t t.events (r t) (x t) _
    (hx t (by simp)) (hall t (by simp)).2.1 rfl
    (fun u hu => ⟨(hall u (by simp [hu])).1, (hall u (by simp [hu])).2.1, hx u (by simp [hu])⟩)
  refine ⟨s, by simpa using hs, ?_⟩
  have hlast := getLastD_mem t ts
  have hacc : frameAccount (g (ts.getLastD t)) = some y.executionAddress := by
    have h1 : frameAccount (g (ts.getLastD t)) =
        frameAccount ((x (ts.getLastD t)).gethEmptyCallFrame decode false) := by
      rw [hg _ hlast]; rfl
    rw [h1, frame_account, Node.executionAddress, Node.executionAddress, hty]
  have hcalls : (t :: ts).flatMap (fun u => (g u).calls) =
      trees (loggedFrame decode w (r t).arena) 1 t.body ++
        ts.flatMap (fun u => trees (loggedFrame decode w (r u).arena) 1 u.body) := by
    rw [← List.flatMap_cons (f := fun u : Tx => trees (loggedFrame decode w (r u).arena) 1 u.body)]
    exact flatMap_same _ _ _ (fun u hu => by rw [hg u hu])
  have hlogs : (t :: ts).flatMap (fun u => (g u).logs.map (fun l =>
      ({ l with address := some y.executionAddress } : CallLogFrame))) =
      if w then y.logs.map (logEntry y.executionAddress) else [] := by
    rw [flatMap_same _ (fun u => if w then (x u).logs.map (logEntry y.executionAddress) else []) _
      (fun u hu => by rw [hg u hu]; cases w <;> simp [logEntry])]
    cases w with
    | false => simp
    | true => simp [hly, List.map_flatMap]
  rw [hi.result opts gas honly hw, hacc, hcalls, hlogs, frame_trace decode hty, hg _ hlast]

/-! ### Transactions that end differently -/

/-- The same transaction, had it ended so. -/
def endedAs (o : Outcome) (u : Tx) : Tx := { u with out := o }

/-- Two arenas that differ at most in the trace of the root. -/
def SameBut (A B : List Node) : Prop := ∃ (o : Node) (tr : CallTrace) (os : List Node),
  A = o :: os ∧ B = { o with trace := tr } :: os

theorem sameBut_together {A A' B B' : List Node} (h : SameBut A A') (h' : SameBut B B') :
    SameBut (together A B) (together A' B') := by
  obtain ⟨o, tr, os, rfl, rfl⟩ := h
  obtain ⟨x, tr', xs, rfl, rfl⟩ := h'
  exact ⟨sharedRoot os.length o x, tr', os ++ xs.map (movedNode os.length), rfl, rfl⟩

theorem sameBut_last {A A' B : List Node} (h : SameBut A A') (hB : B ≠ []) : together A B = together A' B := by
  obtain ⟨o, tr, os, rfl, rfl⟩ := h
  cases B with
  | nil => exact absurd rfl hB
  | cons x xs => rfl

theorem sameBut_all (a b : Tx → List Node) (ts : List Tx) : ∀ A B : List Node, SameBut A B →
    (∀ u ∈ ts, SameBut (a u) (b u)) → (ts = [] → A = B) → (∀ u, ts.getLast? = some u → a u = b u) →
    (ts.map a).foldl together A = (ts.map b).foldl together B := by
  induction ts with
  | nil => intro A B _ _ h _; exact h rfl
  | cons u ts ih =>
    intro A B h hall _ hlast
    have hu := hall u (by simp)
    rw [List.map_cons, List.map_cons, List.foldl_cons, List.foldl_cons]
    apply ih _ _ (sameBut_together h hu) (fun v hv => hall v (by simp [hv]))
    · intro h0
      subst h0
      have := hlast u (by simp)
      rw [← this]
      apply sameBut_last h
      obtain ⟨o, tr, os, h1, -⟩ := hu
      rw [h1]
      simp
    · intro v hv
      apply hlast v
      rw [List.getLast?_cons, hv]
      rfl

theorem sameBut_ended (cfg : Config) (o : Outcome) (u : Tx) (hwf : u.WF) (hsafe : Safe cfg u.body) {s s' : TI}
    (hs : TI.run cfg TI.new u.events = .ok s) (hs' : TI.run cfg TI.new (endedAs o u).events = .ok s') :
    SameBut s.arena s'.arena := by
  obtain ⟨r, hr, -, har, -⟩ := run_frames cfg u hwf hsafe
  obtain ⟨r', hr', -, har', -⟩ := run_frames cfg (endedAs o u) hwf hsafe
  rw [hs] at hr
  rw [hs'] at hr'
  cases hr
  cases hr'
  rw [har, har']
  exact ⟨nodeOf cfg (rootOf u), (nodeOf cfg (rootOf (endedAs o u))).trace, _, rfl, rfl⟩

theorem endedAs_sd (o : Outcome) (u : Tx) (ho : o.result.result ≠ .SelfDestruct)
    (h : ∀ f ∈ frames u, f.index ≤ 1 → selfdestructed f = false) :
    ∀ f ∈ frames (endedAs o u), f.index ≤ 1 → selfdestructed f = false := by
  intro f hf hi
  rcases List.mem_cons.1 hf with rfl | hf
  · have h0 := h (rootOf u) (by simp [frames, rootOf]) (Nat.zero_le 1)
    simp only [selfdestructed, rootOf, Bool.or_eq_false_iff] at h0
    simp only [selfdestructed, Bool.or_eq_false_iff, endedAs]
    exact ⟨decide_eq_false ho, h0.2⟩
  · exact h f (List.mem_cons_of_mem _ hf) hi

/-- **C135**, call frames with logs: if no root and no first frame below a root selfdestructs, what
`geth_call_traces` returns for a recording of several transactions is the root frame of the last one with the calls
of all of them, in order, and with the logs of all roots, as if the account of the last root had emitted them. Calls
and logs are those that are returned for each transaction had it ended as the last one did: a failed transaction
before a successful one shows its logs, a successful one before a failed one does not. -/
theorem C135_logs (decode : RevertDecoder) (cfg : Config) (opts : CallConfig) (gas : Nat)
    (r : Tx → TI) (g : Tx → CallFrame) (t : Tx) (ts : List Tx)
    (hall : ∀ u ∈ t :: ts, (u.WF ∧ Safe cfg u.body) ∧
      TI.run cfg TI.new (endedAs (ts.getLastD t).out u).events = .ok (r u) ∧
      gethCallTraces decode (r u).arena opts gas = .ok (g u))
    (hno : ∀ u ∈ t :: ts, ∀ f ∈ frames u, f.index ≤ 1 → selfdestructed f = false)
    (honly : opts.onlyTopCall.getD false = false) :
    ∃ s, TI.run cfg TI.new ((t :: ts).flatMap Tx.events) = .ok s ∧
      gethCallTraces decode s.arena opts gas =
        .ok { g (ts.getLastD t) with
              calls := (t :: ts).flatMap (fun u => (g u).calls)
              logs := (t :: ts).flatMap (fun u => (g u).logs.map (fun l =>
                { l with address := frameAccount (g (ts.getLastD t)) })) } := by
  generalize ho : (ts.getLastD t).out = o at hall
  have hmem := getLastD_mem t ts
  have hsd : o.result.result ≠ .SelfDestruct := by
    have h0 := hno _ hmem (rootOf (ts.getLastD t)) (by simp [frames, rootOf]) (Nat.zero_le 1)
    simp only [selfdestructed, rootOf, Bool.or_eq_false_iff, decide_eq_false_iff_not, ho] at h0
    exact h0.1
  -- the recordings of the transactions as they are
  have hr0 : ∀ u, ∃ s, u ∈ t :: ts → TI.run cfg TI.new u.events = .ok s := by
    intro u
    by_cases hu : u ∈ t :: ts
    · obtain ⟨s, hs, -⟩ := run_frames cfg u (hall u hu).1.1 (hall u hu).1.2
      exact ⟨s, fun _ => hs⟩
    · exact ⟨TI.new, fun h => absurd h hu⟩
  let r0 : Tx → TI := fun u => Classical.choose (hr0 u)
  have hr0s : ∀ u ∈ t :: ts, TI.run cfg TI.new u.events = .ok (r0 u) :=
    fun u hu => Classical.choose_spec (hr0 u) hu
  obtain ⟨s, hs, -, har⟩ := C120_exact cfg r0 t ts (fun u hu => ⟨(hall u hu).1, hr0s u hu⟩)
  refine ⟨s, hs, ?_⟩
  -- those of the transactions that end as the last one
  have hr1 : ∀ v, ∃ sg : TI × CallFrame, ∀ u ∈ t :: ts, v = endedAs o u → sg = (r u, g u) := by
    intro v
    by_cases hv : ∃ u ∈ t :: ts, v = endedAs o u
    · obtain ⟨u, hu, rfl⟩ := hv
      refine ⟨(r u, g u), fun w hw he => ?_⟩
      have h1 := (hall u hu).2
      have h2 := (hall w hw).2
      rw [← he, h1.1] at h2
      injection h2.1 with h3
      have h4 := h1.2
      rw [h3, h2.2] at h4
      injection h4 with h5
      rw [h3, h5]
    · exact ⟨(TI.new, {}), fun u hu he => absurd ⟨u, hu, he⟩ hv⟩
  let r1 : Tx → TI := fun v => (Classical.choose (hr1 v)).1
  let g1 : Tx → CallFrame := fun v => (Classical.choose (hr1 v)).2
  have hsel : ∀ u ∈ t :: ts, r1 (endedAs o u) = r u ∧ g1 (endedAs o u) = g u := by
    intro u hu
    have := Classical.choose_spec (hr1 (endedAs o u)) u hu rfl
    exact ⟨congrArg Prod.fst this, congrArg Prod.snd this⟩
  have hback : ∀ v ∈ endedAs o t :: ts.map (endedAs o), ∃ u ∈ t :: ts, v = endedAs o u := by
    intro v hv
    rw [← List.map_cons, List.mem_map] at hv
    obtain ⟨u, hu, rfl⟩ := hv
    exact ⟨u, hu, rfl⟩
  have hall1 : ∀ v ∈ endedAs o t :: ts.map (endedAs o), (v.WF ∧ Safe cfg v.body) ∧
      TI.run cfg TI.new v.events = .ok (r1 v) ∧ gethCallTraces decode (r1 v).arena opts gas = .ok (g1 v) := by
    intro v hv
    obtain ⟨u, hu, rfl⟩ := hback v hv
    rw [(hsel u hu).1, (hsel u hu).2]
    exact ⟨(hall u hu).1, (hall u hu).2⟩
  obtain ⟨s', hs', hg'⟩ := same_ending decode cfg opts gas (!o.result.result.isOk) r1 g1 (endedAs o t)
    (ts.map (endedAs o)) hall1
    (fun v hv => by
      obtain ⟨u, hu, rfl⟩ := hback v hv
      exact endedAs_sd o u hsd (hno u hu))
    (fun v hv => by
      obtain ⟨u, hu, rfl⟩ := hback v hv
      simp [endedAs]) honly
  obtain ⟨s'', hs'', -, har'⟩ := C120_exact cfg r1 (endedAs o t) (ts.map (endedAs o))
    (fun v hv => ⟨(hall1 v hv).1, (hall1 v hv).2.1⟩)
  rw [hs'] at hs''
  cases hs''
  -- the arena is the same
  have hA : s.arena = s'.arena := by
    rw [har, har', List.map_map, (hsel t (by simp)).1]
    have hrec : ∀ u ∈ t :: ts, SameBut (r0 u).arena (r1 (endedAs o u)).arena := by
      intro u hu
      rw [(hsel u hu).1]
      exact sameBut_ended cfg o u (hall u hu).1.1 (hall u hu).1.2 (hr0s u hu) (hall u hu).2.1
    have hsame : ∀ u ∈ t :: ts, u.out = o → r0 u = r u := by
      intro u hu he
      have h1 := (hall u hu).2.1
      have h2 : endedAs o u = u := by rw [← he]; rfl
      rw [h2, hr0s u hu] at h1
      injection h1
    apply sameBut_all _ _ ts
    · have := hrec t (by simp)
      rwa [(hsel t (by simp)).1] at this
    · intro u hu
      exact hrec u (by simp [hu])
    · intro h0
      subst h0
      rw [hsame t (by simp) ho]
    · intro u hu
      have hm : u ∈ t :: ts := List.mem_cons_of_mem _ (List.mem_of_getLast? hu)
      have he : u.out = o := by
        rw [← ho, List.getLastD_eq_getLast?, hu]
        rfl
      show (r0 u).arena = (r1 (endedAs o u)).arena
      rw [(hsel u hm).1, hsame u hm he]
  rw [hA, hg']
  have hl : (ts.map (endedAs o)).getLastD (endedAs o t) = endedAs o (ts.getLastD t) := by
    rw [List.getLastD_eq_getLast?, List.getLastD_eq_getLast?, List.getLast?_map]
    cases ts.getLast? <;> rfl
  rw [hl, (hsel _ hmem).2, ← List.map_cons, List.flatMap_map, List.flatMap_map,
    flatMap_same (fun u => (g1 (endedAs o u)).calls) (fun u => (g u).calls) _
      (fun u hu => by rw [(hsel u hu).2]),
    flatMap_same (fun u => (g1 (endedAs o u)).logs.map (fun l =>
      ({ l with address := frameAccount (g (ts.getLastD t)) } : CallLogFrame))) (fun u => (g u).logs.map (fun l =>
      ({ l with address := frameAccount (g (ts.getLastD t)) } : CallLogFrame))) _
      (fun u hu => by rw [(hsel u hu).2])]

/-! ### Concrete cases -/

/-- A transaction to the account `a` that emits a log with this topic and ends so. -/
def loggerTx (a : Address) (topic : U256) (res : InstructionResult) : Tx where
  hdr := Example.callHdr .Call 0x99 a a 11
  body := .act (.log Example.ctx ⟨a, [topic], [2]⟩) .nil
  out := Example.out res

theorem loggerTx_a (res : InstructionResult) : (loggerTx 0xa 7 res).WF :=
  ⟨fun _ => rfl, fun h => absurd (show (loggerTx 0xa 7 .Stop).hdr.isPrecompile = true from h) (by decide), trivial⟩

theorem loggerTx_b : (loggerTx 0xb 8 .Stop).WF :=
  ⟨fun _ => rfl, fun h => absurd h (by decide), trivial⟩

theorem mem_two {α : Type} {a b c : α} : c ∈ [a, b] ↔ c = a ∨ c = b := by simp

/-- The logs and the error of the root frame that is built. -/
def rootLogsOf (A : List Node) : Option (List CallLogFrame × Option String) :=
  match gethCallTraces ⟨fun _ => none, fun _ => ""⟩ A { withLog := some true } 0 with
  | .ok f => some (f.logs, f.error)
  | .error _ => none

/-- **C135** does not hold for logs either: the log of a transaction that was reverted is shown in the successful
root frame of the next one, as a log of the account that this one was sent to. -/
theorem C135_refuted_logs : ∃ t1 t2 : Tx, (t1.WF ∧ ∀ cfg, Safe cfg t1.body) ∧
    (t2.WF ∧ ∀ cfg, Safe cfg t2.body) ∧
    t1.out.result.result = .Revert ∧
    ∃ s2 s, TI.run Config.all TI.new t2.events = .ok s2 ∧
      TI.run Config.all TI.new (t1.events ++ t2.events) = .ok s ∧
      rootLogsOf s2.arena = some ([⟨some 0xb, some [8], some [2]⟩], none) ∧
      rootLogsOf s.arena =
        some ([⟨some 0xb, some [7], some [2]⟩, ⟨some 0xb, some [8], some [2]⟩], none) :=
  ⟨loggerTx 0xa 7 .Revert, loggerTx 0xb 8 .Stop, ⟨loggerTx_a _, fun _ => trivial⟩,
    ⟨loggerTx_b, fun _ => trivial⟩, rfl, _, _, rfl, rfl, by decide, by decide⟩

/-- A transaction that emits a log and is reverted, and one that emits a log and succeeds, meet the hypotheses of
`C135_logs`. -/
example (decode : RevertDecoder) (gas : Nat) : ∃ s f, TI.run Config.all TI.new
    ([loggerTx 0xa 7 .Revert, loggerTx 0xb 8 .Stop].flatMap Tx.events) = .ok s ∧
    gethCallTraces decode s.arena { withLog := some true } gas = .ok f ∧
    f.logs = [⟨some 0xb, some [7], some [2]⟩, ⟨some 0xb, some [8], some [2]⟩] := by
  have hone : ∀ u : Tx, ∃ sg : TI × CallFrame, u ∈ [loggerTx 0xa 7 .Revert, loggerTx 0xb 8 .Stop] →
      TI.run Config.all TI.new (endedAs (Example.out .Stop) u).events = .ok sg.1 ∧
      gethCallTraces decode sg.1.arena { withLog := some true } gas = .ok sg.2 ∧
      (u = loggerTx 0xa 7 .Revert → sg.2.logs = [⟨some 0xa, some [7], some [2]⟩]) ∧
      (u = loggerTx 0xb 8 .Stop → sg.2.logs = [⟨some 0xb, some [8], some [2]⟩] ∧
        frameAccount sg.2 = some 0xb) := by
    intro u
    by_cases hu : u = loggerTx 0xa 7 .Revert
    · subst hu
      refine ⟨(_, _), fun _ => ⟨rfl, rfl, fun _ => rfl, fun h => ?_⟩⟩
      have := congrArg (fun t : Tx => t.body) h
      simp [loggerTx] at this
    · by_cases hv : u = loggerTx 0xb 8 .Stop
      · subst hv
        exact ⟨(_, _), fun _ => ⟨rfl, rfl, fun h => absurd h hu, fun _ => ⟨rfl, by rfl⟩⟩⟩
      · exact ⟨(TI.new, {}), fun h => by rcases mem_two.1 h with h | h <;> contradiction⟩
  have hsp := fun u hu => Classical.choose_spec (hone u) hu
  obtain ⟨s, hs, hg⟩ := C135_logs decode Config.all { withLog := some true } gas
    (fun u => (Classical.choose (hone u)).1) (fun u => (Classical.choose (hone u)).2)
    (loggerTx 0xa 7 .Revert) [loggerTx 0xb 8 .Stop]
    (fun u hu => ⟨by
      rcases mem_two.1 hu with rfl | rfl
      · exact ⟨loggerTx_a _, trivial⟩
      · exact ⟨loggerTx_b, trivial⟩, (hsp u hu).1, (hsp u hu).2.1⟩)
    (by
      intro u hu
      rcases mem_two.1 hu with rfl | rfl <;> decide)
    rfl
  refine ⟨s, _, hs, hg, ?_⟩
  have h1 := (hsp _ (mem_two.2 (.inl rfl))).2.2.1 rfl
  obtain ⟨h2, h3⟩ := (hsp _ (mem_two.2 (.inr rfl))).2.2.2 rfl
  show (Classical.choose (hone (loggerTx 0xa 7 .Revert))).2.logs.map _ ++
    ((Classical.choose (hone (loggerTx 0xb 8 .Stop))).2.logs.map _ ++ []) = _
  rw [h1, h2]
  show [(⟨frameAccount (Classical.choose (hone (loggerTx 0xb 8 .Stop))).2, some [7], some [2]⟩ : CallLogFrame),
    ⟨frameAccount (Classical.choose (hone (loggerTx 0xb 8 .Stop))).2, some [8], some [2]⟩] = _
  rw [h3]

end Verif.Props
