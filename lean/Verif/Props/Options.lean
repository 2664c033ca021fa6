import Verif.Lemmas.Options
import Verif.Model.Geth
import Verif.Model.Parity
import Verif.Spec.Example
/-!
# C66: the recording options only add
-/
namespace Verif.Props
open Spec Parity

/-- **C66**: over any sequence of hook calls whatever, recording less gives exactly what recording
more gives, with the steps, logs and snapshots that are off taken away. In particular an option never
changes anything but what it names, and turning it off cannot cause a panic. -/
theorem C66_options_only_add (less more : Config) (hl : RecordsLess less more) (es : List Event) (s : TI)
    (hr : TI.run more TI.new es = .ok s) :
    ∃ s', TI.run less TI.new es = .ok s' ∧ s'.arena = s.arena.map (keepOnly less) ∧
      s'.traceStack = s.traceStack ∧ s'.lastCallReturnData = s.lastCallReturnData := by
  have h := run_keep hl es TI.new s hr
  rw [keepOnly_new] at h
  exact ⟨_, h, rfl, rfl, rfl⟩

/-! ### Responses that do not look at steps -/

section
variable (c : Config)

theorem traceAddressLoop_keep (nodes : List Node) (fuel : Nat) (n : Node) (graph : List Nat) :
    traceAddressLoop (nodes.map (keepOnly c)) fuel (keepOnly c n) graph =
      traceAddressLoop nodes fuel n graph := by
  induction fuel generalizing n graph with
  | zero => simp only [traceAddressLoop, keepOnly]
  | succ fuel ih =>
    rw [traceAddressLoop.eq_def, traceAddressLoop.eq_def nodes]
    dsimp only
    have hp : (keepOnly c n).parent = n.parent := rfl
    have hi : (keepOnly c n).idx = n.idx := rfl
    rw [hp, hi]
    cases n.parent with
    | none => rfl
    | some p =>
      dsimp only
      rw [List.getElem?_map]
      cases nodes[p]? with
      | none => rfl
      | some next =>
        dsimp only [Option.map_some]
        have hc : (keepOnly c next).children = next.children := rfl
        rw [hc]
        cases next.children.idxOf? n.idx with
        | none => rfl
        | some k => exact ih next _

theorem traceAddress_keep (nodes : List Node) (idx : Nat) :
    traceAddress (nodes.map (keepOnly c)) idx = traceAddress nodes idx := by
  unfold traceAddress
  split
  · rfl
  · rw [List.getElem?_map]
    cases nodes[idx]? with
    | none => rfl
    | some n =>
      dsimp only [Option.map_some]
      have hp : (keepOnly c n).isPrecompile = n.isPrecompile := rfl
      rw [hp, traceAddressLoop_keep, List.length_map]

theorem traceAddressesOf_keep (nodes : List Node) (l : List Nat) :
    traceAddressesOf (nodes.map (keepOnly c)) l = traceAddressesOf nodes l := by
  induction l with
  | nil => rfl
  | cons i l ih => simp only [traceAddressesOf, traceAddress_keep, ih]

theorem traceIter_keep (l : List (TransactionTrace × Node)) :
    traceIter (l.map (fun p => (p.1, keepOnly c p.2))) = traceIter l := by
  induction l with
  | nil => rfl
  | cons p l ih =>
    obtain ⟨t, n⟩ := p
    simp only [List.map_cons, traceIter, ih]
    rfl

theorem intoTransactionTraces_keep (nodes : List Node) :
    intoTransactionTraces (nodes.map (keepOnly c)) = intoTransactionTraces nodes := by
  unfold intoTransactionTraces traceAddresses
  rw [List.length_map, traceAddressesOf_keep]
  cases traceAddressesOf nodes (List.range nodes.length) with
  | error e => rfl
  | ok as =>
    dsimp only
    congr 1
    refine Eq.trans ?_ (traceIter_keep c _)
    congr 1
    rw [List.zip_map_left, List.filter_map, List.map_map]
    have hf : ((fun p : Node × List Nat => !p.fst.isPrecompile) ∘ Prod.map (keepOnly c) id) =
        fun p => !p.fst.isPrecompile := rfl
    rw [hf, List.map_map]
    rfl

theorem traceLoop_keep (all : List Node) (w : Bool) (l : List Node) (acc : List TransactionTrace) :
    traceLoop (all.map (keepOnly c)) w (l.map (keepOnly c)) acc = traceLoop all w l acc := by
  induction l generalizing acc with
  | nil => rfl
  | cons n l ih =>
    have hi : (keepOnly c n).idx = n.idx := rfl
    have hsd : (keepOnly c n).isSelfdestruct = n.isSelfdestruct := rfl
    have htr : (keepOnly c n).parityTransactionTrace = n.parityTransactionTrace := rfl
    have hst : (keepOnly c n).paritySelfdestructTrace = n.paritySelfdestructTrace := rfl
    simp only [List.map_cons, traceLoop, traceAddress_keep, hi, hsd, htr, hst, ih]

theorem intoTraceTypeTraces_keep (nodes : List Node) (types : List TraceType)
    (hvm : TraceType.VmTrace ∉ types) :
    intoTraceTypeTraces (nodes.map (keepOnly c)) types = intoTraceTypeTraces nodes types := by
  unfold intoTraceTypeTraces
  have hv : types.contains TraceType.VmTrace = false := by
    simpa using hvm
  have hf : (nodes.map (keepOnly c)).filter (fun n => !n.isPrecompile) =
      (nodes.filter (fun n => !n.isPrecompile)).map (keepOnly c) := by
    rw [List.filter_map]; rfl
  simp only [hv, hf, traceLoop_keep, List.isEmpty_map, Bool.false_eq_true, if_false]

theorem walkLoop_keep (nodes : List Node) (fuel : Nat) (q : List Nat) :
    walkLoop (nodes.map (keepOnly c)) fuel q = (walkLoop nodes fuel q).map (List.map (keepOnly c)) := by
  induction fuel generalizing q with
  | zero =>
    cases q with
    | nil => rfl
    | cons i q =>
      simp only [walkLoop, List.length_map]
      split <;> rfl
  | succ fuel ih =>
    cases q with
    | nil => rfl
    | cons i q =>
      simp only [walkLoop, List.getElem?_map]
      cases nodes[i]? with
      | none => rfl
      | some x =>
        dsimp only [Option.map_some]
        have hc : (keepOnly c x).children = x.children := rfl
        rw [hc, ih]
        cases walkLoop nodes fuel (q ++ x.children) <;> rfl

/-! ### Call frames -/

/-- Frames do not change when logs are not asked for, or are kept. -/
theorem gethEmptyCallFrame_keep (decode : RevertDecoder) (n : Node) (incl : Bool)
    (h : incl = true → c.recordLogs = true) :
    (keepOnly c n).gethEmptyCallFrame decode incl = n.gethEmptyCallFrame decode incl := by
  cases incl with
  | false => rfl
  | true =>
    have hk : (keepOnly c n).logs = n.logs := by simp [keepOnly, h rfl]
    unfold Node.gethEmptyCallFrame
    rw [hk]
    rfl

theorem parentFailedLoop_keep (nodes : List Node) (fuel : Nat) (p : Option Nat) :
    parentFailedLoop (nodes.map (keepOnly c)) fuel p = parentFailedLoop nodes fuel p := by
  induction fuel generalizing p with
  | zero => cases p <;> rfl
  | succ fuel ih =>
    cases p with
    | none => rfl
    | some i =>
      simp only [parentFailedLoop, List.getElem?_map]
      cases nodes[i]? with
      | none => rfl
      | some x =>
        dsimp only [Option.map_some]
        rw [ih]
        rfl

theorem makeFrames_keep (decode : RevertDecoder) (nodes : List Node) (incl : Bool)
    (h : incl = true → c.recordLogs = true) (idx : Nat) (l : List Node) (acc : List (Nat × CallFrame)) :
    makeFrames decode (nodes.map (keepOnly c)) incl idx (l.map (keepOnly c)) acc =
      makeFrames decode nodes incl idx l acc := by
  induction l generalizing idx acc with
  | nil => rfl
  | cons n l ih =>
    have hsd : (keepOnly c n).gethSelfdestructCallTrace = n.gethSelfdestructCallTrace := rfl
    have hcf : callOrParentFailed (nodes.map (keepOnly c)) (keepOnly c n) = callOrParentFailed nodes n := by
      unfold callOrParentFailed
      rw [parentFailedLoop_keep, List.length_map]
      rfl
    simp only [List.map_cons, makeFrames, hsd, hcf]
    cases incl with
    | false =>
      simp only [Bool.false_eq_true, if_false, gethEmptyCallFrame_keep c decode n false (by simp), ih]
    | true =>
      simp only [if_true, ih]
      have hg : ∀ b, (keepOnly c n).gethEmptyCallFrame decode b = n.gethEmptyCallFrame decode b :=
        fun b => gethEmptyCallFrame_keep c decode n b (fun _ => h rfl)
      simp only [hg]

theorem rollUp_keep (nodes : List Node) (fuel : Nat) (fr : List (Nat × CallFrame)) :
    rollUp (nodes.map (keepOnly c)) fuel fr = rollUp nodes fuel fr := by
  induction fuel generalizing fr with
  | zero => cases fr <;> rfl
  | succ fuel ih =>
    cases fr with
    | nil => rfl
    | cons e fr =>
      obtain ⟨i, call⟩ := e
      simp only [rollUp, List.getElem?_map]
      cases nodes[i]? with
      | none => rfl
      | some x =>
        dsimp only [Option.map_some]
        have hp : (keepOnly c x).parent = x.parent := rfl
        rw [hp]
        cases x.parent with
        | none => rfl
        | some p => simp only [ih]

theorem gethCallTraces_keep (decode : RevertDecoder) (nodes : List Node) (opts : CallConfig)
    (gas : Nat) (h : opts.withLog.getD false = true → c.recordLogs = true) :
    gethCallTraces decode (nodes.map (keepOnly c)) opts gas = gethCallTraces decode nodes opts gas := by
  cases nodes with
  | nil => rfl
  | cons main rest =>
    have hroot : gethRootFrame decode (keepOnly c main) (opts.withLog.getD false) gas =
        gethRootFrame decode main (opts.withLog.getD false) gas := by
      unfold gethRootFrame
      rw [gethEmptyCallFrame_keep c decode main _ h]
      rfl
    have hm := makeFrames_keep c decode (main :: rest) (opts.withLog.getD false) h 1 rest
      [(0, gethRootFrame decode main (opts.withLog.getD false) gas)]
    rw [List.map_cons] at hm
    simp only [gethCallTraces, List.map_cons, hroot, hm]
    have hr : ∀ fuel fr, rollUp (keepOnly c main :: rest.map (keepOnly c)) fuel fr =
        rollUp (main :: rest) fuel fr := fun fuel fr => rollUp_keep c (main :: rest) fuel fr
    simp only [hr]
end

/-- **C66**: two inspectors that agree on leaving out precompile calls, whatever else they record,
give over any history the same parity traces, the same call frames, the same callers and the same
breadth-first walk; and the same call frames with logs if both record logs. -/
theorem C66_responses (a b : Config) (hex : a.excludePrecompileCalls = b.excludePrecompileCalls)
    (es : List Event) (s s' : TI) (hr : TI.run a TI.new es = .ok s) (hr' : TI.run b TI.new es = .ok s') :
    intoTransactionTraces s.arena = intoTransactionTraces s'.arena ∧
    (∀ info, intoLocalizedTransactionTraces s.arena info = intoLocalizedTransactionTraces s'.arena info) ∧
    (∀ types gas out, TraceType.VmTrace ∉ types →
      intoTraceResults s.arena gas out types = intoTraceResults s'.arena gas out types) ∧
    callers s.arena = callers s'.arena ∧
    (walkBF s.arena).map (List.map (fun x => (x.idx, x.trace.address))) =
      (walkBF s'.arena).map (List.map (fun x => (x.idx, x.trace.address))) ∧
    (∀ decode opts gas,
      (opts.withLog = some true → a.recordLogs = true ∧ b.recordLogs = true) →
      gethCallTraces decode s.arena opts gas = gethCallTraces decode s'.arena opts gas) := by
  -- both restrict to the recording of the graph and, if they have them, the logs
  let g : Config :=
    { excludePrecompileCalls := a.excludePrecompileCalls, recordLogs := a.recordLogs && b.recordLogs }
  have ha : RecordsLess g a := by
    constructor <;> simp [g]
    intro h _; exact h
  have hb : RecordsLess g b := by
    constructor <;> simp [g, hex]
  obtain ⟨t, ht, hta, -⟩ := C66_options_only_add g a ha es s hr
  obtain ⟨t', ht', htb, -⟩ := C66_options_only_add g b hb es s' hr'
  rw [ht] at ht'
  cases ht'
  have heq : s.arena.map (keepOnly g) = s'.arena.map (keepOnly g) := by rw [← hta, ← htb]
  have htx : intoTransactionTraces s.arena = intoTransactionTraces s'.arena := by
    rw [← intoTransactionTraces_keep g, heq, intoTransactionTraces_keep]
  refine ⟨htx, ?_, ?_, ?_, ?_, ?_⟩
  · intro info
    unfold intoLocalizedTransactionTraces
    rw [htx]
  · intro types gas out hvm
    unfold intoTraceResults
    rw [← intoTraceTypeTraces_keep g _ _ hvm, heq, intoTraceTypeTraces_keep g _ _ hvm]
  · have : ∀ l : List Node, callers l = callers (l.map (keepOnly g)) := by
      intro l; simp [callers, keepOnly]
    rw [this, heq, ← this]
  · have hlen : s.arena.length = s'.arena.length := by
      simpa using congrArg List.length heq
    have : ∀ l : List Node, (walkBF l).map (List.map (fun x => (x.idx, x.trace.address))) =
        (walkBF (l.map (keepOnly g))).map (List.map (fun x => (x.idx, x.trace.address))) := by
      intro l
      unfold walkBF
      rw [walkLoop_keep, List.length_map]
      cases walkLoop l l.length [0] with
      | error e => rfl
      | ok r => simp [Except.map, keepOnly]
    rw [this, heq, ← this]
  · intro decode opts gas hlog
    have h : opts.withLog.getD false = true → g.recordLogs = true := by
      intro h
      have : opts.withLog = some true := by
        cases hw : opts.withLog <;> simp_all
      simp [g, hlog this]
    rw [← gethCallTraces_keep g _ _ _ _ h, heq, gethCallTraces_keep g _ _ _ _ h]

/-- The hypotheses are met by the example with everything recorded and with only logs recorded: both
run without a panic, and the recordings differ. -/
example : RecordsLess { recordLogs := true } Config.all ∧
    (TI.run Config.all TI.new Example.tx.events).toOption.map
      (fun s => s.arena.map (fun n => (n.trace.steps.length, n.logs.length, n.ordering.length))) =
      some [(6, 0, 9), (1, 1, 3), (1, 1, 2), (0, 0, 0), (1, 0, 1)] ∧
    (TI.run { recordLogs := true } TI.new Example.tx.events).toOption.map
      (fun s => s.arena.map (fun n => (n.trace.steps.length, n.logs.length, n.ordering.length))) =
      some [(0, 0, 3), (0, 1, 2), (0, 1, 1), (0, 0, 0), (0, 0, 0)] := by
  refine ⟨by constructor <;> simp [Config.all], ?_, ?_⟩
  · decide +kernel
  · decide +kernel
end Verif.Props
