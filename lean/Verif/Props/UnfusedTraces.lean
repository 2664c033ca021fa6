import Verif.Lemmas.UnfusedTraces
import Verif.Props.Parity
import Verif.Props.Vm
import Verif.Props.UnfusedFrames
/-! C136: the parity traces that are built after several transactions without `fuse`. -/
namespace Verif.Props
open Spec Rec Parity

/-- The root of a recording is shown. -/
theorem recorded_root {cfg : Config} {u : Tx} (hwf : u.WF) (hsafe : Safe cfg u.body) {s : TI}
    (hs : TI.run cfg TI.new u.events = .ok s) :
    ∃ x xs, s.arena = x :: xs ∧ x.isPrecompile = false := by
  obtain ⟨s', hs', -, har, -⟩ := run_frames cfg u hwf hsafe
  rw [hs] at hs'
  cases hs'
  refine ⟨nodeOf cfg (rootOf u), (subFrames 1 0 (valueInScope none u.hdr) 1 u.body).map (nodeOf cfg), ?_, ?_⟩
  · rw [har]; rfl
  · rw [(nodeOf_link cfg u hwf (rootOf u) (by simp [frames, rootOf])).pre]
    simp [Spec.excluded, rootOf]

theorem run_links {cfg : Config} : ∀ (es : List Event) (s s' : TI), Links s.arena → TI.run cfg s es = .ok s' →
    Links s'.arena := by
  intro es
  induction es with
  | nil => intro s s' h hr; simp only [TI.run, Except.ok.injEq] at hr; rw [← hr]; exact h
  | cons e es ih =>
    intro s s' h hr
    simp only [TI.run] at hr
    split at hr
    · simp at hr
    · rename_i s1 h1; exact ih s1 s' (hook_links h h1) hr

theorem traces_all {cfg : Config} (r : Tx → TI) (T : Tx → List TransactionTrace) (ts : List Tx) :
    ∀ (s : TI) (x : Node) (xs : List Node) (T0 : List TransactionTrace), s.traceStack = [] → Links s.arena →
    s.arena = x :: xs → x.isPrecompile = false →
    intoTransactionTraces s.arena = .ok T0 →
    (∀ u ∈ ts, (u.WF ∧ Safe cfg u.body) ∧
      TI.run cfg TI.new u.events = .ok (r u) ∧ intoTransactionTraces (r u).arena = .ok (T u)) →
    ∃ s', TI.run cfg s (ts.flatMap Tx.events) = .ok s' ∧
      intoTransactionTraces s'.arena = .ok ((ts.map T).foldl joinTraces T0) := by
  induction ts with
  | nil => intro s x xs T0 _ _ _ _ h _; exact ⟨s, rfl, h⟩
  | cons u ts ih =>
    intro s x xs T0 hst hl ha hp hT hall
    obtain ⟨⟨hwf, hsafe⟩, hru, hTu⟩ := hall u (by simp)
    obtain ⟨y, ys, hy, hyp⟩ := recorded_root hwf hsafe hru
    obtain ⟨m, hm, hmst, hmar, -⟩ := unfused_one hwf hsafe hst ha hru
    have hlm := run_links _ _ _ hl hm
    have hlu := C04_links cfg _ _ hru
    rw [ha] at hl hT
    rw [hy] at hlu hTu hmar
    obtain ⟨ta, tb, h1, h2, h3⟩ := traces_together hl hlu hp hyp
    rw [hT] at h1
    rw [hTu] at h2
    cases h1
    cases h2
    obtain ⟨s', hs', hf⟩ := ih m (sharedRoot xs.length x y) (xs ++ ys.map (movedNode xs.length))
      (joinTraces T0 (T u)) hmst hlm hmar hyp (by rw [hmar]; exact h3) (fun v hv => hall v (by simp [hv]))
    exact ⟨s', by rw [List.flatMap_cons, Rec.run_append_ok hm, hs'], hf⟩

/-- **C136**, exactly: what `into_transaction_traces` returns for a recording of several transactions is the traces
of each of them, joined: the root of the last, and below it the traces of all in order, with paths that count the
calls of the earlier ones. -/
theorem C136_traces (cfg : Config) (r : Tx → TI) (T : Tx → List TransactionTrace) (t : Tx) (ts : List Tx)
    (hall : ∀ u ∈ t :: ts, (u.WF ∧ Safe cfg u.body) ∧
      TI.run cfg TI.new u.events = .ok (r u) ∧ intoTransactionTraces (r u).arena = .ok (T u)) :
    ∃ s, TI.run cfg TI.new ((t :: ts).flatMap Tx.events) = .ok s ∧
      intoTransactionTraces s.arena = .ok ((ts.map T).foldl joinTraces (T t)) := by
  obtain ⟨⟨hwf, hsafe⟩, hrt, hTt⟩ := hall t (by simp)
  obtain ⟨x, xs, hx, hp⟩ := recorded_root hwf hsafe hrt
  obtain ⟨s1, hs1, hst, -⟩ := run_frames cfg t hwf hsafe
  rw [hrt] at hs1
  cases hs1
  obtain ⟨s, hs, h⟩ := traces_all r T ts (r t) x xs (T t) hst (C04_links cfg _ _ hrt) hx hp hTt
    (fun u hu => hall u (by simp [hu]))
  exact ⟨s, by rw [List.flatMap_cons, Rec.run_append_ok hrt, hs], h⟩

/-- The traces of a transaction: the first is that of the root, then its selfdestruct, then others; there are
none of these exactly if no direct call of the root is shown. -/
theorem only_root {cfg : Config} {t : Tx} (h : t.WF ∧ Safe cfg t.body)
    {s : TI} {ts : List TransactionTrace} (hs : TI.run cfg TI.new t.events = .ok s)
    (hts : intoTransactionTraces s.arena = .ok ts) :
    ∃ a as, ts = a :: as ∧ as.filter rootEnd ++ as.filter (fun tr => !rootEnd tr) = as ∧
      (as.filter (fun tr => !rootEnd tr) = [] ↔ shownCalls cfg (rootOf t) = []) ∧
      (shownCalls cfg (rootOf t) = [] → a.subtraces = (as.filter rootEnd).length) := by
  obtain ⟨x, xs, hx, hp⟩ := recorded_root h.1 h.2 hs
  have hl := C04_links cfg _ _ hs
  obtain ⟨s', ts', hs', hts', hmem, hall, hnd⟩ := C24_trace_addresses cfg t h.1 h.2
  rw [hs] at hs'
  cases hs'
  rw [hts] at hts'
  cases hts'
  obtain ⟨s', ts', hs', hts', h25⟩ := C25_subtraces cfg t h.1 h.2
  rw [hs] at hs'
  cases hs'
  rw [hts] at hts'
  cases hts'
  rw [hx] at hl hts
  obtain ⟨bs, hbs, hno⟩ := traces_form hl hp
  rw [hts, Except.ok.injEq] at hbs
  have hf0 : bs.filter rootEnd = [] := List.filter_eq_nil_iff.2 (fun tr htr => by simp [hno tr htr])
  have hf1 : bs.filter (fun tr => !rootEnd tr) = bs := List.filter_eq_self.2 (fun tr htr => by simp [hno tr htr])
  have hform : ∃ a as, ts = a :: as ∧ a.traceAddress = [] ∧
      as.filter rootEnd ++ as.filter (fun tr => !rootEnd tr) = as := by
    rw [rootTraces] at hbs
    split at hbs
    · rename_i hsd
      rw [Node.paritySelfdestructTrace, Node.paritySelfdestructAction, if_pos hsd] at hbs
      simp only [Option.map_some, Option.toList_some, List.cons_append, List.nil_append] at hbs
      refine ⟨_, _, hbs, rfl, ?_⟩
      rw [List.filter_cons_of_pos rfl, List.filter_cons_of_neg (by simp [rootEnd]), hf0, hf1]
      rfl
    · exact ⟨_, _, hbs, rfl, by
        show bs.filter rootEnd ++ bs.filter (fun tr => !rootEnd tr) = bs
        rw [hf0, hf1, List.nil_append]⟩
  obtain ⟨a, as, rfl, ha, hsplit⟩ := hform
  have hends : shownCalls cfg (rootOf t) = [] →
      ∀ tr ∈ as, rootEnd tr = true ∧ ∃ k, tr.traceAddress = [k] := by
    intro hsc tr htr
    obtain ⟨f, path, hf, hc⟩ := hmem tr (by simp [htr])
    cases path with
    | cons i path => simp [follow, hsc] at hf
    | nil =>
      rcases hc with ⟨-, hc⟩ | ⟨-, hc, hc'⟩
      · simp only [List.map_cons, List.nodup_cons, List.mem_map, ha] at hnd
        exact absurd ⟨tr, htr, hc⟩ hnd.1
      · exact ⟨by rw [rootEnd, hc, hc']; rfl, _, hc'⟩
  refine ⟨a, as, rfl, hsplit, ⟨?_, ?_⟩, ?_⟩
  · intro hnil
    cases hsc : shownCalls cfg (rootOf t) with
    | nil => rfl
    | cons g gs =>
      obtain ⟨tr, htr, hact, hp'⟩ := hall g [0] (by simp [follow, hsc])
      rcases List.mem_cons.1 htr with rfl | htr
      · rw [ha] at hp'; simp at hp'
      · have := List.filter_eq_nil_iff.1 hnil tr htr
        have hr : rootEnd tr = false := by
          rw [rootEnd, hact, action]
          cases g.hdr <;> rfl
        simp [hr] at this
  · intro hsc
    exact List.filter_eq_nil_iff.2 (fun tr htr => by simp [(hends hsc tr htr).1])
  · intro hsc
    rw [h25 a (by simp), ha]
    rw [List.filter_cons_of_neg (by simp [ha, ExtendsByOne]), List.filter_eq_self.2, List.filter_eq_self.2]
    · intro tr htr; exact (hends hsc tr htr).1
    · intro tr htr
      obtain ⟨k, hk⟩ := (hends hsc tr htr).2
      simp [hk, ExtendsByOne]

theorem later_none (bs : List TransactionTrace) : bs.map (laterTrace 0) = bs := by
  conv => rhs; rw [← List.map_id bs]
  refine List.map_congr_left fun tr _ => ?_
  rcases tr with ⟨_, _, _, path, _⟩
  cases path <;> rfl

theorem join_none {a b : TransactionTrace} {as bs : List TransactionTrace}
    (hb : bs.filter rootEnd ++ bs.filter (fun tr => !rootEnd tr) = bs)
    (ha : as.filter (fun tr => !rootEnd tr) = []) (h0 : a.subtraces = (as.filter rootEnd).length) :
    joinTraces (a :: as) (b :: bs) = b :: bs := by
  rw [joinTraces]
  simp only [h0, Nat.sub_self, later_none, ha, List.append_nil, hb, Nat.zero_add]

/-- **C136**, when the traces are right: of two transactions, the traces are
those of the second alone exactly if no call of the first is shown. -/
theorem C136_when (cfg : Config) (t1 t2 : Tx) (h1 : t1.WF ∧ Safe cfg t1.body) (h2 : t2.WF ∧ Safe cfg t2.body) :
    ∃ s2 s, TI.run cfg TI.new t2.events = .ok s2 ∧ TI.run cfg TI.new (t1.events ++ t2.events) = .ok s ∧
      (intoTransactionTraces s.arena = intoTransactionTraces s2.arena ↔ shownCalls cfg (rootOf t1) = []) := by
  obtain ⟨s1, T1, hs1, hT1, -⟩ := C24_trace_addresses cfg t1 h1.1 h1.2
  obtain ⟨s2, T2, hs2, hT2, -⟩ := C24_trace_addresses cfg t2 h2.1 h2.2
  obtain ⟨s1', hs1', hst, har1, -⟩ := run_frames cfg t1 h1.1 h1.2
  rw [hs1] at hs1'
  cases hs1'
  obtain ⟨x, xs, hx, hp⟩ := recorded_root h1.1 h1.2 hs1
  obtain ⟨y, ys, hy, hyp⟩ := recorded_root h2.1 h2.2 hs2
  obtain ⟨s, hs, -, har, -⟩ := unfused_one h2.1 h2.2 hst hx hs2
  refine ⟨s2, s, hs2, by rw [Rec.run_append_ok hs1, hs], ?_⟩
  have hl1 := C04_links cfg _ _ hs1
  have hl2 := C04_links cfg _ _ hs2
  rw [hx] at hl1 hT1
  rw [hy] at hl2 hT2 har
  obtain ⟨ta, tb, e1, e2, e3⟩ := traces_together hl1 hl2 hp hyp
  rw [hT1] at e1
  rw [hT2] at e2
  cases e1
  cases e2
  rw [har, hy, e3, hT2]
  obtain ⟨a, as, rfl, -, hiff, h0⟩ := only_root h1 hs1 (by rw [hx]; exact hT1)
  obtain ⟨b, bs, rfl, hsplit, -⟩ := only_root h2 hs2 (by rw [hy]; exact hT2)
  rw [Except.ok.injEq]
  refine ⟨fun he => hiff.1 ?_, fun hl => join_none hsplit (hiff.2 hl) (h0 hl)⟩
  have h3 := congrArg List.length he
  have h4 := congrArg List.length hsplit
  simp only [joinTraces, List.length_cons, List.length_append, List.length_map] at h3 h4
  exact List.length_eq_zero_iff.1 (by omega)

/-- **C136**, for any number of transactions of which no earlier one shows a call: the traces are those of the
last. Missing: earlier transactions that call something, of which `C136_traces` says what is returned instead. -/
theorem C136_last_partial (cfg : Config) (ts : List Tx) (u : Tx)
    (hall : ∀ v ∈ ts ++ [u], v.WF ∧ Safe cfg v.body)
    (hno : ∀ v ∈ ts, shownCalls cfg (rootOf v) = []) :
    ∃ s1 s, TI.run cfg TI.new u.events = .ok s1 ∧
      TI.run cfg TI.new ((ts ++ [u]).flatMap Tx.events) = .ok s ∧
      intoTransactionTraces s.arena = intoTransactionTraces s1.arena := by
  have h : ∀ v, ∃ p : TI × List TransactionTrace, v ∈ ts ++ [u] →
      TI.run cfg TI.new v.events = .ok p.1 ∧ intoTransactionTraces p.1.arena = .ok p.2 := by
    intro v
    by_cases hv : v ∈ ts ++ [u]
    · obtain ⟨s, T, hs, hT, -⟩ := C24_trace_addresses cfg v (hall v hv).1 (hall v hv).2
      exact ⟨(s, T), fun _ => ⟨hs, hT⟩⟩
    · exact ⟨(TI.new, []), fun h => absurd h hv⟩
  obtain ⟨q, hq⟩ := Classical.axiomOfChoice h
  have hjoin : ∀ v ∈ ts, ∀ w ∈ ts ++ [u], joinTraces (q v).2 (q w).2 = (q w).2 := by
    intro v hv w hw
    have hv' : v ∈ ts ++ [u] := by simp [hv]
    obtain ⟨a, as, h1, -, h2, h3⟩ := only_root (hall v hv') (hq v hv').1 (hq v hv').2
    obtain ⟨b, bs, h4, h5, -⟩ := only_root (hall w hw) (hq w hw).1 (hq w hw).2
    rw [h1, h4]
    exact join_none h5 (h2.2 (hno v hv)) (h3 (hno v hv))
  have hfold : ∀ (vs : List Tx) (v : Tx), (∀ w ∈ v :: vs, w ∈ ts) →
      ((vs ++ [u]).map (fun v => (q v).2)).foldl joinTraces (q v).2 = (q u).2 := by
    intro vs
    induction vs with
    | nil => intro v hv; exact hjoin v (hv v (by simp)) u (by simp)
    | cons w vs ih =>
      intro v hv
      simp only [List.cons_append, List.map_cons, List.foldl_cons]
      have hw : w ∈ ts := hv w (by simp)
      rw [hjoin v (hv v (by simp)) w (by simp [hw])]
      exact ih w (fun z hz => hv z (by simp only [List.mem_cons] at hz ⊢; exact .inr hz))
  have hu := hq u (by simp)
  match hts : ts with
  | [] => exact ⟨_, _, hu.1, by simpa using hu.1, rfl⟩
  | t :: rest =>
    obtain ⟨s, hs, h⟩ := C136_traces cfg (fun v => (q v).1) (fun v => (q v).2) t (rest ++ [u])
      (fun v hv => ⟨hall v hv, hq v hv⟩)
    refine ⟨_, s, hu.1, hs, ?_⟩
    rw [h, hu.2, hfold rest t (fun v hv => hv)]

/-! ### Concrete cases -/

/-- The paths of the traces that are built. -/
def tracePaths (A : List Node) : List (List Nat) :=
  match intoTransactionTraces A with
  | .ok ts => ts.map (·.traceAddress)
  | .error _ => []

/-- **C136** does not hold: of two transactions that each call one contract, the traces show one root with two
calls, and the call of the second is at the path `[1]` instead of `[0]`. -/
theorem C136_refuted : ∃ t1 t2 : Tx, (t1.WF ∧ ∀ cfg, Safe cfg t1.body) ∧
    (t2.WF ∧ ∀ cfg, Safe cfg t2.body) ∧
    ∃ s2 s, TI.run Config.all TI.new t2.events = .ok s2 ∧
      TI.run Config.all TI.new (t1.events ++ t2.events) = .ok s ∧
      tracePaths s2.arena = [[], [0]] ∧ tracePaths s.arena = [[], [0], [1]] :=
  ⟨callerOf Op.ADD, callerOf Op.SUB, ⟨callerOf_wf _, fun _ => ⟨Example.stepSafe _ _ _ _ (by decide),
    ⟨Example.stepSafe _ _ _ _ (by decide), trivial⟩, trivial⟩⟩, ⟨callerOf_wf _, fun _ =>
    ⟨Example.stepSafe _ _ _ _ (by decide), ⟨Example.stepSafe _ _ _ _ (by decide), trivial⟩, trivial⟩⟩,
    _, _, rfl, rfl, by decide, by decide⟩

/-- Two plain transfers before a call meet the hypotheses of `C136_last_partial`, with a call that is shown. -/
example : ∃ s, TI.run Config.all TI.new ((List.replicate 2 ({ callerOf Op.ADD with body := .nil } : Tx) ++
      [callerOf Op.SUB]).flatMap Tx.events) = .ok s ∧ tracePaths s.arena = [[], [0]] := by
  have hc : (callerOf Op.SUB).WF ∧ Safe Config.all (callerOf Op.SUB).body := ⟨callerOf_wf _,
    ⟨Example.stepSafe _ _ _ _ (by decide), ⟨Example.stepSafe _ _ _ _ (by decide), trivial⟩, trivial⟩⟩
  obtain ⟨s1, s, h1, h2, h3⟩ := C136_last_partial Config.all
    (List.replicate 2 { callerOf Op.ADD with body := .nil }) (callerOf Op.SUB)
    (by
      intro v hv
      simp only [List.mem_append, List.mem_replicate, List.mem_singleton] at hv
      rcases hv with ⟨-, rfl⟩ | rfl
      · exact ⟨⟨fun _ => rfl, fun _ => rfl, trivial⟩, trivial⟩
      · exact hc)
    (by intro v hv; rw [(List.mem_replicate.mp hv).2]; rfl)
  refine ⟨s, h2, ?_⟩
  unfold tracePaths
  rw [h3]
  cases h1
  decide

/-- The two transactions of `C136_refuted` meet the hypotheses of `C136_traces` and `C136_when`. -/
example : ∃ (r : Tx → TI) (T : Tx → List TransactionTrace),
    (∀ u ∈ [callerOf Op.ADD, callerOf Op.SUB], (u.WF ∧ Safe Config.all u.body) ∧
      TI.run Config.all TI.new u.events = .ok (r u) ∧ intoTransactionTraces (r u).arena = .ok (T u)) ∧
    shownCalls Config.all (rootOf (callerOf Op.ADD)) ≠ [] := by
  have hw : ∀ u ∈ [callerOf Op.ADD, callerOf Op.SUB], u.WF ∧ Safe Config.all u.body := by
    intro u hu
    simp only [List.mem_cons, List.not_mem_nil, or_false] at hu
    rcases hu with rfl | rfl <;>
    exact ⟨callerOf_wf _, ⟨Example.stepSafe _ _ _ _ (by decide),
      ⟨Example.stepSafe _ _ _ _ (by decide), trivial⟩, trivial⟩⟩
  have h : ∀ u, ∃ p : TI × List TransactionTrace, u ∈ [callerOf Op.ADD, callerOf Op.SUB] →
      TI.run Config.all TI.new u.events = .ok p.1 ∧ intoTransactionTraces p.1.arena = .ok p.2 := by
    intro u
    by_cases hu : u ∈ [callerOf Op.ADD, callerOf Op.SUB]
    · obtain ⟨s, T, hs, hT, -⟩ := C25_subtraces Config.all u (hw u hu).1 (hw u hu).2
      exact ⟨(s, T), fun _ => ⟨hs, hT⟩⟩
    · exact ⟨(TI.new, []), fun h => absurd h hu⟩
  obtain ⟨q, hq⟩ := Classical.axiomOfChoice h
  exact ⟨fun u => (q u).1, fun u => (q u).2, fun u hu => ⟨hw u hu, hq u hu⟩, by decide⟩

end Verif.Props
