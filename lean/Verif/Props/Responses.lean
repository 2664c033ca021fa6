import Verif.Props.Builders
import Verif.Props.VmCodes
import Verif.Props.StateExamples
/-!
# C75: a parity response contains what was asked for and nothing else
-/
namespace Verif.Props
open OMap Spec Parity

/-- The same traces, but the first one, if it has a result, says that it used `g` gas. -/
def WithRootGas (g : Nat) (ts ts' : List TransactionTrace) : Prop :=
  ts'.length = ts.length ∧ (∀ i, i ≠ 0 → ts'[i]? = ts[i]?) ∧
  ∀ t t', ts[0]? = some t → ts'[0]? = some t' →
    t'.action = t.action ∧ t'.error = t.error ∧ t'.traceAddress = t.traceAddress ∧
    t'.subtraces = t.subtraces ∧
    (t.result = none → t'.result = none) ∧
    (∀ g0 out, t.result = some (.call g0 out) → t'.result = some (.call g out)) ∧
    (∀ g0 code a, t.result = some (.create g0 code a) → t'.result = some (.create g code a))

theorem withRootGas (g : Nat) (ts : List TransactionTrace) :
    WithRootGas g ts (setRootTraceGasUsed g ts) := by
  cases ts with
  | nil => exact ⟨rfl, fun _ _ => rfl, fun t t' h => by simp at h⟩
  | cons t rest =>
    refine ⟨rfl, ?_, ?_⟩
    · intro i hi
      cases i with
      | zero => exact absurd rfl hi
      | succ i => rfl
    · intro a b ha hb
      simp only [setRootTraceGasUsed, List.getElem?_cons_zero, Option.some.injEq] at ha hb
      subst ha hb
      refine ⟨rfl, rfl, rfl, rfl, ?_, ?_, ?_⟩
      · intro h; simp [h]
      · intro g0 out h; simp [h, TraceOutput.setGasUsed]
      · intro g0 code a h; simp [h, TraceOutput.setGasUsed]

theorem typeTraces_eq (cfg : Config) (es : List Event) (s : TI) (hr : TI.run cfg TI.new es = .ok s)
    (types : List TraceType) :
    ∃ ts v r, intoTransactionTraces s.arena = .ok ts ∧ vmTrace s.arena = .ok v ∧
      intoTraceTypeTraces s.arena types = .ok r ∧
      r.traces = (if .Trace ∈ types then some ts else none) ∧
      r.vmTrace = (if .VmTrace ∈ types then some v else none) ∧
      r.stateDiff = (if .StateDiff ∈ types then some [] else none) := by
  obtain ⟨_, _, ⟨ts, hts⟩, _, hty, _, ⟨v, hv⟩, _⟩ := C73_builders cfg es s hr
  obtain ⟨r, hr'⟩ := hty types
  refine ⟨ts, v, r, hts, hv, hr', ?_⟩
  have hne : s.arena.isEmpty = false := by
    have h := (C04_links cfg es s hr).nonempty
    cases ha : s.arena with
    | nil => exact absurd ha h
    | cons _ _ => rfl
  have hcopy := hr'
  unfold intoTraceTypeTraces at hr'
  by_cases he : types = []
  · subst he
    simp only [List.isEmpty_nil, Bool.true_or, if_true, Except.ok.injEq] at hr'
    subst hr'
    simp
  · have he' : types.isEmpty = false := by cases types <;> simp_all
    have hagree : TraceType.Trace ∈ types → r.traces = some ts := by
      intro hm
      have := (C27_entry_points_agree cfg es s hr types hm (fun _ => ⟨v, hv⟩)
        ⟨none, none, none, none⟩).1
      rw [hts, hcopy] at this
      simpa [Except.map] using this
    simp only [he', hne, Bool.or_self, Bool.false_eq_true, if_false, hv] at hr'
    by_cases hvt : TraceType.VmTrace ∈ types
    all_goals
      simp only [List.contains_iff_mem, hvt, if_true, if_false] at hr'
      split at hr'
      · exact absurd hr' (by simp)
      · simp only [Except.ok.injEq] at hr'
        refine ⟨?_, ?_, ?_⟩
        · by_cases hm : TraceType.Trace ∈ types
          · rw [hagree hm, if_pos hm]
          · rw [← hr']; simp [hm]
        · rw [← hr']; simp [hvt]
        · rw [← hr']

/-- **C75, without a state.** Whatever was recorded and whatever is asked for, `into_trace_results`
returns a response with the output of the transaction (empty if it has none), the flat traces with the
gas of the transaction at the root if they are asked for and none otherwise, the vmTrace exactly if it
is asked for, and an empty state diff exactly if one is asked for. -/
theorem C75_results (cfg : Config) (es : List Event) (s : TI) (hr : TI.run cfg TI.new es = .ok s)
    (gas : Nat) (output : Option Bytes) (types : List TraceType) :
    ∃ ts v r, intoTransactionTraces s.arena = .ok ts ∧ vmTrace s.arena = .ok v ∧
      intoTraceResults s.arena gas output types = .ok r ∧
      (∀ o, output = some o → r.output = o) ∧ (output = none → r.output = []) ∧
      (.Trace ∈ types → WithRootGas gas ts r.trace) ∧ (.Trace ∉ types → r.trace = []) ∧
      (.VmTrace ∈ types → r.vmTrace = some v) ∧ (.VmTrace ∉ types → r.vmTrace = none) ∧
      (.StateDiff ∈ types → r.stateDiff = some []) ∧ (.StateDiff ∉ types → r.stateDiff = none) := by
  obtain ⟨ts, v, q, hts, hv, hq, h1, h2, h3⟩ := typeTraces_eq cfg es s hr types
  refine ⟨ts, v, _, hts, hv, by rw [intoTraceResults, hq], ?_, ?_, ?_, ?_, ?_, ?_, ?_, ?_⟩
  · rintro o rfl; rfl
  · rintro rfl; rfl
  · intro h
    simp only [h1, if_pos h, Option.getD_some]
    exact withRootGas gas ts
  · intro h
    simp only [h1, if_neg h, Option.getD_none]
    rfl
  · intro h; simp only [h2, if_pos h]
  · intro h; simp only [h2, if_neg h]
  · intro h; simp only [h3, if_pos h]
  · intro h; simp only [h3, if_neg h]

/-- What `into_trace_results_with_state` does, by what is asked for. -/
theorem withState_eq {ε : Type} {A W : List Node} (hW : walkBF A = .ok W) (db : DB ε) (gas : Nat)
    (output : Option Bytes) (state : List (Address × Account)) (types : List TraceType)
    {res : TraceResults} (hres : intoTraceResults A gas output types = .ok res)
    (hvm : .VmTrace ∉ types → res.vmTrace = none) :
    (∀ r, intoTraceResultsWithState db A gas output state types = .ok r ↔
      ∃ d v, r = { res with stateDiff := d, vmTrace := v } ∧
        ((res.stateDiff = none ∧ d = none) ∨
          ∃ d0 d1, res.stateDiff = some d0 ∧ populateStateDiff db d0 state = .ok d1 ∧ d = some d1) ∧
        ((res.vmTrace = none ∧ v = none) ∨
          ∃ v0 v1, res.vmTrace = some v0 ∧
            populateVmTraceBytecodes db v0 (W.map (·.trace.address)) = .ok v1 ∧ v = some v1)) ∧
    (∀ x, intoTraceResultsWithState db A gas output state types = .error x ↔
      (∃ d0 e, res.stateDiff = some d0 ∧ populateStateDiff db d0 state = .error e ∧ x = .db e) ∨
      ((∀ d0, res.stateDiff = some d0 → ∃ d1, populateStateDiff db d0 state = .ok d1) ∧
        ∃ v0, res.vmTrace = some v0 ∧
          populateVmTraceBytecodes db v0 (W.map (·.trace.address)) = .error x)) := by
  have heq : intoTraceResultsWithState db A gas output state types =
      (match (match res.stateDiff with
        | none => .ok none
        | some d => match populateStateDiff db d state with
          | .error e => .error (.db e)
          | .ok d => .ok (some d) : Except (Fail ε) (Option StateDiff)) with
      | .error e => .error e
      | .ok diff => match (match res.vmTrace with
          | none => .ok none
          | some v => match populateVmTraceBytecodes db v (W.map (·.trace.address)) with
            | .error e => .error e
            | .ok v => .ok (some v) : Except (Fail ε) (Option VmTrace)) with
        | .error e => .error e
        | .ok vm => .ok { res with stateDiff := diff, vmTrace := vm }) := by
    unfold intoTraceResultsWithState
    by_cases h : TraceType.VmTrace ∈ types
    · simp only [List.contains_iff_mem, h, if_true, hW, hres]
      rfl
    · have := hvm h
      simp only [List.contains_iff_mem, h, if_false, hres, this]
      rfl
  rw [heq]
  cases hd : res.stateDiff with
  | none =>
    cases hv : res.vmTrace with
    | none =>
      constructor
      · intro r; simp [eq_comm]
      · intro x; simp
    | some v0 =>
      cases hp : populateVmTraceBytecodes db v0 (W.map (·.trace.address)) with
      | error e =>
        constructor
        · intro r; simp [hp]
        · intro x; simp [hp]
      | ok v1 =>
        constructor
        · intro r; simp [hp, eq_comm]
        · intro x; simp [hp]
  | some d0 =>
    cases hq : populateStateDiff db d0 state with
    | error e =>
      constructor
      · intro r; simp [hq]
      · intro x; simp [hq, eq_comm]
    | ok d1 =>
      cases hv : res.vmTrace with
      | none =>
        constructor
        · intro r; simp [hq, eq_comm]
        · intro x; simp [hq]
      | some v0 =>
        cases hp : populateVmTraceBytecodes db v0 (W.map (·.trace.address)) with
        | error e =>
          constructor
          · intro r; simp [hq, hp]
          · intro x; simp [hq, hp]
        | ok v1 =>
          constructor
          · intro r; simp [hq, hp, eq_comm]
          · intro x; simp [hq, hp]

/-- The first address the database does not answer for. -/
theorem first_unanswered {ε : Type} (db : DB ε) (addrs : List Address) : ∀ (k : Nat) (a : Address)
    (e : ε), addrs[k]? = some a → dbCode db a = .error e →
    ∃ k' a' e', k' ≤ k ∧ addrs[k']? = some a' ∧ dbCode db a' = .error e' ∧
      ∀ b ∈ addrs.take k', Answers db b := by
  induction addrs with
  | nil => intro k a e h; simp at h
  | cons x rest ih =>
    intro k a e h he
    cases hx : dbCode db x with
    | error e' => exact ⟨0, x, e', Nat.zero_le _, rfl, hx, by simp⟩
    | ok c =>
      cases k with
      | zero =>
        simp only [List.getElem?_cons_zero, Option.some.injEq] at h
        subst h
        rw [hx] at he
        exact absurd he (by simp)
      | succ k =>
        obtain ⟨k', a', e', hk, ha, hc, hall⟩ := ih k a e (by simpa using h) he
        refine ⟨k' + 1, a', e', by omega, by simpa using ha, hc, ?_⟩
        intro b hb
        simp only [List.take_succ_cons, List.mem_cons] at hb
        rcases hb with rfl | hb
        · exact ⟨c, hx⟩
        · exact hall b hb

/-- **C75, with a state.** Whatever was recorded, for every database, every state of an execution and
everything that may be asked for: the response has the output and the flat traces it has without a
state; a state diff exactly if one is asked for, and it reports exactly what changed; a vmTrace exactly
if one is asked for, which is the recorded one with the codes of the frames of the breadth-first walk
filled in. It is refused only with an error of the database, and that exactly if a state diff is asked
for and the database does not answer for an account of the state that was not created, or a vmTrace is
asked for and the database does not answer for the code of a frame that has a sub-trace. -/
theorem C75_with_state {ε : Type} (cfg : Config) (es : List Event) (s : TI)
    (hr : TI.run cfg TI.new es = .ok s) (db : DB ε) (gas : Nat) (output : Option Bytes)
    (state : List (Address × Account)) (hst : StateMap state) (types : List TraceType) :
    ∃ ts v W P, intoTransactionTraces s.arena = .ok ts ∧ vmTrace s.arena = .ok v ∧
      walkBF s.arena = .ok W ∧ LevelOrder v P ∧
      (∀ r, intoTraceResultsWithState db s.arena gas output state types = .ok r →
        (∀ o, output = some o → r.output = o) ∧ (output = none → r.output = []) ∧
        (.Trace ∈ types → WithRootGas gas ts r.trace) ∧ (.Trace ∉ types → r.trace = []) ∧
        (.VmTrace ∈ types → ∃ u, r.vmTrace = some u ∧ Coded db P (W.map (·.trace.address)) v u) ∧
        (.VmTrace ∉ types → r.vmTrace = none) ∧
        (.StateDiff ∈ types → ∃ d, r.stateDiff = some d ∧ IsStateDiff db state d) ∧
        (.StateDiff ∉ types → r.stateDiff = none)) ∧
      ((∃ x, intoTraceResultsWithState db s.arena gas output state types = .error x) ↔
        (.StateDiff ∈ types ∧ ∃ (a : Address) (acc : Account) (e : ε), (a, acc) ∈ state ∧
          acc.isCreated = false ∧ db.basic a = .error e) ∨
        (.VmTrace ∈ types ∧ ∃ (k : Nat) (n : Node) (e : ε), k < P.length ∧ W[k]? = some n ∧
          dbCode db n.trace.address = .error e)) ∧
      (∀ x, intoTraceResultsWithState db s.arena gas output state types = .error x →
        ∃ e, x = .db e ∧ ((∃ a : Address, db.basic a = .error e) ∨
          ∃ a : Address, dbCode db a = .error e)) := by
  obtain ⟨ts, v, res, hts, hv, hres, ho1, ho2, ht1, ht2, hv1, hv2, hd1, hd2⟩ :=
    C75_results cfg es s hr gas output types
  obtain ⟨_, _, _, _, _, _, _, ⟨W, hW⟩⟩ := C73_builders cfg es s hr
  obtain ⟨P, hP, _, hok, herr, _⟩ := C30_populate db v (W.map (·.trace.address))
  obtain ⟨heok, heerr⟩ := withState_eq hW db gas output state types hres hv2
  have hndb : ∀ x, intoTraceResultsWithState db s.arena gas output state types = .error x →
      ∃ e, x = .db e := by
    intro x hx
    rcases C73_with_state cfg es s hr db gas output state types with ⟨r, h⟩ | ⟨e, h⟩
    · rw [h] at hx; exact absurd hx (by simp)
    · rw [h] at hx
      simp only [Except.error.injEq] at hx
      exact ⟨e, hx.symm⟩
  have hSD : ∀ d0, res.stateDiff = some d0 → .StateDiff ∈ types ∧ d0 = [] := by
    intro d0 h
    by_cases hm : TraceType.StateDiff ∈ types
    · rw [hd1 hm] at h
      simp only [Option.some.injEq] at h
      exact ⟨hm, h.symm⟩
    · rw [hd2 hm] at h; exact absurd h (by simp)
  have hVM : ∀ v0, res.vmTrace = some v0 → .VmTrace ∈ types ∧ v0 = v := by
    intro v0 h
    by_cases hm : TraceType.VmTrace ∈ types
    · rw [hv1 hm] at h
      simp only [Option.some.injEq] at h
      exact ⟨hm, h.symm⟩
    · rw [hv2 hm] at h; exact absurd h (by simp)
  obtain ⟨hsd1, hsd2⟩ := C32_errors db state hst
  refine ⟨ts, v, W, P, hts, hv, hW, hP, ?_, ⟨?_, ?_⟩, ?_⟩
  · intro r h
    obtain ⟨d, u, rfl, hd, hu⟩ := (heok r).1 h
    refine ⟨ho1, ho2, ht1, ht2, ?_, ?_, ?_, ?_⟩
    · intro hm
      rcases hu with ⟨h0, _⟩ | ⟨v0, v1, h0, h1, h2⟩
      · rw [hv1 hm] at h0; exact absurd h0 (by simp)
      · obtain ⟨_, rfl⟩ := hVM v0 h0
        exact ⟨v1, h2, (hok v1 h1).2⟩
    · intro hm
      rcases hu with ⟨_, h0⟩ | ⟨v0, v1, h0, _, _⟩
      · exact h0
      · exact absurd (hVM v0 h0).1 hm
    · intro hm
      rcases hd with ⟨h0, _⟩ | ⟨d0, d1, h0, h1, h2⟩
      · rw [hd1 hm] at h0; exact absurd h0 (by simp)
      · obtain ⟨_, rfl⟩ := hSD d0 h0
        exact ⟨d1, h2, C32_state_diff db state d1 hst h1⟩
    · intro hm
      rcases hd with ⟨_, h0⟩ | ⟨d0, d1, h0, _, _⟩
      · exact h0
      · exact absurd (hSD d0 h0).1 hm
  · rintro ⟨x, hx⟩
    rcases (heerr x).1 hx with ⟨d0, e, h0, h1, _⟩ | ⟨_, v0, h0, h1⟩
    · obtain ⟨hm, rfl⟩ := hSD d0 h0
      obtain ⟨a, acc, ha, hc, hb⟩ := hsd1 e h1
      exact .inl ⟨hm, a, acc, e, ha, hc, hb⟩
    · obtain ⟨hm, rfl⟩ := hVM v0 h0
      obtain ⟨e, rfl⟩ := hndb x hx
      obtain ⟨k, a, hk, ha, he, _⟩ := (herr e).1 h1
      rw [List.getElem?_map] at ha
      cases hn : W[k]? with
      | none => rw [hn] at ha; exact absurd ha (by simp)
      | some n =>
        rw [hn] at ha
        simp only [Option.map_some, Option.some.injEq] at ha
        subst ha
        exact .inr ⟨hm, k, n, e, hk, hn, he⟩
  · intro h
    cases hres' : intoTraceResultsWithState db s.arena gas output state types with
    | error x => exact ⟨x, rfl⟩
    | ok r =>
      exfalso
      obtain ⟨d, u, _, hd, hu⟩ := (heok r).1 hres'
      rcases h with ⟨hm, a, acc, e, ha, hc, hb⟩ | ⟨hm, k, n, e, hk, hn, he⟩
      · obtain ⟨e', h'⟩ := hsd2 ⟨a, acc, e, ha, hc, hb⟩
        rcases hd with ⟨h0, _⟩ | ⟨d0, d1, h0, h1, _⟩
        · rw [hd1 hm] at h0; exact absurd h0 (by simp)
        · obtain ⟨_, rfl⟩ := hSD d0 h0
          rw [h'] at h1; exact absurd h1 (by simp)
      · obtain ⟨k', a', e', hk', ha', he', hall⟩ := first_unanswered db (W.map (·.trace.address)) k
          n.trace.address e (by rw [List.getElem?_map, hn]; rfl) he
        have h' := (herr e').2 ⟨k', a', by omega, ha', he', hall⟩
        rcases hu with ⟨h0, _⟩ | ⟨v0, v1, h0, h1, _⟩
        · rw [hv1 hm] at h0; exact absurd h0 (by simp)
        · obtain ⟨_, rfl⟩ := hVM v0 h0
          rw [h'] at h1; exact absurd h1 (by simp)
  · intro x hx
    obtain ⟨e, rfl⟩ := hndb x hx
    refine ⟨e, rfl, ?_⟩
    rcases (heerr _).1 hx with ⟨d0, e', h0, h1, h2⟩ | ⟨_, v0, h0, h1⟩
    · obtain ⟨_, rfl⟩ := hSD d0 h0
      obtain ⟨a, _, _, _, hb⟩ := hsd1 e' h1
      simp only [Fail.db.injEq] at h2
      subst h2
      exact .inl ⟨a, hb⟩
    · obtain ⟨_, rfl⟩ := hVM v0 h0
      obtain ⟨_, a, _, _, he, _⟩ := (herr e).1 h1
      exact .inr ⟨a, he⟩

/-- The response of the example for everything, with the state of the state examples: both parts are
there, and the gas of the root is the one of the transaction. -/
example : ∃ s r, TI.run Config.all TI.new Example.tx.events = .ok s ∧
    intoTraceResultsWithState StateExample.db s.arena 4242 (some [7]) StateExample.state
      [.StateDiff, .Trace, .VmTrace] = .ok r ∧ r.output = [7] ∧
    r.stateDiff.map (·.map (·.1)) = some [1, 5, 6, 7] ∧ r.vmTrace.isSome = true ∧
    r.trace.map (·.traceAddress) = [[], [0], [0, 1], [0, 0], [1], [2]] := by
  refine ⟨_, _, rfl, rfl, ?_, ?_, ?_, ?_⟩ <;> decide

/-- A database that does not answer: refused if the state diff or the vmTrace is asked for, and not
otherwise. -/
example : ∃ s, TI.run Config.all TI.new Example.tx.events = .ok s ∧
    (∀ types, types ∈ [[TraceType.StateDiff], [.VmTrace], [.Trace, .StateDiff]] →
      ∃ e, intoTraceResultsWithState (ε := String) ⟨fun _ => .error "gone", fun _ => .ok []⟩ s.arena 0
        none StateExample.state types = .error (.db e)) ∧
    ∃ r, intoTraceResultsWithState (ε := String) ⟨fun _ => .error "gone", fun _ => .ok []⟩ s.arena 0
        none StateExample.state [.Trace] = .ok r ∧ r.vmTrace.isNone = true ∧ r.stateDiff = none := by
  refine ⟨_, rfl, ?_, _, rfl, ?_, ?_⟩
  · intro types h
    simp only [List.mem_cons, List.not_mem_nil, or_false] at h
    rcases h with rfl | rfl | rfl <;> exact ⟨"gone", rfl⟩
  · rfl
  · rfl

end Verif.Props
