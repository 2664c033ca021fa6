import Verif.Lemmas.ArenaTree
import Verif.Lemmas.Populate
import Verif.Props.Vm
/-!
# C73: the builders never panic on a recording, complete or interrupted
-/
namespace Verif.Props
open Spec Rec Parity

/-! ### Struct logs -/

theorem gethTraces_ok {A : List Node} (h : Links A) (gas : Nat) (ret : Bytes) (opts : GethOptions) :
    ∃ f, gethTraces A gas ret opts = .ok f := by
  cases hA : A with
  | nil => exact absurd hA h.nonempty
  | cons x rest =>
    have hx : A[0]? = some x := by rw [hA]; rfl
    have hfuel : sub A (stepsW A) A.length 0 ≤ totalSteps A := by
      refine Nat.le_trans (sub_le h _ _ _ (List.length_pos_iff.2 h.nonempty)) ?_
      exact Nat.le_of_eq (sum_range_get (fun x : Node => x.trace.steps.length) A)
    obtain ⟨fuel', st', _, h2⟩ := fillLoop_node h opts A.length 0 x hx (by omega) (totalSteps A) [] {}
      hfuel
    rw [← hA]
    have hfill : fillGethTrace A x opts {} = .ok st' := by
      rw [fillGethTrace, h2]
      cases fuel' <;> rfl
    refine ⟨⟨!x.trace.success, gas, ret, st'.logs⟩, ?_⟩
    rw [hA] at hfill ⊢
    simp only [gethTraces, hfill]

/-! ### Call frames -/

theorem parentFailedLoop_ok {A : List Node} (h : Links A) : ∀ (fuel p : Nat), p < A.length → p < fuel →
    ∃ b, parentFailedLoop A fuel (some p) = .ok b := by
  intro fuel
  induction fuel with
  | zero => intro p _ hf; omega
  | succ fuel ih =>
    intro p hp hf
    have hx := List.getElem?_eq_getElem hp
    simp only [parentFailedLoop, hx]
    by_cases he : A[p].trace.isError = true
    · exact ⟨true, by simp [he]⟩
    · simp only [he, Bool.false_eq_true, if_false]
      by_cases h0 : p = 0
      · subst h0
        rw [(h.root _ hx).1]
        exact ⟨false, by cases fuel <;> rfl⟩
      · obtain ⟨q, y, hq, hlt, _, _⟩ := h.parent p _ hx h0
        rw [hq]
        exact ih q (by omega) (by omega)

theorem callOrParentFailed_ok {A : List Node} (h : Links A) {i : Nat} {x : Node}
    (hx : A[i]? = some x) : ∃ b, callOrParentFailed A x = .ok b := by
  unfold callOrParentFailed
  split
  · exact ⟨true, rfl⟩
  · have hi := (List.getElem?_eq_some_iff.1 hx).1
    by_cases h0 : i = 0
    · subst h0
      rw [(h.root _ hx).1]
      exact ⟨false, by cases A.length <;> rfl⟩
    · obtain ⟨q, y, hq, hlt, _, _⟩ := h.parent i _ hx h0
      rw [hq]
      exact parentFailedLoop_ok h _ q (by omega) (by omega)

/-- The positions in the vector of call frames, the last first. -/
def descending : Nat → List Nat
  | 0 => []
  | n + 1 => n :: descending n

theorem descending_length : ∀ n, (descending n).length = n
  | 0 => rfl
  | n + 1 => by simp [descending, descending_length n]

theorem pushToLast_ok {acc : List (Nat × CallFrame)} (hne : acc ≠ []) (f : CallFrame) :
    ∃ acc', pushToLast acc f = .ok acc' ∧ acc'.map (·.1) = acc.map (·.1) := by
  cases acc with
  | nil => exact absurd rfl hne
  | cons e acc => exact ⟨_, rfl, rfl⟩

theorem makeFrames_ok {A : List Node} (h : Links A) (decode : RevertDecoder) (incl : Bool) :
    ∀ (rest : List Node) (i : Nat) (acc : List (Nat × CallFrame)), A.drop i = rest → 0 < i →
      acc.map (·.1) = descending i →
      ∃ frames, makeFrames decode A incl i rest acc = .ok frames ∧
        frames.map (·.1) = descending (i + rest.length) := by
  intro rest
  induction rest with
  | nil => intro i acc _ _ hacc; exact ⟨acc, rfl, hacc⟩
  | cons n rest ih =>
    intro i acc hd hi hacc
    have hlt : i < A.length := by
      apply Classical.byContradiction
      intro hc
      rw [List.drop_eq_nil_of_le (by omega)] at hd
      simp at hd
    have hx : A[i]? = some n := by
      rw [List.drop_eq_getElem_cons hlt] at hd
      simp only [List.cons.injEq] at hd
      rw [List.getElem?_eq_getElem hlt, hd.1]
    have hd' : A.drop (i + 1) = rest := by
      rw [List.drop_eq_getElem_cons hlt] at hd
      simp only [List.cons.injEq] at hd
      exact hd.2
    have hne : acc ≠ [] := by
      intro hc
      subst hc
      obtain ⟨j, rfl⟩ : ∃ j, i = j + 1 := ⟨i - 1, by omega⟩
      simp [descending] at hacc
    have hgo : ∀ (acc' : List (Nat × CallFrame)) (b : Bool), acc'.map (·.1) = acc.map (·.1) →
        ∃ frames, makeFrames decode A incl (i + 1) rest ((i, n.gethEmptyCallFrame decode b) :: acc') =
          .ok frames ∧ frames.map (·.1) = descending (i + (n :: rest).length) := by
      intro acc' b hm'
      obtain ⟨frames, hf, hl⟩ := ih (i + 1) ((i, n.gethEmptyCallFrame decode b) :: acc') hd' (by omega)
        (by simp only [List.map_cons, hm', hacc, descending])
      exact ⟨frames, hf, by rw [hl, List.length_cons]; congr 1; omega⟩
    obtain ⟨failed, hfailed⟩ := callOrParentFailed_ok h hx
    cases hsd : n.gethSelfdestructCallTrace with
    | none =>
      cases incl with
      | false => simp only [makeFrames, hsd]; exact hgo _ _ rfl
      | true => simp only [makeFrames, hsd, if_true, hfailed]; exact hgo _ _ rfl
    | some sd =>
      obtain ⟨acc', ha', hm'⟩ := pushToLast_ok hne sd
      cases incl with
      | false => simp only [makeFrames, hsd, ha']; exact hgo _ _ hm'
      | true => simp only [makeFrames, hsd, ha', if_true, hfailed]; exact hgo _ _ hm'

theorem map_fst_modify (l : List (Nat × CallFrame)) (i : Nat) (g : CallFrame → CallFrame) :
    (l.modify i (fun e => (e.1, g e.2))).map (·.1) = l.map (·.1) := by
  induction l generalizing i with
  | nil => simp
  | cons a l ih =>
    cases i with
    | zero => simp
    | succ i => simp [ih]

theorem rollUp_ok {A : List Node} (h : Links A) : ∀ (n : Nat) (frames : List (Nat × CallFrame)),
    0 < n → n ≤ A.length → frames.map (·.1) = descending n → ∃ f, rollUp A n frames = .ok f := by
  intro n
  induction n with
  | zero => intro _ h0; omega
  | succ n ih =>
    intro frames _ hle hm
    cases frames with
    | nil => simp [descending] at hm
    | cons e frames =>
      obtain ⟨i, call⟩ := e
      simp only [List.map_cons, descending, List.cons.injEq] at hm
      obtain ⟨rfl, hm⟩ := hm
      have hx := List.getElem?_eq_getElem (l := A) (i := i) (by omega)
      have hlen : frames.length = i := by
        have := congrArg List.length hm
        rwa [List.length_map, descending_length] at this
      simp only [rollUp, hx]
      by_cases h0 : i = 0
      · subst h0
        rw [(h.root _ hx).1]
        have : frames = [] := List.length_eq_zero_iff.1 hlen
        subst this
        exact ⟨call, rfl⟩
      · obtain ⟨p, y, hp, hlt, _, _⟩ := h.parent i _ hx h0
        rw [hp]
        dsimp only
        rw [if_pos (by omega)]
        apply ih _ (by omega) (by omega)
        rw [map_fst_modify _ _ (fun f => { f with calls := call :: f.calls })]
        exact hm

theorem gethCallTraces_ok {A : List Node} (h : Links A) (decode : RevertDecoder)
    (opts : CallConfig) (gas : Nat) : ∃ f, gethCallTraces decode A opts gas = .ok f := by
  cases hA : A with
  | nil => exact absurd hA h.nonempty
  | cons x rest =>
    simp only [gethCallTraces]
    split
    · exact ⟨_, rfl⟩
    · obtain ⟨frames, hf, hl⟩ := makeFrames_ok h decode (opts.withLog.getD false) rest 1
        [(0, gethRootFrame decode x (opts.withLog.getD false) gas)] (by rw [hA]; rfl) (by omega) rfl
      rw [← hA, hf]
      dsimp only
      have hlen : frames.length = A.length := by
        have := congrArg List.length hl
        rw [List.length_map, descending_length] at this
        rw [this, hA, List.length_cons]; omega
      rw [hlen]
      apply rollUp_ok h _ _ (List.length_pos_iff.2 h.nonempty) (Nat.le_refl _)
      rw [hl, hA, List.length_cons]; congr 1; omega

/-! ### Parity traces -/

theorem traceAddressLoop_ok {A : List Node} (h : Links A) : ∀ (fuel i : Nat) (x : Node)
    (graph : List Nat), A[i]? = some x → i ≤ fuel → (i ≠ 0 → x.isPrecompile = false) →
    ∃ g, traceAddressLoop A fuel x graph = .ok g := by
  intro fuel
  induction fuel with
  | zero =>
    intro i x graph hx hi _
    have : i = 0 := by omega
    subst this
    unfold traceAddressLoop
    rw [(h.root _ hx).1]
    exact ⟨graph, rfl⟩
  | succ fuel ih =>
    intro i x graph hx hi hnp
    by_cases h0 : i = 0
    · subst h0
      unfold traceAddressLoop
      rw [(h.root _ hx).1]
      exact ⟨graph, rfl⟩
    · obtain ⟨p, y, hp, hlt, hy, _⟩ := h.parent i x hx h0
      have hil := (List.getElem?_eq_some_iff.1 hx).1
      have hmem : i ∈ y.children := by
        rw [h.children p y hy, List.mem_filter]
        refine ⟨List.mem_range.2 hil, ?_⟩
        have := hnp h0
        simp only [hx, Option.any_some, hp, Bool.and_eq_true, decide_eq_true_eq, true_and]
        intro hc
        simp [Node.isPrecompile, hc] at this
      have hidx : x.idx = i := h.idx i x hx
      obtain ⟨c, hc⟩ : ∃ c, y.children.idxOf? x.idx = some c := by
        rw [hidx]
        cases hh : y.children.idxOf? i with
        | some c => exact ⟨c, rfl⟩
        | none => exact absurd hmem (List.idxOf?_eq_none_iff.1 hh)
      obtain ⟨g, hg⟩ := ih p y (graph ++ [c]) hy (by omega) (by
        intro hp0
        have := h.sealed i p x y hx hp hp0 hy
        cases hm : y.trace.maybePrecompile with
        | none => simp [Node.isPrecompile, hm]
        | some b => cases b <;> simp_all [Node.isPrecompile])
      refine ⟨g, ?_⟩
      unfold traceAddressLoop
      simp only [hp, hy, hc]
      exact hg

theorem traceAddress_ok {A : List Node} (h : Links A) (i : Nat) (hi : i < A.length) :
    ∃ a, traceAddress A i = .ok a := by
  unfold traceAddress
  by_cases h0 : i = 0
  · rw [if_pos h0]; exact ⟨[], rfl⟩
  · rw [if_neg h0, List.getElem?_eq_getElem hi]
    dsimp only
    by_cases hp : A[i].isPrecompile = true
    · rw [if_pos hp]; exact ⟨[], rfl⟩
    · rw [if_neg hp]
      obtain ⟨g, hg⟩ := traceAddressLoop_ok h A.length i A[i] [] (List.getElem?_eq_getElem hi) (by omega)
        (fun _ => by simpa using hp)
      rw [hg]
      exact ⟨_, rfl⟩

theorem traceAddressesOf_ok {A : List Node} (h : Links A) : ∀ (l : List Nat), (∀ i ∈ l, i < A.length) →
    ∃ as, traceAddressesOf A l = .ok as := by
  intro l
  induction l with
  | nil => intro _; exact ⟨[], rfl⟩
  | cons i l ih =>
    intro hl
    obtain ⟨a, ha⟩ := traceAddress_ok h i (hl i (by simp))
    obtain ⟨as, has⟩ := ih (fun j hj => hl j (by simp [hj]))
    exact ⟨a :: as, by simp only [traceAddressesOf, ha, has]⟩

theorem intoTransactionTraces_ok {A : List Node} (h : Links A) :
    ∃ ts, intoTransactionTraces A = .ok ts := by
  obtain ⟨as, has⟩ := traceAddressesOf_ok h (List.range A.length) (fun i hi => List.mem_range.1 hi)
  unfold intoTransactionTraces traceAddresses
  rw [has]
  exact ⟨_, rfl⟩

theorem traceLoop_ok {A : List Node} (h : Links A) (w : Bool) : ∀ (l : List Node)
    (acc : List TransactionTrace), (∀ x ∈ l, x.idx < A.length) → ∃ ts, traceLoop A w l acc = .ok ts := by
  intro l
  induction l with
  | nil => intro acc _; exact ⟨acc, rfl⟩
  | cons x l ih =>
    intro acc hl
    obtain ⟨a, ha⟩ := traceAddress_ok h x.idx (hl x (by simp))
    have ih' := fun acc => ih acc (fun j hj => hl j (by simp [hj]))
    simp only [traceLoop, ha]
    split
    · split
      · split <;> exact ih' _
      · exact ih' _
    · exact ih' _

/-! ### vmTrace -/

theorem vmTrace_ok {A : List Node} (h : Links A) :
    ∃ v, vmTrace A = .ok v ∧ v.count ≤ (pre A A.length 0).length := by
  cases hA : A with
  | nil => exact absurd hA h.nonempty
  | cons x rest =>
    have hx : A[0]? = some x := by rw [hA]; rfl
    have hfuel : sub A (kidsW A) A.length 0 ≤ vmFuel A := by
      refine Nat.le_trans (sub_le h _ _ _ (List.length_pos_iff.2 h.nonempty)) ?_
      exact Nat.le_of_eq (sum_range_get (fun x : Node => x.children.length + 1) A)
    rw [← hA]
    have hlen : sub A (fun _ => 1) A.length 0 = (pre A A.length 0).length := by
      rw [sub_eq]
      generalize pre A A.length 0 = l
      induction l with
      | nil => rfl
      | cons a l ih => simp only [List.map_cons, List.sum_cons, List.length_cons, ih]; omega
    rcases vmLoop_node h A.length 0 x hx (by omega) (vmFuel A) [] [] hfuel with
      ⟨ins, hok, hsz⟩ | ⟨p, hp, _⟩
    · refine ⟨.mk [] ins, ?_, ?_⟩
      · rw [hA] at hok ⊢
        simp only [vmTrace, hok]
      · simp only [VmTrace.count, Par.countList] at hsz ⊢
        omega
    · rw [(h.root _ hx).1] at hp
      simp at hp

theorem intoTraceTypeTraces_ok {A : List Node} (h : Links A) (types : List TraceType) :
    ∃ r, intoTraceTypeTraces A types = .ok r ∧
      ∀ v, r.vmTrace = some v → v.count ≤ (pre A A.length 0).length := by
  obtain ⟨v, hv, hcnt⟩ := vmTrace_ok h
  obtain ⟨ts, hts⟩ := traceLoop_ok h (types.contains .Trace) (A.filter (fun n => !n.isPrecompile)) []
    (by
      intro x hx
      obtain ⟨i, hi⟩ := List.mem_iff_getElem?.1 (List.mem_filter.1 hx).1
      rw [h.idx i x hi]
      exact (List.getElem?_eq_some_iff.1 hi).1)
  unfold intoTraceTypeTraces
  split
  · exact ⟨{}, rfl, by simp⟩
  · dsimp only
    by_cases hV : types.contains TraceType.VmTrace = true
    · simp only [hV, if_true, hv, hts]
      exact ⟨_, rfl, by intro w hw; simp at hw; subst hw; exact hcnt⟩
    · simp only [hV, Bool.false_eq_true, if_false, hts]
      exact ⟨_, rfl, by simp⟩

theorem pre_reach {A : List Node} (k : Nat) : ∀ x ∈ pre A k 0, Reach A x := by
  have hd : ∀ x, Desc A 0 x → Reach A x := by
    intro x hx
    induction hx with
    | refl => exact Reach.root
    | step _ hm ih =>
      exact Reach.child ih hm
  exact fun x hx => hd x (pre_desc k 0 x hx)

theorem withState_ok {ε : Type} {A W : List Node} (h : Links A) (hW : walkBF A = .ok W)
    (hlen : (pre A A.length 0).length ≤ W.length) (db : DB ε) (gas : Nat) (output : Option Bytes)
    (state : List (Address × Account)) (types : List TraceType) (e : Panic) :
    intoTraceResultsWithState db A gas output state types ≠ .error (.panic e) := by
  obtain ⟨r, hr, hcnt⟩ := intoTraceTypeTraces_ok h types
  unfold intoTraceResultsWithState intoTraceResults
  rw [hr, hW]
  have hvm : r.vmTrace.isSome = true → types.contains TraceType.VmTrace = true := by
    intro hs
    unfold intoTraceTypeTraces at hr
    split at hr
    · simp at hr; subst hr; simp at hs
    · dsimp only at hr
      by_cases hV : types.contains TraceType.VmTrace = true
      · exact hV
      · simp only [hV, Bool.false_eq_true, if_false] at hr
        split at hr
        · simp at hr
        · simp at hr; subst hr; simp at hs
  cases hv : r.vmTrace with
  | none =>
    by_cases hV : types.contains TraceType.VmTrace = true
    · simp only [hV, if_true, hv]
      cases r.stateDiff with
      | none => simp
      | some d => dsimp only; cases populateStateDiff db d state <;> simp
    · simp only [hV, Bool.false_eq_true, if_false, hv]
      cases r.stateDiff with
      | none => simp
      | some d => dsimp only; cases populateStateDiff db d state <;> simp
  | some v =>
    have hV := hvm (by rw [hv]; rfl)
    have hpd : ∀ e', populateVmTraceBytecodes db v (W.map (·.trace.address)) ≠ .error (.panic e') := by
      intro e'
      have := hcnt v hv
      rw [populateVmTraceBytecodes]
      apply Par.populateLoop_no_panic
      · intro p hp; simp only [List.mem_singleton] at hp; subst hp; simp [VmTrace.at]
      · simp [Par.cnt, VmTrace.at]
      · simp [Par.cnt, VmTrace.at]; omega
    simp only [hV, if_true, hv]
    cases hpop : populateVmTraceBytecodes db v (W.map (·.trace.address)) with
    | error f =>
      rw [hpop] at hpd
      cases f with
      | panic e' => exact absurd rfl (hpd e')
      | db e' =>
        cases r.stateDiff with
        | none => simp
        | some d => dsimp only; cases populateStateDiff db d state <;> simp
    | ok v' =>
      cases r.stateDiff with
      | none => simp
      | some d => dsimp only; cases populateStateDiff db d state <;> simp

/-! ### The theorems -/

/-- **C73.** Whatever sequence of hook calls a recording went through (nested or not, complete or
not, of one or several transactions), none of the builders panics or loops on it, for any options: the
struct logs, the call frames, the flat and the localized traces, the traces by type, the vmTrace and
the breadth-first walk are built. -/
theorem C73_builders (cfg : Config) (es : List Event) (s : TI) (hr : TI.run cfg TI.new es = .ok s) :
    (∀ gas ret opts, ∃ f, gethTraces s.arena gas ret opts = .ok f) ∧
    (∀ decode opts gas, ∃ f, gethCallTraces decode s.arena opts gas = .ok f) ∧
    (∃ ts, intoTransactionTraces s.arena = .ok ts) ∧
    (∀ info, ∃ ts, intoLocalizedTransactionTraces s.arena info = .ok ts) ∧
    (∀ types, ∃ r, intoTraceTypeTraces s.arena types = .ok r) ∧
    (∀ gas output types, ∃ r, intoTraceResults s.arena gas output types = .ok r) ∧
    (∃ v, vmTrace s.arena = .ok v) ∧
    (∃ W, walkBF s.arena = .ok W) := by
  have h := C04_links cfg es s hr
  obtain ⟨ts, hts⟩ := intoTransactionTraces_ok h
  obtain ⟨v, hv, _⟩ := vmTrace_ok h
  obtain ⟨W, hW, _⟩ := C31_breadth_first cfg es s hr
  refine ⟨gethTraces_ok h, gethCallTraces_ok h, ⟨ts, hts⟩, ?_, ?_, ?_, ⟨v, hv⟩, ⟨W, hW⟩⟩
  · intro info
    unfold intoLocalizedTransactionTraces
    rw [hts]
    exact ⟨_, rfl⟩
  · intro types
    obtain ⟨r, hr, _⟩ := intoTraceTypeTraces_ok h types
    exact ⟨r, hr⟩
  · intro gas output types
    obtain ⟨r, hr, _⟩ := intoTraceTypeTraces_ok h types
    unfold intoTraceResults
    rw [hr]
    exact ⟨_, rfl⟩

/-- **C73, with state.** On every recording the traces with state are built, or an error of the
database is returned. -/
theorem C73_with_state {ε : Type} (cfg : Config) (es : List Event) (s : TI)
    (hr : TI.run cfg TI.new es = .ok s) (db : DB ε) (gas : Nat) (output : Option Bytes)
    (state : List (Address × Account)) (types : List TraceType) :
    (∃ r, intoTraceResultsWithState db s.arena gas output state types = .ok r) ∨
    ∃ e, intoTraceResultsWithState db s.arena gas output state types = .error (.db e) := by
  have h := C04_links cfg es s hr
  obtain ⟨W, hW, _, _, hmem, _, _⟩ := C31_breadth_first cfg es s hr
  have hlen : (pre s.arena s.arena.length 0).length ≤ W.length := by
    have := Par.nodup_subset_length (pre_nodup h s.arena.length 0) (l2 := W.map (·.idx)) (by
      intro i hi
      rw [hmem]
      exact pre_reach _ i hi)
    simpa using this
  have hno := withState_ok h hW hlen db gas output state types
  cases hres : intoTraceResultsWithState db s.arena gas output state types with
  | ok r => exact Or.inl ⟨r, rfl⟩
  | error f =>
    cases f with
    | panic e => exact absurd hres (hno e)
    | db e => exact Or.inr ⟨e, rfl⟩

/-- **C73, interrupted executions.** At every moment of every legal history the recording exists and
all of them can be built from it. -/
theorem C73_at_every_moment (cfg : Config) (ts : List Tx) (hwf : ∀ t ∈ ts, t.WF)
    (hp : ∀ t ∈ ts, t.body.AllSteps (PushesSafe cfg))
    (hj : ∀ t ∈ ts, t.body.AllSteps (StorageSafe cfg))
    (es : List Event) (hes : es <+: ts.flatMap Tx.events) :
    ∃ s, TI.run cfg TI.new es = .ok s ∧
      (∀ gas ret opts, ∃ f, gethTraces s.arena gas ret opts = .ok f) ∧
      (∀ decode opts gas, ∃ f, gethCallTraces decode s.arena opts gas = .ok f) ∧
      (∃ ts, intoTransactionTraces s.arena = .ok ts) ∧
      (∃ v, vmTrace s.arena = .ok v) := by
  obtain ⟨s, hr⟩ := C01_no_panic cfg ts hwf hp hj es hes
  obtain ⟨h1, h2, h3, _, _, _, h7, _⟩ := C73_builders cfg es s hr
  exact ⟨s, hr, h1, h2, h3, h7⟩

/-- An interrupted execution: three frames are open, and the frames so far are shown. -/
example : ∃ s, TI.run Config.all TI.new (Example.tx.events.take 10) = .ok s ∧
    s.traceStack = [2, 1, 0] ∧
    (intoTransactionTraces s.arena).toOption.map (·.map (·.traceAddress)) = some [[], [0], [0, 0]] := by
  refine ⟨_, rfl, ?_, ?_⟩ <;> decide

/-- What is needed: on an arena in which a child is not listed by its parent the traces panic, and on
one with a second root the roll-up of the call frames hits its debug assertion. -/
theorem C73_links_needed :
    intoTransactionTraces [{}, { idx := 1, parent := some 0 }] =
      .error (.expect "non precompile child call exists in parent") ∧
    gethCallTraces ⟨fun _ => none, fun _ => ""⟩ [{}, { idx := 1 }] { onlyTopCall := none, withLog := none } 0 =
      .error (.expect "only one root node has no parent") := by
  constructor <;> rfl

/-- **C27** for every recording, complete or not, and every set of trace types with `Trace` in it: both
`into_trace_type_traces` and `into_transaction_traces` return, with the same list of traces, and the localized
variant is that list. -/
theorem C27_recordings (cfg : Config) (es : List Event) (s : TI) (hr : TI.run cfg TI.new es = .ok s)
    (types : List TraceType) (hT : TraceType.Trace ∈ types) (info : TxInfo) :
    ∃ ts r ls, intoTransactionTraces s.arena = .ok ts ∧ intoTraceTypeTraces s.arena types = .ok r ∧
      r.traces = some ts ∧ intoLocalizedTransactionTraces s.arena info = .ok ls ∧ ls.map (·.trace) = ts := by
  obtain ⟨-, -, ⟨ts, hts⟩, -, htt, -, ⟨v, hv⟩, -⟩ := C73_builders cfg es s hr
  obtain ⟨r, hrr⟩ := htt types
  obtain ⟨h1, h2⟩ := C27_entry_points_agree cfg es s hr types hT (fun _ => ⟨v, hv⟩) info
  obtain ⟨ls, hls, hm, -⟩ := h2 ts hts
  rw [hrr, hts] at h1
  exact ⟨ts, r, ls, hts, hrr, by simpa [Except.map] using h1, hls, hm⟩

/-- A recording that stopped when three hooks had been called. -/
example : ∃ s, TI.run Config.all TI.new (Example.tx.events.take 3) = .ok s ∧
    ∃ ts r ls, intoTransactionTraces s.arena = .ok ts ∧
      intoTraceTypeTraces s.arena [.Trace, .VmTrace] = .ok r ∧ r.traces = some ts ∧
      intoLocalizedTransactionTraces s.arena ⟨none, some 3, none, none⟩ = .ok ls ∧ ls.map (·.trace) = ts :=
  ⟨_, rfl, C27_recordings Config.all (Example.tx.events.take 3) _ rfl _ (by simp) _⟩

end Verif.Props
