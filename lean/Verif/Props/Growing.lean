import Verif.Lemmas.Refine
import Verif.Props.Legal
import Verif.Spec.Growing
/-!
# C122: what was recorded stays recorded
-/
namespace Verif.Props
open Rec Spec

theorem continues_refl (x : Node) : Continues x x :=
  ⟨rfl, rfl, rfl, rfl, rfl, rfl, rfl, rfl, rfl, rfl, List.prefix_rfl, List.prefix_rfl, List.prefix_rfl⟩

theorem continues_trans {x y z : Node} (h : Continues x y) (k : Continues y z) : Continues x z :=
  ⟨k.parent.trans h.parent, k.idx.trans h.idx, k.depth.trans h.depth, k.caller.trans h.caller,
    k.kind.trans h.kind, k.value.trans h.value, k.data.trans h.data, k.gasLimit.trans h.gasLimit,
    k.precompile.trans h.precompile, k.decoded.trans h.decoded, h.children.trans k.children,
    h.logs.trans k.logs, h.ordering.trans k.ordering⟩

/-- The steps that will not change any more; `o` is the node in which a recorded step is in progress. -/
def kept (o : Option Nat) (i : Nat) (x : Node) : List CallTraceStep :=
  if o = some i then x.trace.steps.dropLast else x.trace.steps

theorem kept_le (o : Option Nat) (i : Nat) (x : Node) : kept o i x <+: x.trace.steps := by
  unfold kept
  split
  · exact List.dropLast_prefix _
  · exact List.prefix_rfl

/-- The node in which a recorded step is in progress. -/
def inProgress (cfg : Config) (st : Option (Interp × Ctx)) (os : List Nat) : Option Nat :=
  match st, os with
  | some (i, _), p :: _ => if recorded cfg i then some p else none
  | _, _ => none

/-- The open frames are a chain of last children. -/
def Spine (A : List Node) (os : List Nat) : Prop := ∃ r, os.reverse = 0 :: r ∧ Path A 0 0 r

structure GInv (cfg : Config) (s : TI) (fs : List Header) (st : Option (Interp × Ctx)) (os : List Nat)
    (n : Nat) : Prop where
  stack : s.traceStack = os
  len : s.arena.length = n
  pos : 0 < n
  lens : os.length = fs.length
  nodes : ∀ p ∈ os, p < n
  nodup : os.Nodup
  whole : (∀ h ∈ fs.head?, h.isPrecompile = false) → os ≠ [] → Spine s.arena os
  tail : os.tail ≠ [] → Spine s.arena os.tail
  step : ∀ i c, st = some (i, c) → cfg.recordSteps = true → ∃ p stk rest x k, os = p :: stk ∧
    s.arena[p]? = some x ∧ s.stepStack = ⟨cfg.shouldRecordOpcode i.op, p, k⟩ :: rest ∧
    (cfg.shouldRecordOpcode i.op = true → x.trace.steps.length = k + 1)

/-- From a moment to a later one: `o` and `o'` are the nodes with a step in progress. -/
def Goes (o o' : Option Nat) (os : List Nat) (A A' : List Node) : Prop :=
  ∀ i x, A[i]? = some x → ∃ y, A'[i]? = some y ∧ (i ∉ os → y = x) ∧ Continues x y ∧
    kept o i x <+: kept o' i y

theorem path_keep {A A' : List Node} (h : ∀ (i : Nat) (x : Node), A[i]? = some x → ∃ y : Node, A'[i]? = some y ∧
    y.trace.depth = x.trace.depth ∧ y.children = x.children) : ∀ (r : List Nat) {k e : Nat},
    Path A k e r → Path A' k e r
  | [], k, e, ⟨x, hx, hd⟩ => by
    obtain ⟨y, hy, hyd, _⟩ := h e x hx
    exact ⟨y, hy, hyd.trans hd⟩
  | c :: r, k, e, ⟨hlt, ⟨x, hx, hd, hc⟩, hp⟩ => by
    obtain ⟨y, hy, hyd, hyc⟩ := h e x hx
    exact ⟨hlt, ⟨y, hy, hyd.trans hd, by rw [hyc]; exact hc⟩, path_keep h r hp⟩

theorem spine_keep {A A' : List Node} (h : ∀ (i : Nat) (x : Node), A[i]? = some x → ∃ y : Node, A'[i]? = some y ∧
    y.trace.depth = x.trace.depth ∧ y.children = x.children) {os : List Nat} (hs : Spine A os) :
    Spine A' os := by
  obtain ⟨r, hr, hp⟩ := hs
  exact ⟨r, hr, path_keep h r hp⟩

theorem set_keep {A : List Node} {p : Nat} {x y : Node} (hx : A[p]? = some x)
    (hd : y.trace.depth = x.trace.depth) (hc : y.children = x.children) (i : Nat) (z : Node)
    (hz : A[i]? = some z) : ∃ w, (A.set p y)[i]? = some w ∧ w.trace.depth = z.trace.depth ∧
      w.children = z.children := by
  by_cases hpi : p = i
  · subst hpi
    rw [hz] at hx
    cases hx
    exact ⟨y, by rw [List.getElem?_set_self (List.getElem?_eq_some_iff.1 hz).1], hd, hc⟩
  · exact ⟨z, by rw [List.getElem?_set_ne hpi, hz], rfl, rfl⟩

/-- Only the innermost open node changes. -/
theorem goes_set {A : List Node} {p : Nat} {stk : List Nat} {x y : Node} {o o' : Option Nat}
    (hx : A[p]? = some x) (hc : Continues x y) (hk : kept o p x <+: kept o' p y)
    (ho : o = none ∨ o = some p) (ho' : o' = none ∨ o' = some p) : Goes o o' (p :: stk) A (A.set p y) := by
  intro i z hz
  by_cases hpi : p = i
  · subst hpi
    rw [hz] at hx
    cases hx
    exact ⟨y, by rw [List.getElem?_set_self (List.getElem?_eq_some_iff.1 hz).1],
      fun hn => absurd List.mem_cons_self hn, hc, hk⟩
  · refine ⟨z, by rw [List.getElem?_set_ne hpi, hz], fun _ => rfl, continues_refl z, ?_⟩
    have e1 : kept o i z = z.trace.steps := by
      unfold kept; rw [if_neg]; rcases ho with h | h <;> rw [h] <;> simp [hpi]
    have e2 : kept o' i z = z.trace.steps := by
      unfold kept; rw [if_neg]; rcases ho' with h | h <;> rw [h] <;> simp [hpi]
    rw [e1, e2]
    exact List.prefix_rfl

theorem goes_trans {o o1 o2 : Option Nat} {os os1 : List Nat} {A A1 A2 : List Node}
    (h : Goes o o1 os A A1) (k : Goes o1 o2 os1 A1 A2) (ho : ∀ i ∈ os1, i ∈ os ∨ A.length ≤ i) :
    Goes o o2 os A A2 := by
  intro i x hx
  obtain ⟨y, hy, h1, h2, h3⟩ := h i x hx
  obtain ⟨z, hz, k1, k2, k3⟩ := k i y hy
  refine ⟨z, hz, fun hn => ?_, continues_trans h2 k2, h3.trans k3⟩
  have hlt := (List.getElem?_eq_some_iff.1 hx).1
  rw [k1 (fun hm => by rcases ho i hm with h | h; exact hn h; omega), h1 hn]

theorem inProgress_top (cfg : Config) (st : Option (Interp × Ctx)) (p : Nat) (stk : List Nat) :
    inProgress cfg st (p :: stk) = none ∨ inProgress cfg st (p :: stk) = some p := by
  unfold inProgress
  split
  · rename_i heq
    cases heq
    split
    · exact Or.inr rfl
    · exact Or.inl rfl
  · exact Or.inl rfl

theorem inProgress_none (cfg : Config) (os : List Nat) : inProgress cfg none os = none := by
  unfold inProgress; rfl

/-- What a hook inside the innermost frame does to the invariant. -/
theorem GInv.inner {cfg : Config} {s s' : TI} {fs : List Header} {st : Option (Interp × Ctx)}
    {os : List Nat} {n : Nat} (hi : GInv cfg s fs st os n) {p : Nat} {stk : List Nat} {x y : Node}
    (hos : os = p :: stk) (hx : s.arena[p]? = some x) (hstk : s'.traceStack = s.traceStack)
    (ha : s'.arena = s.arena.set p y) (hd : y.trace.depth = x.trace.depth) (hc : y.children = x.children)
    {st' : Option (Interp × Ctx)}
    (hst : ∀ i c, st' = some (i, c) → cfg.recordSteps = true → ∃ rest k,
      s'.stepStack = ⟨cfg.shouldRecordOpcode i.op, p, k⟩ :: rest ∧
      (cfg.shouldRecordOpcode i.op = true → y.trace.steps.length = k + 1)) :
    GInv cfg s' fs st' os n := by
  refine ⟨hstk.trans hi.stack, by rw [ha]; simpa using hi.len, hi.pos, hi.lens, hi.nodes, hi.nodup,
    fun h1 h2 => ?_, fun h1 => ?_, fun i c h1 h2 => ?_⟩
  · rw [ha]; exact spine_keep (set_keep hx hd hc) (hi.whole h1 h2)
  · rw [ha]; exact spine_keep (set_keep hx hd hc) (hi.tail h1)
  · obtain ⟨rest, k, h3, h4⟩ := hst i c h1 h2
    exact ⟨p, stk, rest, y, k, hos, by rw [ha, List.getElem?_set_self (List.getElem?_eq_some_iff.1 hx).1], h3, h4⟩

theorem withLast_inv {s s' : TI} {f : Nat → Node → Node} (h : s.withLastTrace f = .ok s') :
    ∃ p stk x, s.traceStack = p :: stk ∧ s.arena[p]? = some x ∧
      s' = { s with arena := s.arena.set p (f p x) } := by
  unfold TI.withLastTrace at h
  split at h
  · cases h
  · rename_i p stk hs
    split at h
    · cases h
    · rename_i x hx
      simp only [Except.ok.injEq] at h
      exact ⟨p, stk, x, hs, hx, h.symm⟩

/-- The conclusion about one hook call `e`, which `es` follow. -/
def Advances (cfg : Config) (s s' : TI) (st : Option (Interp × Ctx)) (os : List Nat) (n : Nat)
    (e : Event) (es : List Event) : Prop :=
  ∃ fs' st' os' n', GInv cfg s' fs' st' os' n' ∧ Legal (fun _ _ _ _ => True) false fs' st' es ∧
    (st' ≠ none → ∃ i c, e = .step i c) ∧ (∀ l, openedBy n os (e :: l) = openedBy n' os' l) ∧
    (startsTx e = false → Goes (inProgress cfg st os) (inProgress cfg st' os') os s.arena s'.arena ∧
      ∀ i ∈ os', i ∈ os ∨ n ≤ i)

theorem top_exists {cfg : Config} {s : TI} {fs : List Header} {st : Option (Interp × Ctx)}
    {os : List Nat} {n : Nat} (hi : GInv cfg s fs st os n) (hf : fs ≠ []) :
    ∃ p stk x, os = p :: stk ∧ s.arena[p]? = some x := by
  have hl := hi.lens
  cases os with
  | nil => cases fs with
    | nil => exact absurd rfl hf
    | cons => simp at hl
  | cons p stk =>
    have := hi.nodes p List.mem_cons_self
    rw [← hi.len] at this
    exact ⟨p, stk, _, rfl, List.getElem?_eq_getElem this⟩

theorem advance_step {cfg : Config} {s s' : TI} {fs : List Header} {st : Option (Interp × Ctx)}
    {os : List Nat} {n : Nat} {i : Interp} {c : Ctx} {es : List Event} (hi : GInv cfg s fs st os n)
    (hl : Legal (fun _ _ _ _ => True) false fs st (.step i c :: es)) (h : s.hook cfg (.step i c) = .ok s') :
    Advances cfg s s' st os n (.step i c) es := by
  obtain ⟨hf, hd, hl⟩ := hl
  obtain ⟨p, stk, x, hos, hx⟩ := top_exists hi hf
  have hst : s.traceStack = p :: stk := hi.stack.trans hos
  have hold : kept (inProgress cfg st os) p x <+: x.trace.steps := kept_le _ _ _
  suffices hk : ∃ y, s'.traceStack = s.traceStack ∧ s'.arena = s.arena.set p y ∧ Continues x y ∧
      y.children = x.children ∧ (cfg.recordSteps = true → ∃ rest k,
      s'.stepStack = ⟨cfg.shouldRecordOpcode i.op, p, k⟩ :: rest ∧
      (cfg.shouldRecordOpcode i.op = true → y.trace.steps.length = k + 1)) ∧
      x.trace.steps <+: kept (inProgress cfg (some (i, c)) os) p y by
    obtain ⟨y, h1, h2, h3, h4, h5, h6⟩ := hk
    refine ⟨fs, some (i, c), os, n, hi.inner hos hx h1 h2 h3.depth h4 (fun i' c' hh hr => ?_), hl,
      fun _ => ⟨i, c, rfl⟩, fun _ => rfl, fun _ => ⟨?_, fun j hj => Or.inl hj⟩⟩
    · cases hh; exact h5 hr
    · rw [h2]
      have := goes_set (stk := stk) hx h3 (hold.trans h6) (by rw [hos]; exact inProgress_top ..)
        (by rw [hos]; exact inProgress_top ..)
      rw [← hos] at this
      exact this
  simp only [TI.hook] at h
  by_cases hr : cfg.recordSteps = true
  · rw [if_pos hr] at h
    simp only [TI.startStep, hst, hx] at h
    by_cases hrec : cfg.shouldRecordOpcode i.op = true
    · simp only [hrec, Bool.not_true, Bool.false_eq_true, if_false, Except.ok.injEq] at h
      subst h
      refine ⟨TI.startStepNode cfg i c x, hst.symm, rfl, ⟨rfl, rfl, rfl, rfl, rfl, rfl, rfl, rfl, rfl, rfl,
        List.prefix_rfl, List.prefix_rfl, List.prefix_append _ _⟩, rfl, fun _ => ⟨_, _, by rw [hrec], fun _ => ?_⟩, ?_⟩
      · simp [TI.startStepNode, TI.pushStep]
      · rw [hos, inProgress, kept]
        simp [recorded, hr, hrec, TI.startStepNode, TI.pushStep]
    · simp only [hrec, Bool.not_false, if_true, Except.ok.injEq] at h
      subst h
      refine ⟨x, hst.symm, by rw [set_self hx], continues_refl x, rfl,
        fun _ => ⟨s.stepStack, x.trace.steps.length, ?_, fun hh => absurd hh hrec⟩, ?_⟩
      · simp [hrec]
      · rw [hos, inProgress, kept]
        simp [recorded, hrec]
  · rw [if_neg hr] at h
    cases h
    refine ⟨x, rfl, by rw [set_self hx], continues_refl x, rfl, fun hh => absurd hh hr, ?_⟩
    rw [hos, inProgress, kept]
    simp [recorded, hr]

theorem advance_stepEnd {cfg : Config} {s s' : TI} {fs : List Header} {st : Option (Interp × Ctx)}
    {os : List Nat} {n : Nat} {i : Interp} {c : Ctx} {es : List Event} (hi : GInv cfg s fs st os n)
    (hl : Legal (fun _ _ _ _ => True) false fs st (.stepEnd i c :: es))
    (h : s.hook cfg (.stepEnd i c) = .ok s') : Advances cfg s s' st os n (.stepEnd i c) es := by
  obtain ⟨⟨i0, c0, hst0, _⟩, hd, hl⟩ := hl
  simp only [TI.hook] at h
  by_cases hr : cfg.recordSteps = true
  · rw [if_pos hr] at h
    obtain ⟨p, stk, rest, x, k, hos, hx, hss, hk⟩ := hi.step i0 c0 hst0 hr
    suffices hh : ∃ y, s'.traceStack = s.traceStack ∧ s'.arena = s.arena.set p y ∧ Continues x y ∧
        y.children = x.children ∧ kept (inProgress cfg st os) p x <+: y.trace.steps by
      obtain ⟨y, h1, h2, h3, h4, h5⟩ := hh
      refine ⟨fs, none, os, n, hi.inner hos hx h1 h2 h3.depth h4 (fun i' c' hh => by cases hh), hl,
        fun hh => absurd rfl hh, fun _ => rfl, fun _ => ⟨?_, fun j hj => Or.inl hj⟩⟩
      rw [h2]
      have := goes_set (stk := stk) (o' := none) hx h3 (by simpa [kept] using h5)
        (by rw [hos]; exact inProgress_top ..) (Or.inl rfl)
      rw [← hos] at this
      rw [inProgress_none]
      exact this
    simp only [TI.fillStepOnStepEnd, hss] at h
    by_cases hrec : cfg.shouldRecordOpcode i0.op = true
    · simp only [hrec, Bool.not_true, Bool.false_eq_true, if_false, hx] at h
      split at h
      · cases h
      · split at h
        · cases h
        · rename_i step hstep _ step' hfill
          simp only [Except.ok.injEq] at h
          subst h
          refine ⟨_, rfl, rfl, ⟨rfl, rfl, rfl, rfl, rfl, rfl, rfl, rfl, rfl, rfl,
            List.prefix_rfl, List.prefix_rfl, List.prefix_rfl⟩, rfl, ?_⟩
          have hlen := hk hrec
          rw [hst0, hos, inProgress, kept]
          simp only [recorded, hr, hrec, Bool.and_self, if_true]
          have : x.trace.steps.set k step' = x.trace.steps.dropLast ++ [step'] := by
            rw [List.set_eq_take_append_cons_drop, if_pos (by omega), List.dropLast_eq_take,
              List.drop_eq_nil_of_le (by omega), hlen]
            rfl
          rw [this]
          exact List.prefix_append _ _
    · simp only [hrec, Bool.not_false, if_true, Except.ok.injEq] at h
      subst h
      exact ⟨x, rfl, by rw [set_self hx], continues_refl x, rfl, kept_le _ _ _⟩
  · rw [if_neg hr] at h
    cases h
    refine ⟨fs, none, os, n, ⟨hi.stack, hi.len, hi.pos, hi.lens, hi.nodes, hi.nodup, hi.whole, hi.tail,
      fun i' c' hh => by cases hh⟩, hl, fun hh => absurd rfl hh, fun _ => rfl, fun _ => ⟨fun j x hx =>
      ⟨x, hx, fun _ => rfl, continues_refl x, ?_⟩, fun j hj => Or.inl hj⟩⟩
    rw [inProgress_none]
    exact kept_le _ _ _

/-- Logs and selfdestructs. -/
theorem advance_quiet {cfg : Config} {s s' : TI} {fs : List Header} {st : Option (Interp × Ctx)}
    {os : List Nat} {n : Nat} {e : Event} {es : List Event} (hi : GInv cfg s fs st os n)
    (hl : Legal (fun _ _ _ _ => True) false fs none es) (hf : fs ≠ [])
    (ho : ∀ l, openedBy n os (e :: l) = openedBy n os l)
    (h : ∀ p stk x, os = p :: stk → s.arena[p]? = some x → ∃ y, s'.traceStack = s.traceStack ∧
      s'.arena = s.arena.set p y ∧ Continues x y ∧ y.children = x.children ∧ y.trace.steps = x.trace.steps) :
    Advances cfg s s' st os n e es := by
  obtain ⟨p, stk, x, hos, hx⟩ := top_exists hi hf
  obtain ⟨y, h1, h2, h3, h4, h5⟩ := h p stk x hos hx
  refine ⟨fs, none, os, n, hi.inner hos hx h1 h2 h3.depth h4 (fun i' c' hh => by cases hh), hl,
    fun hh => absurd rfl hh, ho, fun _ => ⟨?_, fun j hj => Or.inl hj⟩⟩
  rw [h2]
  have := goes_set (stk := stk) (o' := none) hx h3 (o := inProgress cfg st os)
    (by rw [show kept none p y = y.trace.steps from rfl, h5]; exact kept_le _ _ _)
    (by rw [hos]; exact inProgress_top ..) (Or.inl rfl)
  rw [← hos] at this
  rw [inProgress_none]
  exact this

theorem path_init {A : List Node} : ∀ (r : List Nat) {k e c : Nat}, Path A k e (r ++ [c]) → Path A k e r
  | [], _, _, _, ⟨_, ⟨x, hx, hd, _⟩, _⟩ => ⟨x, hx, hd⟩
  | _ :: r, _, _, _, ⟨hlt, hx, hp⟩ => ⟨hlt, hx, path_init r hp⟩

theorem spine_tail {A : List Node} {p : Nat} {os : List Nat} (h : Spine A (p :: os)) (hne : os ≠ []) :
    Spine A os := by
  obtain ⟨r, hr, hp⟩ := h
  rw [List.reverse_cons] at hr
  cases ho : os.reverse with
  | nil => exact absurd (List.reverse_eq_nil_iff.1 ho) hne
  | cons a r' =>
    rw [ho, List.cons_append, List.cons.injEq] at hr
    obtain ⟨ha, rfl⟩ := hr
    exact ⟨r', by rw [ha] at ho; exact ho, path_init r' hp⟩

/-- Leaving the innermost frame. -/
theorem advance_leave {cfg : Config} {s s' : TI} {h0 : Header} {fs : List Header} {st : Option (Interp × Ctx)}
    {os : List Nat} {n : Nat} {e : Event} {es : List Event} (hi : GInv cfg s (h0 :: fs) st os n)
    (hl : Legal (fun _ _ _ _ => True) false fs none es)
    (ho : ∀ l, openedBy n os (e :: l) = openedBy n os.tail l) {c : Ctx} {r : InterpreterResult}
    {a : Option Address} (h : s.fillTraceOnCallEnd c r a = .ok s') : Advances cfg s s' st os n e es := by
  obtain ⟨p, stk, x, hos, hx⟩ := top_exists hi (by simp)
  have hst : s.traceStack = p :: stk := hi.stack.trans hos
  simp only [TI.fillTraceOnCallEnd, hst, hx, Except.ok.injEq] at h
  have htr : ∀ t : CallTrace, (TI.fillTrace c p r a t).depth = t.depth ∧ (TI.fillTrace c p r a t).caller = t.caller ∧
      (TI.fillTrace c p r a t).kind = t.kind ∧ (TI.fillTrace c p r a t).value = t.value ∧
      (TI.fillTrace c p r a t).data = t.data ∧ (TI.fillTrace c p r a t).gasLimit = t.gasLimit ∧
      (TI.fillTrace c p r a t).maybePrecompile = t.maybePrecompile ∧
      (TI.fillTrace c p r a t).decoded = t.decoded ∧ (TI.fillTrace c p r a t).steps = t.steps := by
    intro t
    unfold TI.fillTrace
    cases a <;> exact ⟨rfl, rfl, rfl, rfl, rfl, rfl, rfl, rfl, rfl⟩
  obtain ⟨h1, h2, h3, h4, h5, h6, h7, h8, h9⟩ := htr x.trace
  have hc : Continues x { x with trace := TI.fillTrace c p r a x.trace } :=
    ⟨rfl, rfl, h1, h2, h3, h4, h5, h6, h7, h8, List.prefix_rfl, List.prefix_rfl, List.prefix_rfl⟩
  subst hos
  have hspine : stk ≠ [] → Spine s'.arena stk := by
    intro hne
    rw [← h]
    exact spine_keep (set_keep (y := { x with trace := TI.fillTrace c p r a x.trace }) hx h1 rfl) (hi.tail hne)
  refine ⟨fs, none, stk, n, ⟨by rw [← h], by rw [← h]; simpa using hi.len, hi.pos, by simpa using hi.lens,
    fun q hq => hi.nodes q (List.mem_cons_of_mem _ hq), (List.nodup_cons.1 hi.nodup).2, fun _ hne => hspine hne,
    fun hne => ?_, fun _ _ hh => by cases hh⟩, hl, fun hh => absurd rfl hh, fun l => ho l,
    fun _ => ⟨?_, fun j hj => Or.inl (List.mem_cons_of_mem _ hj)⟩⟩
  · cases stk with
    | nil => exact absurd rfl hne
    | cons q stk => exact spine_tail (hspine (by simp)) hne
  · rw [inProgress_none, ← h]
    exact goes_set hx hc (by show _ <+: (TI.fillTrace c p r a x.trace).steps; rw [h9]; exact kept_le _ _ _)
      (inProgress_top ..) (Or.inl rfl)

/-- Entering a frame. -/
theorem advance_enter {cfg : Config} {s s' : TI} {fs : List Header} {st : Option (Interp × Ctx)}
    {os : List Nat} {n : Nat} {hd : Header} {es : List Event} (hi : GInv cfg s fs st os n) (hw : hd.WF)
    (hp : ∀ h ∈ fs.head?, h.isPrecompile = false)
    (hl : Legal (fun _ _ _ _ => True) false (hd :: fs) none es)
    (ho : ∀ l, openedBy n os (hd.enter fs.length :: l) =
      if os.isEmpty then openedBy n [0] l else openedBy (n + 1) (n :: os) l)
    (hs0 : startsTx (hd.enter fs.length) = false → fs ≠ [])
    (h : s.hook cfg (hd.enter fs.length) = .ok s') : Advances cfg s s' st os n (hd.enter fs.length) es := by
  cases os with
  | nil =>
    have hfs : fs = [] := by
      have := hi.lens
      simpa [eq_comm] using this
    subst hfs
    rw [hook_enter (pval := none) (by rw [hi.stack])] at h
    have hdep : (enterTrace cfg none 0 hd).depth = 0 := by cases hd <;> rfl
    have hne : s.arena ≠ [] := by
      intro h0
      have := hi.len; rw [h0] at this; have := hi.pos; simp at *; omega
    obtain ⟨x, rest, ha⟩ := List.exists_cons_of_ne_nil hne
    simp only [List.length_nil, pushTrace, pushTraceLoop, hdep, if_true, ha, Except.ok.injEq] at h
    refine ⟨[hd], none, [0], n, ⟨by rw [← h]; simp [hi.stack], ?_, hi.pos, rfl, ?_, by simp, fun _ _ => ?_, fun hh => absurd rfl hh,
      fun _ _ hh => by cases hh⟩, hl, fun hh => absurd rfl hh, fun l => by rw [ho]; rfl, fun hh => absurd rfl (hs0 hh)⟩
    · rw [← h, ← hi.len, ha]; rfl
    · intro q hq
      simp only [List.mem_singleton] at hq
      subst hq
      exact hi.pos
    · rw [← h]
      exact ⟨[], rfl, _, rfl, hdep⟩
  | cons p stk =>
    obtain ⟨r, hr, hpath⟩ := hi.whole hp (by simp)
    have hlast := lastOf_of_reverse hr
    have hlen : r.length + 1 = fs.length := by
      have := congrArg List.length hr
      have h2 := hi.lens
      simp at this h2
      omega
    have hplt : p < s.arena.length := by rw [hi.len]; exact hi.nodes p List.mem_cons_self
    obtain ⟨x, hx⟩ : ∃ x, s.arena[p]? = some x := ⟨_, List.getElem?_eq_getElem hplt⟩
    rw [hook_enter (pval := some x.trace.value) (by rw [hi.stack]; exact ⟨x, hx, rfl⟩)] at h
    have hdep : (enterTrace cfg (some x.trace.value) fs.length hd).depth = fs.length := by cases hd <;> rfl
    have hbound := (hpath.len r).1
    obtain ⟨x', hx', hpush⟩ := pushTraceLoop_path (t := enterTrace cfg (some x.trace.value) fs.length hd)
      (kind := if excluded (enterTrace cfg (some x.trace.value) fs.length hd) then .pushOnly else .pushAndAttachToParent)
      (fuel := s.arena.length + 1) r hpath (by rw [hdep]; omega) (by omega)
    rw [hlast, hx] at hx'
    cases hx'
    rw [pushTrace, hpush] at h
    simp only [Except.ok.injEq, hlast] at h
    generalize hy : (match (if excluded (enterTrace cfg (some x.trace.value) fs.length hd) = true then
        PushTraceKind.pushOnly else PushTraceKind.pushAndAttachToParent) with
      | .pushAndAttachToParent => x.attach s.arena.length
      | .pushOnly => x) = y
    have hyc : Continues x y ∧ y.trace = x.trace := by
      rw [← hy]
      split
      · exact ⟨⟨rfl, rfl, rfl, rfl, rfl, rfl, rfl, rfl, rfl, rfl, List.prefix_append _ _, List.prefix_rfl,
          List.prefix_append _ _⟩, rfl⟩
      · exact ⟨continues_refl x, rfl⟩
    have harena : s'.arena = s.arena.set p y ++ [⟨some p, [], s.arena.length,
        enterTrace cfg (some x.trace.value) fs.length hd, [], []⟩] := by
      rw [← h, ← hy]
      rfl
    have hget : ∀ i, i < s.arena.length → i ≠ p → s'.arena[i]? = s.arena[i]? := by
      intro i hil hne
      rw [harena, List.getElem?_append_left (by simpa using hil), List.getElem?_set_ne (Ne.symm hne)]
    have hgetp : s'.arena[p]? = some y := by
      rw [harena, List.getElem?_append_left (by simpa using hplt), List.getElem?_set_self hplt]
    have hgetn : s'.arena[n]? = some ⟨some p, [], s.arena.length,
        enterTrace cfg (some x.trace.value) fs.length hd, [], []⟩ := by
      rw [harena, ← hi.len, List.getElem?_append_right (by simp)]
      simp
    have hxd : x.trace.depth = r.length := by
      obtain ⟨z, hz, hzd⟩ := hpath.last r
      rw [hlast, hx] at hz
      cases hz
      omega
    refine ⟨hd :: fs, none, n :: p :: stk, n + 1, ⟨?_, ?_, by omega, by simpa using hi.lens, ?_, ?_,
      fun hpre _ => ?_, fun _ => ?_, fun _ _ hh => by cases hh⟩, hl, fun hh => absurd rfl hh, fun l => by rw [ho]; rfl,
      fun _ => ⟨?_, ?_⟩⟩
    · rw [← h]
      simp only [hi.stack, hi.len]
    · rw [harena]; simp [hi.len]
    · intro q hq
      rcases List.mem_cons.1 hq with rfl | hq
      · omega
      · have := hi.nodes q hq; omega
    · refine List.nodup_cons.2 ⟨fun hm => ?_, hi.nodup⟩
      have := hi.nodes n hm; omega
    · refine ⟨r ++ [n], by rw [List.reverse_cons, hr]; rfl, hpath.snoc r ?_ (by rw [hlast, ← hi.len]; exact hplt) ?_ ?_⟩
      · intro i hil
        rw [hlast] at hil
        exact hget i (by omega) (by omega)
      · rw [hlast]
        refine ⟨y, hgetp, by rw [hyc.2, hxd]; omega, ?_⟩
        rw [← hy]
        have hex : excluded (enterTrace cfg (some x.trace.value) fs.length hd) = false := by
          cases he : excluded (enterTrace cfg (some x.trace.value) fs.length hd) with
          | false => rfl
          | true => have := hpre hd (by simp); rw [excluded_precompile hw he] at this; cases this
        simp [hex, Node.attach, hi.len]
      · exact ⟨_, hgetn, by show (enterTrace _ _ _ _).depth = _; rw [hdep]; omega⟩
    · refine ⟨r, hr, hpath.congr r ?_ ?_⟩
      · intro i hil
        rw [hlast] at hil
        exact hget i (by omega) (by omega)
      · intro z hz
        rw [hlast, hx] at hz
        cases hz
        rw [hlast]
        exact ⟨y, hgetp, by rw [hyc.2]⟩
    · intro i z hz
      have hil := (List.getElem?_eq_some_iff.1 hz).1
      by_cases hip : i = p
      · subst hip
        rw [hx] at hz
        cases hz
        refine ⟨y, hgetp, fun hn => absurd List.mem_cons_self hn, hyc.1, ?_⟩
        rw [inProgress_none, show kept none i y = y.trace.steps from rfl, hyc.2]
        exact kept_le _ _ _
      · refine ⟨z, by rw [hget i hil hip, hz], fun _ => rfl, continues_refl z, ?_⟩
        rw [inProgress_none]
        exact kept_le _ _ _
    · intro i hm
      rcases List.mem_cons.1 hm with rfl | hm
      · exact Or.inr (Nat.le_refl _)
      · exact Or.inl hm

/-- Every hook call. -/
theorem advance {cfg : Config} {s s' : TI} {fs : List Header} {st : Option (Interp × Ctx)}
    {os : List Nat} {n : Nat} {e : Event} {es : List Event} (hi : GInv cfg s fs st os n)
    (hl : Legal (fun _ _ _ _ => True) false fs st (e :: es)) (h : s.hook cfg e = .ok s') :
    Advances cfg s s' st os n e es := by
  cases e with
  | step i c => exact advance_step hi hl h
  | stepEnd i c => exact advance_stepEnd hi hl h
  | log c l =>
    obtain ⟨hf, _, hl⟩ := hl
    refine advance_quiet hi hl hf (fun _ => rfl) fun p stk x hos hx => ?_
    simp only [TI.hook] at h
    split at h
    · obtain ⟨p', stk', x', h1, h2, h3⟩ := withLast_inv h
      rw [hi.stack, hos, List.cons.injEq] at h1
      obtain ⟨rfl, rfl⟩ := h1
      rw [hx] at h2
      cases h2
      subst h3
      exact ⟨_, rfl, rfl, ⟨rfl, rfl, rfl, rfl, rfl, rfl, rfl, rfl, rfl, rfl, List.prefix_rfl,
        List.prefix_append _ _, List.prefix_append _ _⟩, rfl, rfl⟩
    · cases h
      exact ⟨x, rfl, by rw [set_self hx], continues_refl x, rfl, rfl⟩
  | selfdestruct a b v =>
    obtain ⟨hf, hl⟩ := hl
    refine advance_quiet hi hl hf (fun _ => rfl) fun p stk x hos hx => ?_
    simp only [TI.hook] at h
    obtain ⟨p', stk', x', h1, h2, h3⟩ := withLast_inv h
    rw [hi.stack, hos, List.cons.injEq] at h1
    obtain ⟨rfl, rfl⟩ := h1
    rw [hx] at h2
    cases h2
    subst h3
    exact ⟨_, rfl, rfl, ⟨rfl, rfl, rfl, rfl, rfl, rfl, rfl, rfl, rfl, rfl, List.prefix_rfl,
      List.prefix_rfl, List.prefix_rfl⟩, rfl, rfl⟩
  | call c inp =>
    obtain ⟨hd, hw, hp, hl⟩ := hl
    have he : Event.call c inp = (Header.call c inp).enter fs.length := by rw [Header.enter, at_depth hd]
    rw [he] at h ⊢
    refine advance_enter hi hw hp hl (fun l => by rw [Header.enter, openedBy]) (fun hh hf => ?_) h
    subst hf
    rw [← he] at hh
    simp [startsTx, hd] at hh
  | create c inp =>
    obtain ⟨hd, hp, hl⟩ := hl
    have he : Event.create c inp = (Header.create c inp).enter fs.length := by rw [Header.enter, at_depth hd]
    rw [he] at h ⊢
    refine advance_enter hi trivial hp hl (fun l => by rw [Header.enter, openedBy]) (fun hh hf => ?_) h
    subst hf
    rw [← he] at hh
    simp [startsTx, hd] at hh
  | callEnd c inp r =>
    cases fs with
    | nil => exact hl.elim
    | cons f fs =>
      cases f with
      | create _ _ => exact hl.elim
      | call c0 inp0 => exact advance_leave hi hl.2.2 (fun _ => rfl) h
  | createEnd c inp r a =>
    cases fs with
    | nil => exact hl.elim
    | cons f fs =>
      cases f with
      | call _ _ => exact hl.elim
      | create c0 inp0 => exact advance_leave hi hl.2.2 (fun _ => rfl) h

/-- The hook calls `es`, which `more` follow. -/
theorem advance_run {cfg : Config} {more : List Event} : ∀ (es : List Event) {s s' : TI} {fs : List Header}
    {st : Option (Interp × Ctx)} {os : List Nat} {n : Nat}, GInv cfg s fs st os n →
    Legal (fun _ _ _ _ => True) false fs st (es ++ more) → TI.run cfg s es = .ok s' →
    ∃ fs' st' os' n', GInv cfg s' fs' st' os' n' ∧ Legal (fun _ _ _ _ => True) false fs' st' more ∧
      (es ≠ [] → st' ≠ none → endsInStep es = true) ∧ (es = [] → st' = st) ∧ os' = openedBy n os es ∧
      ((∀ e ∈ es, startsTx e = false) →
        Goes (inProgress cfg st os) (inProgress cfg st' os') os s.arena s'.arena)
  | [], s, s', fs, st, os, n, hi, hl, h => by
    cases h
    exact ⟨fs, st, os, n, hi, hl, fun hh => absurd rfl hh, fun _ => rfl, rfl, fun _ i x hx =>
      ⟨x, hx, fun _ => rfl, continues_refl x, List.prefix_rfl⟩⟩
  | e :: es, s, s', fs, st, os, n, hi, hl, h => by
    rw [TI.run] at h
    split at h
    · cases h
    · rename_i s1 h1
      obtain ⟨fs1, st1, os1, n1, hi1, hl1, hs1, ho1, hg1⟩ := advance hi hl h1
      obtain ⟨fs2, st2, os2, n2, hi2, hl2, hs2, he2, ho2, hg2⟩ := advance_run es hi1 hl1 h
      refine ⟨fs2, st2, os2, n2, hi2, hl2, fun _ hne => ?_, fun hh => (by cases hh), by rw [ho1, ho2], fun hno => ?_⟩
      · cases es with
        | nil =>
          rw [he2 rfl] at hne
          obtain ⟨i, c, rfl⟩ := hs1 hne
          rfl
        | cons e' es =>
          have := hs2 (by simp) hne
          simpa [endsInStep] using this
      · obtain ⟨g1, hos⟩ := hg1 (hno e List.mem_cons_self)
        refine goes_trans g1 (hg2 fun e' he' => hno e' (List.mem_cons_of_mem _ he')) fun i hm => ?_
        rw [hi.len]
        exact hos i hm

theorem ginv_new (cfg : Config) : GInv cfg TI.new [] none [] 1 :=
  ⟨rfl, rfl, by omega, rfl, by simp, by simp, fun _ h => absurd rfl h, fun h => absurd rfl h, fun _ _ h => by cases h⟩

/-- **C122.** Let a new inspector hear the hook calls `es` and then `more`, together the beginning of any history
an EVM can produce, and let no further transaction begin among `more`. Then the recording after `es` is kept by the
one after `more`: every node is still at its position; a node whose frame had ended is the same in every respect;
a node of a frame that was open continues, with the same identity, place, caller, value, input and gas limit, and
with its children, its logs, its order of events and its steps extended at their ends only. The last step of the
innermost open frame is excepted if `es` ends within its instruction. -/
theorem C122_grows (cfg : Config) (es more : List Event) (s s' : TI)
    (hl : Legal (fun _ _ _ _ => True) false [] none (es ++ more))
    (h : TI.run cfg TI.new es = .ok s) (h' : TI.run cfg TI.new (es ++ more) = .ok s')
    (hno : ∀ e ∈ more, startsTx e = false) (i : Nat) (x : Node) (hx : s.arena[i]? = some x) :
    ∃ y, s'.arena[i]? = some y ∧ (i ∉ opened es → y = x) ∧ Continues x y ∧
      x.trace.steps.dropLast <+: y.trace.steps ∧
      (endsInStep es = false ∨ (opened es).head? ≠ some i → x.trace.steps <+: y.trace.steps) := by
  obtain ⟨fs1, st1, os1, n1, hi1, hl1, hs1, he1, ho1, -⟩ := advance_run es (ginv_new cfg) hl h
  rw [Rec.run_append, h] at h'
  obtain ⟨fs2, st2, os2, n2, -, -, -, -, -, hg⟩ :=
    advance_run more (more := []) hi1 (by rw [List.append_nil]; exact hl1) h'
  obtain ⟨y, hy, h1, h2, h3⟩ := hg hno i x hx
  have h4 : kept (inProgress cfg st1 os1) i x <+: y.trace.steps := h3.trans (kept_le _ _ _)
  refine ⟨y, hy, fun hn => h1 (by rw [ho1]; exact hn), h2, ?_, fun hc => ?_⟩
  · unfold kept at h4
    split at h4
    · exact h4
    · exact (List.dropLast_prefix _).trans h4
  · unfold kept at h4
    rw [if_neg] at h4
    · exact h4
    · intro hp
      unfold inProgress at hp
      split at hp
      · rename_i i0 c0 p stk
        split at hp
        · cases hp
          rcases hc with hc | hc
          · cases hes : es with
            | nil => subst hes; have := he1 rfl; cases this
            | cons e es' => rw [hs1 (by rw [hes]; simp) (by simp)] at hc; cases hc
          · exact hc (by rw [opened, ← ho1]; rfl)
        · cases hp
      · cases hp

theorem anySteps : ∀ b : Body, b.AllSteps fun _ _ _ _ => True
  | .nil => trivial
  | .act (.step _ _ _ _) b => ⟨trivial, anySteps b⟩
  | .act (.aborted _ _) b => anySteps b
  | .act (.log _ _) b => anySteps b
  | .act (.selfdestruct _ _ _) b => anySteps b
  | .sub _ b _ rest => ⟨anySteps b, anySteps rest⟩

/-- Any two moments of the example, for every configuration: what C122 speaks about exists. After the first 16 hook
calls the frames 1 and 2 have ended and the root is open, so from then on their nodes do not change; after 11 all
three are open, and a step of the frame 2 is in progress. -/
example (cfg : Config) (n : Nat) (hn : 1 ≤ n) :
    Legal (fun _ _ _ _ => True) false [] none (Example.tx.events.take n ++ Example.tx.events.drop n) ∧
    (∃ s, TI.run cfg TI.new (Example.tx.events.take n) = .ok s) ∧
    (∃ s, TI.run cfg TI.new (Example.tx.events.take n ++ Example.tx.events.drop n) = .ok s) ∧
    ∀ e ∈ Example.tx.events.drop n, startsTx e = false := by
  have hall : ((Example.tx.events.drop 1).all fun e => !startsTx e) = true := by decide
  have hl : ∀ (P : Interp → Ctx → Interp → Ctx → Prop), (∀ i c i' c' d, P i c i' c' → P i (c.at d) i' (c'.at d)) →
      Example.tx.body.AllSteps P → ∀ k, Legal P false [] none (Example.tx.events.take k) := fun P hP hs k =>
    (C01_histories P hP _).1.2 ⟨[Example.tx], by simpa using ⟨Example.wf, hs⟩, by simpa using List.take_prefix k _⟩
  have hsafe : ∀ k, ∃ s, TI.run cfg TI.new (Example.tx.events.take k) = .ok s := fun k =>
    C01_no_panic_hooks cfg _ (hl (StepSafe cfg) (fun _ _ _ _ _ h => h) (Example.safe cfg) k)
  have htrue : Legal (fun _ _ _ _ => True) false [] none Example.tx.events := by
    have := hl (fun _ _ _ _ => True) (fun _ _ _ _ _ h => h) (anySteps _) Example.tx.events.length
    rwa [List.take_length] at this
  refine ⟨by rw [List.take_append_drop]; exact htrue, hsafe n, ?_, fun e he => ?_⟩
  · rw [List.take_append_drop]
    have := hsafe Example.tx.events.length
    rwa [List.take_length] at this
  · have hm : e ∈ Example.tx.events.drop 1 := by
      obtain ⟨m, rfl⟩ : ∃ m, n = 1 + m := ⟨n - 1, by omega⟩
      rw [← List.drop_drop] at he
      exact List.mem_of_mem_drop he
    simpa using List.all_eq_true.1 hall e hm

example : opened (Example.tx.events.take 16) = [0] ∧ opened (Example.tx.events.take 11) = [2, 1, 0] ∧
    endsInStep (Example.tx.events.take 11) = true ∧ endsInStep (Example.tx.events.take 12) = false ∧
    opened Example.tx.events = [] := by decide

end Verif.Props
