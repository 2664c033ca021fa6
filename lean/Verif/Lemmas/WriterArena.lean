import Verif.Lemmas.Writer
import Verif.Lemmas.Items
import Verif.Props.Links
/-! Helper lemmas: the document of a recorded arena. -/
namespace Verif
open Spec Rec Props
namespace Writer

/-! ### Node invariants of the hooks -/

/-- The hook opens a root frame. -/
def opensRoot : Event → Bool
  | .call c _ => decide (c.depth = 0)
  | .create c _ => decide (c.depth = 0)
  | _ => false

/-- A property of nodes that every hook preserves. -/
structure Kept (cfg : Config) (P : Node → Prop) : Prop where
  step : ∀ i c x, P x → P (TI.startStepNode cfg i c x)
  fill : ∀ i c (x : Node) k st st', P x → x.trace.steps[k]? = some st →
    TI.fillStep cfg i c st = .ok st' →
    P { x with trace := { x.trace with steps := x.trace.steps.set k st' } }
  log : ∀ l x, P x → P (TI.logNode l x)
  destroy : ∀ a t v x, P x → P (TI.selfdestructNode a t v x)
  leave : ∀ c n r a (x : Node), P x → P { x with trace := TI.fillTrace c n r a x.trace }
  attach : ∀ (x : Node) n, P x → P (x.attach n)
  fresh : ∀ p n (t : CallTrace), t.steps = [] → t.decoded = {} →
    P { parent := p, idx := n, trace := t }

theorem all_set {P : Node → Prop} {A : List Node} {i : Nat} {y : Node} (h : ∀ x ∈ A, P x) (hy : P y) :
    ∀ x ∈ A.set i y, P x := by
  intro x hx
  rcases List.mem_or_eq_of_mem_set hx with h1 | h1
  · exact h x h1
  · rw [h1]; exact hy

theorem startTraceOnCall_kept {cfg : Config} {P : Node → Prop} (hP : Kept cfg P) {s s' : TI} {c : Ctx}
    {a : Address} {i : Bytes} {v : U256} {k : CallKind} {cl : Address} {g : Nat} {mp : Option Bool}
    (h : ∀ x ∈ s.arena, P x) (hroot : c.depth = 0 → s.arena = Arena.default)
    (hr : s.startTraceOnCall c a i v k cl g mp = .ok s') : ∀ x ∈ s'.arena, P x := by
  simp only [TI.startTraceOnCall] at hr
  split at hr
  · simp at hr
  · rename_i A' id hp
    simp only [Except.ok.injEq] at hr
    rw [← hr]
    simp only
    simp only [pushTrace] at hp
    by_cases hd : c.depth = 0
    · rw [hroot hd] at hp
      simp only [Arena.default, pushTraceLoop, hd, if_true, Except.ok.injEq, Prod.mk.injEq] at hp
      rw [← hp.1]
      intro x hx
      simp only [List.mem_singleton] at hx
      rw [hx]
      exact hP.fresh none 0 _ rfl rfl
    · obtain ⟨e, x, hx, _, _, hA⟩ := pushTraceLoop_ok _ _ _ _ _ (by exact hd) hp
      rw [hA]
      intro y hy
      rw [List.mem_append] at hy
      rcases hy with hy | hy
      · refine all_set h ?_ y hy
        unfold attachBy
        split
        · exact hP.attach x _ (h x (List.mem_of_getElem? hx))
        · exact h x (List.mem_of_getElem? hx)
      · simp only [List.mem_singleton] at hy
        rw [hy]
        exact hP.fresh _ _ _ rfl rfl

theorem hook_kept {cfg : Config} {P : Node → Prop} (hP : Kept cfg P) {s s' : TI} {e : Event}
    (h : ∀ x ∈ s.arena, P x) (hroot : opensRoot e = true → s.arena = Arena.default)
    (hr : TI.hook cfg s e = .ok s') : ∀ x ∈ s'.arena, P x := by
  have hmem : ∀ {i : Nat} {x : Node}, s.arena[i]? = some x → P x :=
    fun hx => h _ (List.mem_of_getElem? hx)
  have hlast : ∀ {f : Nat → Node → Node}, (∀ i x, P x → P (f i x)) →
      s.withLastTrace f = .ok s' → ∀ x ∈ s'.arena, P x := by
    intro f hf hw
    simp only [TI.withLastTrace] at hw
    split at hw
    · simp at hw
    · split at hw
      · simp at hw
      · rename_i x hx
        simp only [Except.ok.injEq] at hw
        rw [← hw]; exact all_set h (hf _ _ (hmem hx))
  have hend : ∀ {c : Ctx} {r : InterpreterResult} {a : Option Address},
      s.fillTraceOnCallEnd c r a = .ok s' → ∀ x ∈ s'.arena, P x := by
    intro c r a hw
    simp only [TI.fillTraceOnCallEnd] at hw
    split at hw
    · simp at hw
    · split at hw
      · simp at hw
      · rename_i x hx
        simp only [Except.ok.injEq] at hw
        rw [← hw]; exact all_set h (hP.leave _ _ _ _ _ (hmem hx))
  cases e with
  | step i c =>
    simp only [TI.hook] at hr
    split at hr
    · simp only [TI.startStep] at hr
      split at hr
      · simp at hr
      · split at hr
        · simp at hr
        · rename_i x hx
          split at hr
          · simp only [Except.ok.injEq] at hr; rw [← hr]; exact h
          · simp only [Except.ok.injEq] at hr; rw [← hr]; exact all_set h (hP.step _ _ _ (hmem hx))
    · simp only [Except.ok.injEq] at hr; rw [← hr]; exact h
  | stepEnd i c =>
    simp only [TI.hook] at hr
    split at hr
    · simp only [TI.fillStepOnStepEnd] at hr
      split at hr
      · simp at hr
      · split at hr
        · simp only [Except.ok.injEq] at hr; rw [← hr]; exact h
        · split at hr
          · simp at hr
          · rename_i x hx
            split at hr
            · simp at hr
            · rename_i st hst
              split at hr
              · simp at hr
              · rename_i st' hfill
                simp only [Except.ok.injEq] at hr; rw [← hr]
                exact all_set h (hP.fill _ _ _ _ _ _ (hmem hx) hst hfill)
    · simp only [Except.ok.injEq] at hr; rw [← hr]; exact h
  | log c l =>
    simp only [TI.hook] at hr
    split at hr
    · exact hlast (f := fun _ n => TI.logNode l n) (fun _ _ => hP.log _ _) hr
    · simp only [Except.ok.injEq] at hr; rw [← hr]; exact h
  | call c inp =>
    simp only [TI.hook, TI.call] at hr
    split at hr
    · simp at hr
    · exact startTraceOnCall_kept hP h (fun hd => hroot (by simp [opensRoot, hd])) hr
  | callEnd c inp r => exact hend hr
  | create c inp => exact startTraceOnCall_kept hP h (fun hd => hroot (by simp [opensRoot, hd])) hr
  | createEnd c inp r a => exact hend hr
  | selfdestruct a t v =>
    exact hlast (f := fun _ n => TI.selfdestructNode a t v n) (fun _ _ => hP.destroy _ _ _ _) hr

/-- Every node has a property that a new node has and every hook preserves, as long as only the first
hook opens a root frame. -/
theorem run_kept {cfg : Config} {P : Node → Prop} (hP : Kept cfg P) {es : List Event} {s : TI}
    (hes : es.tail.all (fun e => !opensRoot e) = true) (hr : TI.run cfg TI.new es = .ok s) :
    ∀ x ∈ s.arena, P x := by
  have hrest : ∀ (es : List Event) (s s' : TI), (∀ x ∈ s.arena, P x) →
      es.all (fun e => !opensRoot e) = true → TI.run cfg s es = .ok s' → ∀ x ∈ s'.arena, P x := by
    intro es
    induction es with
    | nil => intro s s' h _ hr; simp only [TI.run, Except.ok.injEq] at hr; rw [← hr]; exact h
    | cons e es ih =>
      intro s s' h hes hr
      simp only [List.all_cons, Bool.and_eq_true] at hes
      simp only [TI.run] at hr
      split at hr
      · simp at hr
      · rename_i s1 h1
        refine ih s1 s' (hook_kept hP h ?_ h1) hes.2 hr
        intro ho; rw [ho] at hes; simp at hes
  have hnew : ∀ x ∈ TI.new.arena, P x := by
    intro x hx
    simp only [TI.new, Arena.default, List.mem_singleton] at hx
    rw [hx]; exact hP.fresh none 0 {} rfl rfl
  cases es with
  | nil => simp only [TI.run, Except.ok.injEq] at hr; rw [← hr]; exact hnew
  | cons e es =>
    simp only [TI.run] at hr
    split at hr
    · simp at hr
    · rename_i s1 h1
      exact hrest es s1 s (hook_kept hP hnew (fun _ => rfl) h1) hes hr

/-! ### The ordering list refers to every step, log and sub-call once -/

def stepIdx : TraceMemberOrder → Option Nat | .step i => some i | _ => none
def logIdx : TraceMemberOrder → Option Nat | .log i => some i | _ => none
def callIdx : TraceMemberOrder → Option Nat | .call i => some i | _ => none

/-- The ordering list of a node lists its steps, its logs and its children, each from the first to the
last. -/
structure Canon (x : Node) : Prop where
  steps : x.ordering.filterMap stepIdx = List.range x.trace.steps.length
  logs : x.ordering.filterMap logIdx = List.range x.logs.length
  calls : x.ordering.filterMap callIdx = List.range x.children.length

theorem Canon.congr {x y : Node} (h : Canon x) (h1 : y.ordering = x.ordering)
    (h2 : y.trace.steps.length = x.trace.steps.length) (h3 : y.logs.length = x.logs.length)
    (h4 : y.children.length = x.children.length) : Canon y :=
  ⟨by rw [h1, h2]; exact h.steps, by rw [h1, h3]; exact h.logs, by rw [h1, h4]; exact h.calls⟩

theorem fillTrace_steps (c : Ctx) (n : Nat) (r : InterpreterResult) (a : Option Address) (t : CallTrace) :
    (TI.fillTrace c n r a t).steps = t.steps ∧ (TI.fillTrace c n r a t).decoded = t.decoded := by
  simp only [TI.fillTrace]; split <;> exact ⟨rfl, rfl⟩

theorem canon_kept (cfg : Config) : Kept cfg Canon where
  step i c x h := by
    refine ⟨?_, ?_, ?_⟩ <;>
      simp [TI.startStepNode, TI.pushStep, h.steps, h.logs, h.calls, stepIdx, logIdx, callIdx,
        List.range_succ]
  fill i c x k st st' h _ _ := h.congr rfl (by simp) rfl rfl
  log l x h := by
    refine ⟨?_, ?_, ?_⟩ <;>
      simp [TI.logNode, h.steps, h.logs, h.calls, stepIdx, logIdx, callIdx, List.range_succ]
  destroy a t v x h := h.congr rfl rfl rfl rfl
  leave c n r a x h := h.congr rfl (by simp [fillTrace_steps]) rfl rfl
  attach x n h := by
    refine ⟨?_, ?_, ?_⟩ <;>
      simp [Node.attach, h.steps, h.logs, h.calls, stepIdx, logIdx, callIdx, List.range_succ]
  fresh p n t ht _ := ⟨by simp [ht], rfl, rfl⟩

/-- No decoded information. -/
def Plain (x : Node) : Prop := ∀ s ∈ x.trace.steps, s.decoded = none

theorem fillStep_decoded {cfg : Config} {i : Interp} {c : Ctx} {st st' : CallTraceStep}
    (h : TI.fillStep cfg i c st = .ok st') : st'.decoded = st.decoded := by
  simp only [TI.fillStep] at h
  split at h
  · simp at h
  · split at h
    · simp at h
    · simp only [Except.ok.injEq] at h; rw [← h]

theorem plain_kept (cfg : Config) : Kept cfg Plain where
  step i c x h := by
    intro s hs
    simp only [TI.startStepNode, TI.pushStep, List.mem_append, List.mem_singleton] at hs
    rcases hs with hs | hs
    · exact h s hs
    · rw [hs]; rfl
  fill i c x k st st' h hst hf := by
    intro s hs
    rcases List.mem_or_eq_of_mem_set hs with h1 | h1
    · exact h s h1
    · rw [h1, fillStep_decoded hf]; exact h st (List.mem_of_getElem? hst)
  log l x h := h
  destroy a t v x h := h
  leave c n r a x h := by
    intro s hs
    rw [show ({ x with trace := TI.fillTrace c n r a x.trace } : Node).trace.steps = x.trace.steps from
      (fillTrace_steps c n r a x.trace).1] at hs
    exact h s hs
  attach x n h := h
  fresh p n t ht _ := by intro s hs; simp [ht] at hs

/-! ### The document exists -/

/-- Arenas in which sub-calls can be followed. -/
structure Walkable (nodes : List Node) : Prop where
  canon : ∀ x ∈ nodes, Canon x
  child : ∀ (i : Nat) (x : Node), nodes[i]? = some x → ∀ c ∈ x.children, i < c ∧ c < nodes.length

theorem range'_head {a n : Nat} {r : List Nat} {i : Nat} (h : i :: r = List.range' a n) :
    i = a ∧ ∃ m, n = m + 1 ∧ r = List.range' (a + 1) m := by
  cases n with
  | zero => simp at h
  | succ m =>
    rw [List.range'_succ] at h
    simp only [List.cons.injEq] at h
    exact ⟨h.1, m, rfl, h.2⟩

theorem exists_items {nodes : List Node} {idx : Nat} {x : Node}
    (hsub : ∀ c ∈ x.children, idx < c ∧ ∃ d, Unfolds nodes c d) (os : List TraceMemberOrder) :
    ∀ n, os.filterMap stepIdx = List.range' n (x.trace.steps.length - n) → n ≤ x.trace.steps.length →
      (∀ i ∈ os.filterMap logIdx, i < x.logs.length) →
      (∀ i ∈ os.filterMap callIdx, i < x.children.length) →
      ∃ items, UnfoldsItems nodes idx x os n items := by
  induction os with
  | nil => intro n _ _ _ _; exact ⟨.nil, by simp [UnfoldsItems]⟩
  | cons o os ih =>
    intro n hs hn hl hc
    cases o with
    | log i =>
      obtain ⟨rest, hrest⟩ := ih n hs hn
        (fun j hj => hl j (by simp only [List.filterMap_cons, logIdx]; exact List.mem_cons_of_mem _ hj))
        hc
      have hlt := hl i (by simp [logIdx])
      exact ⟨.log (x.logs[i]) rest, by
        simp only [UnfoldsItems]
        exact ⟨i, os, rfl, List.getElem?_eq_getElem hlt, hrest⟩⟩
    | call i =>
      obtain ⟨rest, hrest⟩ := ih n hs hn
        hl
        (fun j hj => hc j (by simp only [List.filterMap_cons, callIdx]; exact List.mem_cons_of_mem _ hj))
      have hlt := hc i (by simp [callIdx])
      obtain ⟨h1, d, hd⟩ := hsub (x.children[i]) (List.getElem_mem hlt)
      exact ⟨.sub d rest, by
        simp only [UnfoldsItems]
        exact ⟨i, x.children[i], os, rfl, List.getElem?_eq_getElem hlt, h1, hd, hrest⟩⟩
    | step i =>
      simp only [List.filterMap_cons, stepIdx] at hs
      obtain ⟨rfl, m, hm, hr⟩ := range'_head hs
      obtain ⟨rest, hrest⟩ := ih (i + 1) (by rw [hr]; congr 1; omega) (by omega)
        hl hc
      have hlt : i < x.trace.steps.length := by omega
      exact ⟨.step (x.trace.steps[i]) rest, by
        simp only [UnfoldsItems]
        exact ⟨os, rfl, List.getElem?_eq_getElem hlt, hrest⟩⟩

theorem exists_doc {nodes : List Node} (hw : Walkable nodes) : ∀ (m idx : Nat), idx < nodes.length →
    nodes.length - idx ≤ m → ∃ d, Unfolds nodes idx d := by
  intro m
  induction m with
  | zero => intro idx h1 h2; omega
  | succ m ih =>
    intro idx h1 h2
    have hx : nodes[idx]? = some nodes[idx] := List.getElem?_eq_getElem h1
    have hcan := hw.canon _ (List.getElem_mem h1)
    obtain ⟨items, hi⟩ := exists_items (nodes := nodes) (idx := idx) (x := nodes[idx])
      (fun c hc => ⟨(hw.child idx _ hx c hc).1,
        ih c (hw.child idx _ hx c hc).2 (by have := (hw.child idx _ hx c hc).1; omega)⟩)
      nodes[idx].ordering 0
      (by rw [hcan.steps, List.range_eq_range']; rfl) (Nat.zero_le _)
      (by rw [hcan.logs]; simp) (by rw [hcan.calls]; simp)
    exact ⟨.mk nodes[idx] items, by simp only [Unfolds]; exact ⟨hx, hi⟩⟩

/-! ### Decorated arenas -/

theorem Decorates.get {nodes arena : List Node} (h : Decorates nodes arena) {k : Nat} {y : Node}
    (hy : nodes[k]? = some y) : ∃ x, arena[k]? = some x ∧ stripNode y = stripNode x := by
  have hk : (nodes.map stripNode)[k]? = (arena.map stripNode)[k]? := by rw [h]
  rw [List.getElem?_map, List.getElem?_map, hy] at hk
  cases ha : arena[k]? with
  | none => rw [ha] at hk; simp at hk
  | some x => rw [ha] at hk; exact ⟨x, rfl, by simpa using hk⟩

theorem Decorates.symm {nodes arena : List Node} (h : Decorates nodes arena) : Decorates arena nodes :=
  Eq.symm h

theorem Decorates.length {nodes arena : List Node} (h : Decorates nodes arena) :
    nodes.length = arena.length := by simpa using congrArg List.length h

/-- What decorations leave alone. -/
theorem strip_eq {x y : Node} (h : stripNode y = stripNode x) :
    y.ordering = x.ordering ∧ y.children = x.children ∧ y.trace.steps.length = x.trace.steps.length ∧
    y.logs.length = x.logs.length ∧ readFrame y = readFrame x ∧
    (∀ o, resolve y o = resolve x o) ∧ y.trace.depth = x.trace.depth := by
  have h1 : y.trace.steps.map (fun s => ({ s with decoded := none } : CallTraceStep)) =
      x.trace.steps.map (fun s => ({ s with decoded := none } : CallTraceStep)) :=
    congrArg (fun n => n.trace.steps) h
  have h2 : y.logs.map (fun l => ({ l with decoded := {} } : CallLog)) =
      x.logs.map (fun l => ({ l with decoded := {} } : CallLog)) := congrArg (fun n => n.logs) h
  refine ⟨congrArg (fun n => n.ordering) h, congrArg (fun n => n.children) h, by simpa using congrArg List.length h1,
    by simpa using congrArg List.length h2, ?_, ?_, congrArg (fun n => n.trace.depth) h⟩
  · have : readFrame (stripNode y) = readFrame (stripNode x) := congrArg readFrame h
    simpa [stripNode, readFrame] using this
  · intro o
    cases o with
    | step i =>
      have h3 := congrArg (fun l : List CallTraceStep => (l[i]?).map readStep) h1
      simp only [List.getElem?_map, Option.map_map] at h3
      have h4 : (readStep ∘ fun s : CallTraceStep => ({ s with decoded := none } : CallTraceStep)) = readStep :=
        rfl
      rw [h4] at h3
      simp only [resolve]
      have h5 := congrArg (Option.map Item.step) h3
      simpa [Option.map_map, Function.comp_def] using h5
    | log i =>
      have h3 := congrArg (fun l : List CallLog => (l[i]?).map (fun c => Item.log c.rawLog)) h2
      simpa [resolve, List.getElem?_map, Option.map_map, Function.comp_def] using h3
    | call i => simp only [resolve]; rw [show y.children = x.children from congrArg (fun n => n.children) h]

theorem links_child {A : List Node} (h : Links A) (i : Nat) (x : Node) (hx : A[i]? = some x) :
    ∀ c ∈ x.children, (i < c ∧ c < A.length) ∧
      ∃ z, A[c]? = some z ∧ z.trace.depth = x.trace.depth + 1 := by
  intro c hc
  rw [h.children i x hx] at hc
  simp only [List.mem_filter, List.mem_range] at hc
  obtain ⟨hlt, hany⟩ := hc
  have hz : A[c]? = some A[c] := List.getElem?_eq_getElem hlt
  rw [hz] at hany
  simp only [Option.any_some, Bool.and_eq_true, decide_eq_true_eq] at hany
  have h0 : c ≠ 0 := by
    intro h0; subst h0
    have := (h.root _ hz).1; rw [this] at hany; simp at hany
  obtain ⟨p, y, h1, h2, h3, h4⟩ := h.parent c _ hz h0
  rw [h1] at hany
  simp only [Option.some.injEq] at hany
  obtain ⟨rfl, _⟩ := hany
  rw [hx] at h3
  simp only [Option.some.injEq] at h3
  subst h3
  exact ⟨⟨h2, hlt⟩, A[c], hz, h4⟩

theorem walkable_of {A nodes : List Node} (hl : Links A) (hc : ∀ x ∈ A, Canon x)
    (hd : Decorates nodes A) : Walkable nodes where
  canon y hy := by
    obtain ⟨k, hk⟩ := List.mem_iff_getElem?.1 hy
    obtain ⟨x, hx, hs⟩ := Decorates.get hd hk
    obtain ⟨h1, h2, h3, h4, _⟩ := strip_eq hs
    exact (hc x (List.mem_of_getElem? hx)).congr h1 h3 h4 (by rw [h2])
  child i y hy c hcm := by
    obtain ⟨x, hx, hs⟩ := Decorates.get hd hy
    obtain ⟨_, h2, _⟩ := strip_eq hs
    rw [h2] at hcm
    rw [Decorates.length hd]
    exact (links_child hl i x hx c hcm).1

/-! ### Uniqueness -/

theorem unfolds_unique (nodes : List Node) : ∀ N,
    (∀ d : Doc, sizeOf d < N → ∀ idx d', Unfolds nodes idx d → Unfolds nodes idx d' → d = d') ∧
    (∀ it : DocItems, sizeOf it < N → ∀ idx x os n it', UnfoldsItems nodes idx x os n it →
      UnfoldsItems nodes idx x os n it' → it = it') := by
  intro N
  induction N with
  | zero => exact ⟨fun d h => absurd h (by omega), fun d h => absurd h (by omega)⟩
  | succ N ih =>
    constructor
    · intro d hsz idx d' h h'
      obtain ⟨x, it⟩ := d
      obtain ⟨x', it'⟩ := d'
      simp only [Unfolds] at h h'
      have : x = x' := by rw [h.1] at h'; simpa using h'.1
      subst this
      rw [ih.2 it (by simp at hsz; omega) _ _ _ _ _ h.2 h'.2]
    · intro it hsz idx x os n it' h h'
      cases it with
      | nil =>
        simp only [UnfoldsItems] at h
        subst h
        cases it' <;> simp [UnfoldsItems] at h' <;> rfl
      | log l rest =>
        simp only [UnfoldsItems] at h
        obtain ⟨i, os', rfl, hl, hr⟩ := h
        cases it' with
        | log l' rest' =>
          simp only [UnfoldsItems, List.cons.injEq, TraceMemberOrder.log.injEq] at h'
          obtain ⟨i', os'', ⟨rfl, rfl⟩, hl', hr'⟩ := h'
          rw [hl] at hl'
          simp only [Option.some.injEq] at hl'
          rw [hl', ih.2 rest (by simp at hsz; omega) _ _ _ _ _ hr hr']
        | _ => simp [UnfoldsItems] at h'
      | step s rest =>
        simp only [UnfoldsItems] at h
        obtain ⟨os', rfl, hl, hr⟩ := h
        cases it' with
        | step l' rest' =>
          simp only [UnfoldsItems, List.cons.injEq, true_and] at h'
          obtain ⟨os'', rfl, hl', hr'⟩ := h'
          rw [hl] at hl'
          simp only [Option.some.injEq] at hl'
          rw [hl', ih.2 rest (by simp at hsz; omega) _ _ _ _ _ hr hr']
        | _ => simp [UnfoldsItems] at h'
      | sub d rest =>
        simp only [UnfoldsItems] at h
        obtain ⟨i, c, os', rfl, hl, _, hd, hr⟩ := h
        cases it' with
        | sub d' rest' =>
          simp only [UnfoldsItems, List.cons.injEq, TraceMemberOrder.call.injEq] at h'
          obtain ⟨i', c', os'', ⟨rfl, rfl⟩, hl', _, hd', hr'⟩ := h'
          rw [hl] at hl'
          simp only [Option.some.injEq] at hl'
          subst hl'
          rw [ih.1 d (by simp at hsz; omega) _ _ hd hd',
            ih.2 rest (by simp at hsz; omega) _ _ _ _ _ hr hr']
        | _ => simp [UnfoldsItems] at h'

/-! ### The document shows the execution -/

theorem bodyItems_act (cfg : Config) (d p : Nat) (v : U256) (n : Nat) (a : Act) (rest : Body) :
    bodyItems cfg d p v n (.act a rest) =
      bodyItems cfg d p v n (.act a .nil) ++ bodyItems cfg d p v n rest := by
  simp [bodyItems]

theorem bodyItems_act_cases (cfg : Config) (d p : Nat) (v : U256) (n : Nat) (a : Act) :
    bodyItems cfg d p v n (.act a .nil) = [] ∨
    (∃ s, bodyItems cfg d p v n (.act a .nil) = [.step s]) ∨
    (∃ l, bodyItems cfg d p v n (.act a .nil) = [.log l]) := by
  cases a with
  | step i c i' c' =>
    simp only [bodyItems, List.append_nil]
    split
    · exact Or.inr (Or.inl ⟨_, rfl⟩)
    · exact Or.inl rfl
  | aborted i c =>
    simp only [bodyItems, List.append_nil]
    split
    · exact Or.inr (Or.inl ⟨_, rfl⟩)
    · exact Or.inl rfl
  | log c l =>
    simp only [bodyItems, List.append_nil]
    split
    · exact Or.inr (Or.inr ⟨_, rfl⟩)
    · exact Or.inl rfl
  | selfdestruct a t v => exact Or.inl rfl

/-- The node of a frame shows the frame. -/
def ShowsFrame (cfg : Config) (nodes : List Node) (f : FrameCtx) : Prop :=
  ∃ y, nodes[f.index]? = some y ∧ readFrame y = frameData f ∧
    y.ordering.map (resolve y) = (items cfg f).map some

theorem view_items (cfg : Config) (nodes : List Node) (b : Body) :
    ∀ (d p : Nat) (v : U256) (n : Nat), (∀ f ∈ subFrames d p v n b, ShowsFrame cfg nodes f) →
    ∀ (idx : Nat) (x : Node) (os : List TraceMemberOrder) (k : Nat) (it : DocItems),
      os.map (resolve x) = (bodyItems cfg d p v n b).map some → UnfoldsItems nodes idx x os k it →
      it.view = execForest cfg d p v n b := by
  induction b with
  | nil =>
    intro d p v n _ idx x os k it ho hu
    simp [bodyItems] at ho
    subst ho
    cases it <;> simp [UnfoldsItems] at hu
    rfl
  | act a rest ih =>
    intro d p v n hf idx x os k it ho hu
    rw [bodyItems_act] at ho
    rcases bodyItems_act_cases cfg d p v n a with h | ⟨s, h⟩ | ⟨l, h⟩
    · rw [h, List.nil_append] at ho
      rw [ih d p v n hf idx x os k it ho hu]
      simp only [execForest, h]
    · rw [h] at ho
      cases os with
      | nil => simp at ho
      | cons o os =>
        simp only [List.map_cons, List.cons_append, List.nil_append, List.cons.injEq] at ho
        cases it with
        | nil => simp [UnfoldsItems] at hu
        | log l r =>
          simp only [UnfoldsItems, List.cons.injEq] at hu
          obtain ⟨i, os', ⟨rfl, rfl⟩, hl, hr⟩ := hu
          simp [resolve] at ho
        | step s' r =>
          simp only [UnfoldsItems, List.cons.injEq] at hu
          obtain ⟨os', ⟨rfl, rfl⟩, hl, hr⟩ := hu
          simp only [resolve, hl, Option.map_some, Option.some.injEq, Item.step.injEq] at ho
          simp only [DocItems.view, execForest, h, ho.1]
          rw [ih d p v n hf idx x _ _ r ho.2 hr]
        | sub d' r =>
          simp only [UnfoldsItems, List.cons.injEq] at hu
          obtain ⟨i, c, os', ⟨rfl, rfl⟩, hl, _, hd, hr⟩ := hu
          simp [resolve] at ho
    · rw [h] at ho
      cases os with
      | nil => simp at ho
      | cons o os =>
        simp only [List.map_cons, List.cons_append, List.nil_append, List.cons.injEq] at ho
        cases it with
        | nil => simp [UnfoldsItems] at hu
        | log l' r =>
          simp only [UnfoldsItems, List.cons.injEq] at hu
          obtain ⟨i, os', ⟨rfl, rfl⟩, hl, hr⟩ := hu
          simp only [resolve, hl, Option.map_some, Option.some.injEq, Item.log.injEq] at ho
          simp only [DocItems.view, execForest, h, ho.1]
          rw [ih d p v n hf idx x _ _ r ho.2 hr]
        | step s' r =>
          simp only [UnfoldsItems, List.cons.injEq] at hu
          obtain ⟨os', ⟨rfl, rfl⟩, hl, hr⟩ := hu
          simp [resolve] at ho
        | sub d' r =>
          simp only [UnfoldsItems, List.cons.injEq] at hu
          obtain ⟨i, c, os', ⟨rfl, rfl⟩, hl, _, hd, hr⟩ := hu
          simp [resolve] at ho
  | sub h b o rest ihb ihr =>
    intro d p v n hf idx x os k it ho hu
    have hfr : ∀ f ∈ subFrames d p v (n + 1 + b.size) rest, ShowsFrame cfg nodes f :=
      fun f hm => hf f (by simp [subFrames, hm])
    simp only [bodyItems] at ho
    by_cases hex : Spec.excluded cfg ⟨n, some p, d, some v, h, b, o⟩ = true
    · simp only [hex, if_true, List.nil_append] at ho
      simp only [execForest, hex, if_true]
      exact ihr d p v _ hfr idx x os k it ho hu
    · simp only [hex, Bool.false_eq_true, if_false] at ho
      simp only [execForest, hex, Bool.false_eq_true, if_false]
      cases os with
      | nil => simp at ho
      | cons o' os =>
        simp only [List.map_cons, List.cons_append, List.nil_append, List.cons.injEq] at ho
        cases it with
        | nil => simp [UnfoldsItems] at hu
        | log l' r =>
          simp only [UnfoldsItems, List.cons.injEq] at hu
          obtain ⟨i, os', ⟨rfl, rfl⟩, hl, hr⟩ := hu
          simp [resolve] at ho
        | step s' r =>
          simp only [UnfoldsItems, List.cons.injEq] at hu
          obtain ⟨os', ⟨rfl, rfl⟩, hl, hr⟩ := hu
          simp [resolve] at ho
        | sub d' r =>
          simp only [UnfoldsItems, List.cons.injEq] at hu
          obtain ⟨i, c, os', ⟨rfl, rfl⟩, hl, _, hd, hr⟩ := hu
          simp only [resolve, hl, Option.map_some, Option.some.injEq, Item.call.injEq] at ho
          obtain ⟨rfl, ho⟩ := ho
          obtain ⟨y, hy, hy1, hy2⟩ := hf ⟨c, some p, d, some v, h, b, o⟩ (by simp [subFrames])
          obtain ⟨y', it'⟩ := d'
          simp only [Unfolds] at hd
          have : y' = y := by
            have := hd.1; simp only at hy; rw [hy] at this; simpa using this.symm
          subst this
          simp only [DocItems.view, Doc.view, hy1]
          rw [ihr d p v _ hfr idx x _ _ r ho hr]
          rw [ihb (d + 1) c (valueInScope (some v) h) (c + 1)
            (fun f hm => hf f (by simp [subFrames, hm])) c y' y'.ordering 0 it' hy2 hd.2]

/-! ### Documents without decoded steps -/

theorem plain_nested {nodes : List Node} (hp : ∀ x ∈ nodes, Plain x) : ∀ N,
    (∀ d : Doc, sizeOf d < N → ∀ idx, Unfolds nodes idx d → d.Nested) ∧
    (∀ it : DocItems, sizeOf it < N → ∀ idx x os n, Plain x → UnfoldsItems nodes idx x os n it →
      it.Nested [] n) := by
  intro N
  induction N with
  | zero => exact ⟨fun d h => absurd h (by omega), fun d h => absurd h (by omega)⟩
  | succ N ih =>
    constructor
    · intro d hsz idx h
      obtain ⟨x, it⟩ := d
      simp only [Unfolds] at h
      simp only [Doc.Nested]
      exact ih.2 it (by simp at hsz; omega) _ _ _ _ (hp x (List.mem_of_getElem? h.1)) h.2
    · intro it hsz idx x os n hx h
      cases it with
      | nil => simp [DocItems.Nested]
      | log l rest =>
        simp only [UnfoldsItems] at h
        obtain ⟨i, os', rfl, hl, hr⟩ := h
        simp only [DocItems.Nested]
        exact ih.2 rest (by simp at hsz; omega) _ _ _ _ hx hr
      | step s rest =>
        simp only [UnfoldsItems] at h
        obtain ⟨os', rfl, hl, hr⟩ := h
        have hs := hx s (List.mem_of_getElem? hl)
        simp only [DocItems.Nested, List.head?_nil, hs]
        exact ih.2 rest (by simp at hsz; omega) _ _ _ _ hx hr
      | sub d rest =>
        simp only [UnfoldsItems] at h
        obtain ⟨i, c, os', rfl, hl, _, hd, hr⟩ := h
        simp only [DocItems.Nested]
        exact ⟨ih.1 d (by simp at hsz; omega) _ hd, ih.2 rest (by simp at hsz; omega) _ _ _ _ hx hr⟩

theorem logLines_level (w : Settings) (level : Nat) (l : CallLog) :
    ∀ x ∈ logLines w level l, x.level = level := by
  intro x hx
  unfold logLines at hx
  split at hx
  · simp at hx; rw [hx]
  · simp only at hx
    split at hx
    · simp at hx; rw [hx]
    · simp only [List.mem_cons, List.mem_append, List.mem_map, List.not_mem_nil, or_false] at hx
      rcases hx with rfl | ⟨_, _, rfl⟩ | rfl <;> rfl

theorem plain_levels {nodes : List Node} (hp : ∀ x ∈ nodes, Plain x)
    (hdep : ∀ (i : Nat) (x : Node), nodes[i]? = some x → ∀ c ∈ x.children, ∀ z, nodes[c]? = some z →
      z.trace.depth = x.trace.depth + 1) (w : Settings) (base D : Nat)
    (hD : ∀ x ∈ nodes, x.trace.depth ≤ D) : ∀ N,
    (∀ d : Doc, sizeOf d < N → ∀ idx x, nodes[idx]? = some x → Unfolds nodes idx d →
      ∀ l ∈ d.lines w (base + x.trace.depth), l.level ≤ base + D + 1) ∧
    (∀ it : DocItems, sizeOf it < N → ∀ idx x os n, nodes[idx]? = some x →
      (∀ i ∈ os, i ∈ x.ordering) → UnfoldsItems nodes idx x os n it →
      ∀ l ∈ it.lines w x (base + x.trace.depth + 1) [] n, l.level ≤ base + D + 1) := by
  intro N
  induction N with
  | zero => exact ⟨fun d h => absurd h (by omega), fun d h => absurd h (by omega)⟩
  | succ N ih =>
    constructor
    · intro d hsz idx x hx h l hl
      obtain ⟨x', it⟩ := d
      simp only [Unfolds] at h
      have : x' = x := by have := h.1; rw [hx] at this; simpa using this.symm
      subst this
      have hxd := hD x' (List.mem_of_getElem? hx)
      simp only [Doc.lines, List.mem_cons, List.mem_append, List.not_mem_nil, or_false] at hl
      rcases hl with rfl | hl | rfl
      · simp only; omega
      · exact ih.2 it (by simp at hsz; omega) idx x' _ 0 hx (fun _ h => h) h.2 l hl
      · simp only; omega
    · intro it hsz idx x os n hx hos h l hl
      have hxd := hD x (List.mem_of_getElem? hx)
      cases it with
      | nil => simp [DocItems.lines] at hl
      | log g rest =>
        simp only [UnfoldsItems] at h
        obtain ⟨i, os', rfl, hl', hr⟩ := h
        simp only [DocItems.lines, List.mem_append] at hl
        rcases hl with hl | hl
        · have := logLines_level w _ g l hl
          simp only [List.length_nil] at this; omega
        · exact ih.2 rest (by simp at hsz; omega) idx x os' n hx (fun i hi => hos i (by simp [hi])) hr l hl
      | step s rest =>
        simp only [UnfoldsItems] at h
        obtain ⟨os', rfl, hl', hr⟩ := h
        have hs := hp x (List.mem_of_getElem? hx) s (List.mem_of_getElem? hl')
        simp only [DocItems.lines, hs] at hl
        exact ih.2 rest (by simp at hsz; omega) idx x os' _ hx (fun i hi => hos i (by simp [hi])) hr l hl
      | sub d rest =>
        simp only [UnfoldsItems] at h
        obtain ⟨i, c, os', rfl, hl', _, hd, hr⟩ := h
        simp only [DocItems.lines, List.mem_append] at hl
        rcases hl with hl | hl
        · obtain ⟨y, it'⟩ := d
          have hy : nodes[c]? = some y := by simp only [Unfolds] at hd; exact hd.1
          have hdd := hdep idx x hx c (List.mem_of_getElem? hl') y hy
          refine ih.1 (.mk y it') (by simp at hsz ⊢; omega) c y hy hd l ?_
          rw [hdd]
          simpa [Nat.add_assoc] using hl
        · exact ih.2 rest (by simp at hsz; omega) idx x os' n hx (fun i hi => hos i (by simp [hi])) hr l hl

end Writer
end Verif
