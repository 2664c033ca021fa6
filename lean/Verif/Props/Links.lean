import Verif.Lemmas.Frames
import Verif.Spec.Example
/-!
# C01 (no panic), C04 (arena links), C13 (fuse), C52 (transaction gas, inspector part)
-/
namespace Verif.Props
open Spec Rec

/-! ## C01 -/

theorem run_prefix_ok {cfg : Config} {s s' : TI} {es fs : List Event}
    (h : TI.run cfg s (es ++ fs) = .ok s') : ∃ s1, TI.run cfg s es = .ok s1 := by
  rw [run_append] at h
  cases hr : TI.run cfg s es with
  | error p => rw [hr] at h; simp at h
  | ok s1 => exact ⟨s1, rfl⟩

/-- Every list of transactions, run one after the other without resetting the inspector, is
recorded without a panic. -/
theorem run_many (cfg : Config) (ts : List Tx) : ∀ (s : TI), s.traceStack = [] → s.arena ≠ [] →
    (∀ t ∈ ts, t.WF ∧ Safe cfg t.body) →
    ∃ s', TI.run cfg s (ts.flatMap Tx.events) = .ok s' ∧ s'.traceStack = [] ∧ s'.arena ≠ [] := by
  induction ts with
  | nil => intro s h1 h2 _; exact ⟨s, rfl, h1, h2⟩
  | cons t ts ih =>
    intro s h1 h2 h
    obtain ⟨hwf, hsafe⟩ := h t (by simp)
    obtain ⟨n0, rest0, har⟩ : ∃ n0 rest0, s.arena = n0 :: rest0 := by
      cases ha : s.arena with
      | nil => exact absurd ha h2
      | cons n0 rest0 => exact ⟨n0, rest0, rfl⟩
    obtain ⟨s1, hr1, hst1, har1, _⟩ := run_tx_from cfg t s n0 rest0 h1 har hwf.2.2 hsafe
    obtain ⟨s2, hr2, hst2, har2⟩ := ih s1 hst1 (by rw [har1]; simp [txArena])
      (fun t' ht' => h t' (by simp [ht']))
    exact ⟨s2, by rw [List.flatMap_cons, run_append_ok hr1]; exact hr2, hst2, har2⟩

/-- **C01.** For every configuration, a recording never panics at any moment of any execution: any
prefix of the hook calls of any sequence of transactions is processed, if the steps that are recorded
with pushed items satisfy `PushesSafe` and the journal is in order (`StorageSafe`, always true in
revm). -/
theorem C01_no_panic (cfg : Config) (ts : List Tx) (hwf : ∀ t ∈ ts, t.WF)
    (hp : ∀ t ∈ ts, t.body.AllSteps (PushesSafe cfg))
    (hj : ∀ t ∈ ts, t.body.AllSteps (StorageSafe cfg))
    (es : List Event) (hes : es <+: ts.flatMap Tx.events) :
    ∃ s, TI.run cfg TI.new es = .ok s := by
  obtain ⟨fs, hfs⟩ := hes
  obtain ⟨s, hr, _⟩ := run_many cfg ts TI.new rfl (by simp [TI.new, Arena.default])
    (fun t ht => ⟨hwf t ht, (safe_iff cfg t.body).2 ⟨hp t ht, hj t ht⟩⟩)
  rw [← hfs] at hr
  exact run_prefix_ok hr

/-- Unless pushed-items snapshots are configured, no condition on the stack is needed. -/
theorem C01_no_panic_without_pushes (cfg : Config) (hcfg : cfg.recordStackSnapshots ≠ .Pushes)
    (ts : List Tx) (hwf : ∀ t ∈ ts, t.WF) (hj : ∀ t ∈ ts, t.body.AllSteps (StorageSafe cfg))
    (es : List Event) (hes : es <+: ts.flatMap Tx.events) :
    ∃ s, TI.run cfg TI.new es = .ok s := by
  refine C01_no_panic cfg ts hwf ?_ hj es hes
  intro t _
  have : ∀ b : Body, b.AllSteps (PushesSafe cfg) := by
    have h0 : ∀ i c i' c', PushesSafe cfg i c i' c' := by
      intro i c i' c' _ h
      cases hs : cfg.recordStackSnapshots <;> simp_all [StackSnapshotType.isPushes]
    intro b
    induction b with
    | nil => trivial
    | act a rest ih => cases a <;> first | exact ih | exact ⟨h0 _ _ _ _, ih⟩
    | sub h b o rest ihb ihr => exact ⟨ihb, ihr⟩
  exact this t.body

/-- The condition on pushed items is the only cause of panics: a recording of a transaction succeeds
exactly if every recorded completed step satisfies it. -/
theorem C01_panic_iff (cfg : Config) (t : Tx) (hwf : t.WF)
    (hj : t.body.AllSteps (StorageSafe cfg)) :
    (∃ s, TI.run cfg TI.new t.events = .ok s) ↔ t.body.AllSteps (PushesSafe cfg) := by
  constructor
  · intro ⟨s, hs⟩
    apply Classical.byContradiction
    intro hbad
    rw [run_tx_err cfg t TI.new {} [] rfl rfl hwf.2.2 hj hbad] at hs
    simp at hs
  · intro hp
    obtain ⟨s, hr, _⟩ := run_tx cfg t hwf.2.2 ((safe_iff _ _).2 ⟨hp, hj⟩)
    exact ⟨s, hr⟩

/-- The example execution, twice in a row, meets all hypotheses of C01 for every configuration. -/
example (cfg : Config) : (∀ t ∈ [Example.tx, Example.tx], t.WF) ∧
    (∀ t ∈ [Example.tx, Example.tx], t.body.AllSteps (PushesSafe cfg)) ∧
    (∀ t ∈ [Example.tx, Example.tx], t.body.AllSteps (StorageSafe cfg)) ∧
    20 < Example.tx.events.length := by
  have h := (safe_iff cfg _).1 (Example.safe cfg)
  refine ⟨?_, ?_, ?_, by decide⟩ <;> intro t ht <;> simp at ht <;> subst ht
  · exact Example.wf
  · exact h.1
  · exact h.2

/-! ## C04 -/

/-- The link invariants of an arena, read off the public fields. -/
structure Links (A : List Node) : Prop where
  nonempty : A ≠ []
  idx : ∀ (k : Nat) (x : Node), A[k]? = some x → x.idx = k
  root : ∀ x : Node, A[0]? = some x → x.parent = none ∧ x.trace.depth = 0
  parent : ∀ (k : Nat) (x : Node), A[k]? = some x → k ≠ 0 →
    ∃ (p : Nat) (y : Node), x.parent = some p ∧ p < k ∧ A[p]? = some y ∧
      x.trace.depth = y.trace.depth + 1
  children : ∀ (p : Nat) (x : Node), A[p]? = some x →
    x.children = (List.range A.length).filter (fun j =>
      (A[j]?).any (fun y => decide (y.parent = some p) && decide (y.trace.maybePrecompile ≠ some true)))
  sealed : ∀ (k p : Nat) (x y : Node), A[k]? = some x → x.parent = some p → p ≠ 0 → A[p]? = some y →
    y.trace.maybePrecompile ≠ some true

/-- The fields the invariant is about. -/
def link (x : Node) : Option Nat × Nat × Nat × List Nat × Option Bool :=
  (x.parent, x.idx, x.trace.depth, x.children, x.trace.maybePrecompile)

theorem Links.congr {A A' : List Node} (h : Links A)
    (heq : A'.map link = A.map link) : Links A' := by
  have hlen : A'.length = A.length := by simpa using congrArg List.length heq
  have hk : ∀ k : Nat, (A'[k]?).map link = (A[k]?).map link := by
    intro k; simpa using congrArg (·[k]?) heq
  have hfwd : ∀ (k : Nat) (x : Node), A'[k]? = some x → ∃ y, A[k]? = some y ∧ link x = link y := by
    intro k x hx
    have := hk k
    rw [hx] at this
    cases hy : A[k]? with
    | none => rw [hy] at this; simp at this
    | some y => rw [hy] at this; exact ⟨y, rfl, by simpa using this⟩
  have hbwd : ∀ (k : Nat) (y : Node), A[k]? = some y → ∃ x, A'[k]? = some x ∧ link x = link y := by
    intro k y hy
    have := hk k
    rw [hy] at this
    cases hx : A'[k]? with
    | none => rw [hx] at this; simp at this
    | some x => rw [hx] at this; exact ⟨x, rfl, by simpa using this⟩
  simp only [link, Prod.mk.injEq] at hfwd hbwd
  refine ⟨?_, ?_, ?_, ?_, ?_, ?_⟩
  · intro h0; apply h.nonempty; exact List.length_eq_zero_iff.1 (by rw [← hlen, h0]; rfl)
  · intro k x hx
    obtain ⟨y, hy, e⟩ := hfwd k x hx
    rw [e.2.1]; exact h.idx k y hy
  · intro x hx
    obtain ⟨y, hy, e⟩ := hfwd 0 x hx
    rw [e.1, e.2.2.1]; exact h.root y hy
  · intro k x hx h0
    obtain ⟨y, hy, e⟩ := hfwd k x hx
    obtain ⟨p, z, h1, h2, h3, h4⟩ := h.parent k y hy h0
    obtain ⟨z', hz', e'⟩ := hbwd p z h3
    exact ⟨p, z', by rw [e.1, h1], h2, hz', by rw [e.2.2.1, h4, e'.2.2.1]⟩
  · intro p x hx
    obtain ⟨y, hy, e⟩ := hfwd p x hx
    rw [e.2.2.2.1, h.children p y hy, hlen]
    apply List.filter_congr
    intro j hj
    cases ha : A[j]? with
    | none =>
      have : A'[j]? = none := by
        rw [List.getElem?_eq_none_iff] at ha ⊢; omega
      rw [this]
    | some z =>
      obtain ⟨z', hz', e'⟩ := hbwd j z ha
      rw [hz']
      simp [e'.1, e'.2.2.2.2]
  · intro k p x y hx hp h0 hy
    obtain ⟨x', hx', e⟩ := hfwd k x hx
    obtain ⟨y', hy', e'⟩ := hfwd p y hy
    rw [e'.2.2.2.2]
    exact h.sealed k p x' y' hx' (by rw [← e.1, hp]) h0 hy'

theorem map_link_set {A : List Node} {i : Nat} {x x' : Node} (hx : A[i]? = some x)
    (h : link x' = link x) : (A.set i x').map link = A.map link := by
  apply List.ext_getElem?
  intro k
  rw [List.getElem?_map, List.getElem?_map, List.getElem?_set]
  split
  · subst_vars
    have := (List.getElem?_eq_some_iff.1 hx).1
    rw [if_pos this, hx]; simp [h]
  · rfl

/-- Replacing the trace of the root. -/
theorem Links.setRoot {n : Node} {rest : List Node} (h : Links (n :: rest)) (t : CallTrace)
    (ht : t.depth = 0) : Links ({ n with trace := t } :: rest) := by
  have hk : ∀ k, k ≠ 0 → ({ n with trace := t } :: rest)[k]? = (n :: rest)[k]? := by
    intro k hk; cases k with
    | zero => exact absurd rfl hk
    | succ k => rfl
  have hroot := h.root n rfl
  refine ⟨by simp, ?_, ?_, ?_, ?_, ?_⟩
  · intro k x hx
    by_cases h0 : k = 0
    · subst h0; simp at hx; rw [← hx]; exact h.idx 0 n rfl
    · rw [hk k h0] at hx; exact h.idx k x hx
  · intro x hx; simp at hx; rw [← hx]; exact ⟨hroot.1, ht⟩
  · intro k x hx h0
    rw [hk k h0] at hx
    obtain ⟨p, y, h1, h2, h3, h4⟩ := h.parent k x hx h0
    by_cases hp : p = 0
    · subst hp
      simp at h3; subst h3
      exact ⟨0, _, h1, h2, rfl, by simp [ht, h4, hroot.2]⟩
    · exact ⟨p, y, h1, h2, by rw [hk p hp]; exact h3, h4⟩
  · intro p x hx
    have hc : ∀ x, ({ n with trace := t } :: rest)[p]? = some x →
        ∃ y, (n :: rest)[p]? = some y ∧ x.children = y.children := by
      intro x hx
      by_cases h0 : p = 0
      · subst h0; simp at hx; exact ⟨n, rfl, by rw [← hx]⟩
      · rw [hk p h0] at hx; exact ⟨x, hx, rfl⟩
    obtain ⟨y, hy, e⟩ := hc x hx
    rw [e, h.children p y hy]
    apply List.filter_congr
    intro j _
    by_cases h0 : j = 0
    · subst h0; simp [hroot.1]
    · rw [hk j h0]
  · intro k p x y hx hp h0 hy
    rw [hk p h0] at hy
    by_cases hk0 : k = 0
    · subst hk0
      simp at hx
      rw [← hx] at hp
      rw [show ({ n with trace := t } : Node).parent = n.parent from rfl, hroot.1] at hp
      nomatch hp
    · rw [hk k hk0] at hx
      exact h.sealed k p x y hx hp h0 hy

/-- The parent node after the push. -/
def attachBy (kind : PushTraceKind) (x : Node) (id : Nat) : Node :=
  match kind with
  | .pushAndAttachToParent => x.attach id
  | .pushOnly => x

/-- What a successful search of the parent yields. -/
theorem pushTraceLoop_ok {kind : PushTraceKind} {t : CallTrace} : ∀ (fuel : Nat) (A : List Node)
    (entry : Nat) (A' : List Node) (id : Nat), t.depth ≠ 0 →
    pushTraceLoop kind t fuel A entry = .ok (A', id) →
    ∃ e x, A[e]? = some x ∧ t.depth = x.trace.depth + 1 ∧
      (∀ Q : Nat → Prop, Q entry → (∀ (i : Nat) (y : Node) (c : Nat), A[i]? = some y →
        y.children.getLast? = some c → Q c) → Q e) ∧
      A' = A.set e (attachBy kind x A.length) ++
        [{ parent := some e, trace := t, idx := A.length }] := by
  intro fuel
  induction fuel with
  | zero => intro A entry A' id _ h; simp [pushTraceLoop] at h
  | succ fuel ih =>
    intro A entry A' id hd h
    simp only [pushTraceLoop, hd, if_false] at h
    cases he : A[entry]? with
    | none => rw [he] at h; simp at h
    | some x =>
      rw [he] at h
      simp only at h
      by_cases hx : x.trace.depth = t.depth - 1
      · rw [if_pos hx] at h
        refine ⟨entry, x, he, by omega, fun Q hq _ => hq, ?_⟩
        cases kind with
        | pushOnly =>
          simp only [Except.ok.injEq, Prod.mk.injEq] at h
          rw [attachBy, set_self he]; exact h.1.symm
        | pushAndAttachToParent =>
          simp only [Except.ok.injEq, Prod.mk.injEq] at h
          exact h.1.symm
      · rw [if_neg hx] at h
        cases hc : x.children.getLast? with
        | none => rw [hc] at h; simp at h
        | some c =>
          rw [hc] at h
          obtain ⟨e, y, h1, h2, h3, h4⟩ := ih A c A' id hd h
          exact ⟨e, y, h1, h2, fun Q _ hQ => h3 Q (hQ entry x c he hc) hQ, h4⟩

/-- Adding a node below node `e`. -/
theorem Links.push {A : List Node} (h : Links A) {e : Nat} {x : Node} (hx : A[e]? = some x)
    (t : CallTrace) (ht : t.depth = x.trace.depth + 1) (kind : PushTraceKind)
    (hkind : kind = .pushOnly ↔ t.maybePrecompile = some true)
    (hseal : e = 0 ∨ x.trace.maybePrecompile ≠ some true) :
    Links (A.set e (attachBy kind x A.length) ++
        [{ parent := some e, trace := t, idx := A.length }]) := by
  have hlt := (List.getElem?_eq_some_iff.1 hx).1
  let x' := attachBy kind x A.length
  let y : Node := { parent := some e, trace := t, idx := A.length }
  have hx'p : x'.parent = x.parent := by simp only [x']; cases kind <;> rfl
  have hx'i : x'.idx = x.idx := by simp only [x']; cases kind <;> rfl
  have hx't : x'.trace = x.trace := by simp only [x']; cases kind <;> rfl
  show Links (A.set e x' ++ [y])
  have hold : ∀ k, k < A.length → k ≠ e → (A.set e x' ++ [y])[k]? = A[k]? := by
    intro k hk hke
    rw [List.getElem?_append_left (by simpa using hk), List.getElem?_set_ne (Ne.symm hke)]
  have hat : (A.set e x' ++ [y])[e]? = some x' := by
    rw [List.getElem?_append_left (by simpa using hlt), List.getElem?_set_self hlt]
  have hnew : (A.set e x' ++ [y])[A.length]? = some y := by
    rw [List.getElem?_append_right (by simp)]; simp
  have hcase : ∀ (k : Nat) (z : Node), (A.set e x' ++ [y])[k]? = some z →
      (k = A.length ∧ z = y) ∨ (k < A.length ∧ ∃ w, A[k]? = some w ∧ z.parent = w.parent ∧
        z.idx = w.idx ∧ z.trace = w.trace ∧ (k ≠ e → z.children = w.children) ∧
        (k = e → z = x' ∧ w = x)) := by
    intro k z hz
    have hk := (List.getElem?_eq_some_iff.1 hz).1
    simp at hk
    by_cases h1 : k = A.length
    · subst h1; rw [hnew] at hz; exact Or.inl ⟨rfl, by simpa using hz.symm⟩
    · right
      refine ⟨by omega, ?_⟩
      by_cases h2 : k = e
      · subst h2; rw [hat] at hz; simp only [Option.some.injEq] at hz
        exact ⟨x, hx, by rw [← hz, hx'p], by rw [← hz, hx'i], by rw [← hz, hx't],
          fun h => absurd rfl h, fun _ => ⟨hz.symm, rfl⟩⟩
      · rw [hold k (by omega) h2] at hz
        exact ⟨z, hz, rfl, rfl, rfl, fun _ => rfl, fun h => absurd h h2⟩
  have hback : ∀ (k : Nat) (w : Node), A[k]? = some w → ∃ z, (A.set e x' ++ [y])[k]? = some z ∧
      z.parent = w.parent ∧ z.trace = w.trace := by
    intro k w hw
    have hk := (List.getElem?_eq_some_iff.1 hw).1
    by_cases h2 : k = e
    · subst h2; rw [hx] at hw; simp only [Option.some.injEq] at hw
      exact ⟨x', hat, by rw [hx'p, hw], by rw [hx't, hw]⟩
    · exact ⟨w, by rw [hold k hk h2, hw], rfl, rfl⟩
  refine ⟨by simp, ?_, ?_, ?_, ?_, ?_⟩
  · intro k z hz
    rcases hcase k z hz with ⟨h1, h2⟩ | ⟨_, w, hw, _, hi, _⟩
    · rw [h2, h1]
    · rw [hi]; exact h.idx k w hw
  · intro z hz
    rcases hcase 0 z hz with ⟨h1, _⟩ | ⟨_, w, hw, hp, _, ht', _⟩
    · omega
    · rw [hp, ht']; exact h.root w hw
  · intro k z hz h0
    rcases hcase k z hz with ⟨h1, h2⟩ | ⟨_, w, hw, hp, _, ht', _⟩
    · subst h1; subst h2
      exact ⟨e, x', rfl, hlt, hat, by rw [hx't]; exact ht⟩
    · obtain ⟨p, v, h1, h2, h3, h4⟩ := h.parent k w hw h0
      obtain ⟨v', hv', _, ev⟩ := hback p v h3
      exact ⟨p, v', by rw [hp, h1], h2, hv', by rw [ht', h4, ev]⟩
  · intro p z hz
    have hfil : (List.range (A.set e x' ++ [y]).length).filter (fun j =>
        ((A.set e x' ++ [y])[j]?).any (fun y => decide (y.parent = some p) &&
          decide (y.trace.maybePrecompile ≠ some true))) =
        (List.range A.length).filter (fun j =>
          (A[j]?).any (fun y => decide (y.parent = some p) &&
            decide (y.trace.maybePrecompile ≠ some true))) ++
        (if e = p ∧ t.maybePrecompile ≠ some true then [A.length] else []) := by
      rw [List.length_append, List.length_set, List.length_singleton, List.range_succ,
        List.filter_append]
      congr 1
      · apply List.filter_congr
        intro j hj
        rw [List.mem_range] at hj
        obtain ⟨w, hw⟩ : ∃ w, A[j]? = some w := ⟨_, List.getElem?_eq_getElem hj⟩
        obtain ⟨v, hv, e1, e2⟩ := hback j w hw
        rw [hw, hv]; simp [e1, e2]
      · simp only [List.filter_cons, List.filter_nil, hnew, Option.any_some, y]
        by_cases hep : e = p <;> by_cases hm : t.maybePrecompile = some true <;> simp [hep, hm]
    rw [hfil]
    rcases hcase p z hz with ⟨h1, h2⟩ | ⟨hpl, w, hw, _, _, _, hne, heq⟩
    · subst h1; subst h2
      have h1 : ¬ (e = A.length ∧ t.maybePrecompile ≠ some true) := by omega
      rw [if_neg h1, List.append_nil]
      symm
      rw [show y.children = [] from rfl, List.filter_eq_nil_iff]
      intro j hj
      rw [List.mem_range] at hj
      obtain ⟨w, hw⟩ : ∃ w, A[j]? = some w := ⟨_, List.getElem?_eq_getElem hj⟩
      rw [hw]
      simp only [Option.any_some, Bool.and_eq_true, decide_eq_true_eq, not_and]
      intro hpar
      exfalso
      by_cases hj0 : j = 0
      · subst hj0; rw [(h.root w hw).1] at hpar; simp at hpar
      · obtain ⟨q, _, hq, hql, _⟩ := h.parent j w hw hj0
        rw [hq] at hpar; simp at hpar; omega
    · by_cases hpe : p = e
      · obtain ⟨rfl, rfl⟩ := heq hpe
        subst hpe
        have hch := h.children p w hx
        rw [← hch]
        simp only [x']
        cases kind with
        | pushOnly => simp [hkind.1 rfl, attachBy]
        | pushAndAttachToParent =>
          have : t.maybePrecompile ≠ some true := fun hh => by simpa using hkind.2 hh
          simp [this, attachBy, Node.attach]
      · rw [hne hpe, h.children p w hw, if_neg (by rintro ⟨rfl, _⟩; exact hpe rfl), List.append_nil]
  · intro k p z v hz hp h0 hv
    rcases hcase k z hz with ⟨h1, h2⟩ | ⟨_, w, hw, hpw, _⟩
    · subst h2
      have hpe : p = e := by simpa [y] using hp.symm
      subst hpe
      rw [hat] at hv
      simp only [Option.some.injEq] at hv
      rw [← hv, hx't]
      rcases hseal with h' | h'
      · exact absurd h' h0
      · exact h'
    · rw [hpw] at hp
      rcases hcase p v hv with ⟨h1, _⟩ | ⟨_, u, hu, _, _, hut, _⟩
      · have hk0 : k ≠ 0 := by
          intro hk0; subst hk0
          rw [(h.root w hw).1] at hp; nomatch hp
        obtain ⟨q, _, hq, hql, hqa, _⟩ := h.parent k w hw hk0
        rw [hq] at hp
        simp only [Option.some.injEq] at hp
        have := (List.getElem?_eq_some_iff.1 hqa).1
        omega
      · rw [hut]
        exact h.sealed k p w u hw hp h0 hu

theorem startTraceOnCall_links {s s' : TI} {c : Ctx} {a : Address} {i : Bytes} {v : U256}
    {k : CallKind} {cl : Address} {g : Nat} {mp : Option Bool}
    (h : Links s.arena) (hr : s.startTraceOnCall c a i v k cl g mp = .ok s') : Links s'.arena := by
  simp only [TI.startTraceOnCall] at hr
  split at hr
  · simp at hr
  · rename_i A' id hp
    simp only [Except.ok.injEq] at hr
    rw [← hr]
    simp only
    simp only [pushTrace] at hp
    by_cases hd : c.depth = 0
    · obtain ⟨n, rest, har⟩ : ∃ n rest, s.arena = n :: rest := by
        cases ha : s.arena with
        | nil => exact absurd ha h.nonempty
        | cons n rest => exact ⟨n, rest, rfl⟩
      rw [har] at hp h
      simp only [pushTraceLoop, hd, if_true, Except.ok.injEq, Prod.mk.injEq] at hp
      rw [← hp.1]
      exact h.setRoot _ rfl
    · obtain ⟨e, x, hx, htd, hQ, hA⟩ := pushTraceLoop_ok _ _ _ _ _ (by exact hd) hp
      rw [hA]
      refine h.push hx _ htd _ ?_ ?_
      · cases mp with
        | none => simp
        | some b => cases b <;> simp
      · have := hQ (fun j => j = 0 ∨ ∀ y, s.arena[j]? = some y → y.trace.maybePrecompile ≠ some true)
          (Or.inl rfl) (by
            intro i y c hy hc
            right
            intro z hz
            have hm := List.mem_of_getLast? hc
            rw [h.children i y hy, List.mem_filter, hz] at hm
            simp only [Option.any_some, Bool.and_eq_true, decide_eq_true_eq] at hm
            exact hm.2.2)
        rcases this with h0 | h0
        · exact Or.inl h0
        · exact Or.inr (h0 x hx)

theorem hook_links {cfg : Config} {s s' : TI} {e : Event} (h : Links s.arena)
    (hr : TI.hook cfg s e = .ok s') : Links s'.arena := by
  have hset : ∀ {i : Nat} {x x' : Node}, s.arena[i]? = some x → link x' = link x →
      Links (s.arena.set i x') := fun hx hl => h.congr (map_link_set hx hl)
  have hlast : ∀ {f : Nat → Node → Node}, (∀ i x, link (f i x) = link x) →
      s.withLastTrace f = .ok s' → Links s'.arena := by
    intro f hf hw
    simp only [TI.withLastTrace] at hw
    split at hw
    · simp at hw
    · split at hw
      · simp at hw
      · rename_i x hx
        simp only [Except.ok.injEq] at hw
        rw [← hw]; exact hset hx (hf _ _)
  have hend : ∀ {c : Ctx} {r : InterpreterResult} {a : Option Address},
      s.fillTraceOnCallEnd c r a = .ok s' → Links s'.arena := by
    intro c r a hw
    simp only [TI.fillTraceOnCallEnd] at hw
    split at hw
    · simp at hw
    · split at hw
      · simp at hw
      · rename_i x hx
        simp only [Except.ok.injEq] at hw
        rw [← hw]; refine hset hx ?_
        simp only [TI.fillTrace]; split <;> rfl
  cases e with
  | step i c =>
    simp only [TI.hook] at hr
    split at hr
    · simp only [TI.startStep] at hr
      split at hr
      · simp at hr
      · split at hr
        · simp at hr
        · rename_i x hx
          split at hr
          · simp only [Except.ok.injEq] at hr; rw [← hr]; exact h
          · simp only [Except.ok.injEq] at hr; rw [← hr]; exact hset hx rfl
    · simp only [Except.ok.injEq] at hr; rw [← hr]; exact h
  | stepEnd i c =>
    simp only [TI.hook] at hr
    split at hr
    · simp only [TI.fillStepOnStepEnd] at hr
      split at hr
      · simp at hr
      · split at hr
        · simp only [Except.ok.injEq] at hr; rw [← hr]; exact h
        · split at hr
          · simp at hr
          · rename_i x hx
            split at hr
            · simp at hr
            · split at hr
              · simp at hr
              · simp only [Except.ok.injEq] at hr; rw [← hr]; exact hset hx rfl
    · simp only [Except.ok.injEq] at hr; rw [← hr]; exact h
  | log c l =>
    simp only [TI.hook] at hr
    split at hr
    · exact hlast (f := fun _ n => TI.logNode l n) (fun _ _ => rfl) hr
    · simp only [Except.ok.injEq] at hr; rw [← hr]; exact h
  | call c inp =>
    simp only [TI.hook, TI.call] at hr
    split at hr
    · simp at hr
    · exact startTraceOnCall_links h hr
  | callEnd c inp r => exact hend hr
  | create c inp => exact startTraceOnCall_links h hr
  | createEnd c inp r a => exact hend hr
  | selfdestruct a t v => exact hlast (f := fun _ n => TI.selfdestructNode a t v n) (fun _ _ => rfl) hr

/-- **C04.** After any sequence of hook calls whatsoever that did not panic, starting from a new
inspector with any configuration, the arena links are consistent. With C01 this covers every moment
of every recording of every sequence of transactions. -/
theorem C04_links (cfg : Config) (es : List Event) (s : TI)
    (hr : TI.run cfg TI.new es = .ok s) : Links s.arena := by
  have hnew : Links TI.new.arena := by
    refine ⟨by simp [TI.new, Arena.default], ?_, ?_, ?_, ?_, ?_⟩
    · intro k x hx
      cases k with
      | zero => simp [TI.new, Arena.default] at hx; rw [← hx]
      | succ k => simp [TI.new, Arena.default] at hx
    · intro x hx; simp [TI.new, Arena.default] at hx; rw [← hx]; exact ⟨rfl, rfl⟩
    · intro k x hx h0
      cases k with
      | zero => exact absurd rfl h0
      | succ k => simp [TI.new, Arena.default] at hx
    · intro p x hx
      cases p with
      | zero => simp [TI.new, Arena.default] at hx; rw [← hx]; rfl
      | succ k => simp [TI.new, Arena.default] at hx
    · intro k p x y hx hp h0 hy
      cases p with
      | zero => exact absurd rfl h0
      | succ p => simp [TI.new, Arena.default] at hy
  have : ∀ (es : List Event) (s s' : TI), Links s.arena → TI.run cfg s es = .ok s' →
      Links s'.arena := by
    intro es
    induction es with
    | nil => intro s s' h hr; simp only [TI.run, Except.ok.injEq] at hr; rw [← hr]; exact h
    | cons e es ih =>
      intro s s' h hr
      simp only [TI.run] at hr
      split at hr
      · simp at hr
      · rename_i s1 h1; exact ih s1 s' (hook_links h h1) hr
  exact this es _ s hnew hr

/-- Both combined: at every moment of every legal history the inspector is in a state with
consistent links. -/
theorem C04_links_at_every_moment (cfg : Config) (ts : List Tx) (hwf : ∀ t ∈ ts, t.WF)
    (hp : ∀ t ∈ ts, t.body.AllSteps (PushesSafe cfg))
    (hj : ∀ t ∈ ts, t.body.AllSteps (StorageSafe cfg))
    (es : List Event) (hes : es <+: ts.flatMap Tx.events) :
    ∃ s, TI.run cfg TI.new es = .ok s ∧ Links s.arena := by
  obtain ⟨s, hr⟩ := C01_no_panic cfg ts hwf hp hj es hes
  exact ⟨s, hr, C04_links cfg es s hr⟩

/-- In the middle of the example (11 hooks in) three frames are open. -/
example : (TI.run Config.all TI.new (Example.tx.events.take 10)).toOption.map
    (fun s => (s.traceStack, s.arena.map (·.parent), s.arena.map (·.children))) =
    some ([2, 1, 0], [none, some 0, some 1], [[1], [2], []]) := by decide

/-! ## C13 -/

/-- **C13.** A fused inspector behaves on every later history exactly as a new one with the same
configuration, whatever was recorded before (even a recording abandoned half way or after a
panic-free illegal history). -/
theorem C13_fuse (cfg : Config) (before : List Event) (s : TI)
    (_hr : TI.run cfg TI.new before = .ok s) (later : List Event) :
    TI.run cfg s.fuse later = TI.run cfg TI.new later := by
  rfl

/-- Without `fuse`: the second transaction's root node keeps logs and children of the first. For
every pair of transactions the root of the reused inspector carries the first root's logs (in front)
and children. -/
theorem C13_stale_without_fuse (cfg : Config) (t1 t2 : Tx) (h1 : t1.WF ∧ Safe cfg t1.body)
    (h2 : t2.WF ∧ Safe cfg t2.body) :
    ∃ s1 s2 x1 x2 y2, TI.run cfg TI.new t1.events = .ok s1 ∧
      TI.run cfg TI.new (t1.events ++ t2.events) = .ok s2 ∧
      s1.arena[0]? = some x1 ∧ s2.arena[0]? = some x2 ∧
      (∃ s, TI.run cfg TI.new t2.events = .ok s ∧ s.arena[0]? = some y2) ∧
      x2.logs = x1.logs ++ y2.logs ∧ x1.children <+: x2.children := by
  obtain ⟨s1, hr1, hst1, har1, _⟩ := run_tx cfg t1 h1.1.2.2 h1.2
  obtain ⟨s, hr, _, har, _⟩ := run_tx cfg t2 h2.1.2.2 h2.2
  obtain ⟨n0, rest0, hn⟩ : ∃ n0 rest0, s1.arena = n0 :: rest0 := by rw [har1]; exact ⟨_, _, rfl⟩
  obtain ⟨s2, hr2, _, har2, _⟩ := run_tx_from cfg t2 s1 n0 rest0 hst1 hn h2.1.2.2 h2.2
  refine ⟨s1, s2, n0, _, _, hr1, by rw [run_append_ok hr1]; exact hr2, by rw [hn]; rfl,
    by rw [har2]; rfl, ⟨s, hr, by rw [har]; rfl⟩, ?_, ?_⟩
  · simp only [leaveNode, own_logs, List.nil_append]
  · simp only [leaveNode]
    rw [own_children cfg 1 0 t2.body h2.1.2.2]
    exact List.prefix_append _ _

/-- Hence reuse without `fuse` differs from a new inspector. -/
theorem C13_fuse_is_needed : ∃ t : Tx, t.WF ∧ (∀ cfg, Safe cfg t.body) ∧
    ∃ s1 s2, TI.run Config.all TI.new (t.events ++ t.events) = .ok s1 ∧
      TI.run Config.all TI.new t.events = .ok s2 ∧
      (s1.arena.map (·.children))[0]? = some [1, 3, 4, 5, 7, 8] ∧
      (s2.arena.map (·.children))[0]? = some [1, 3, 4] :=
  ⟨Example.tx, Example.wf, Example.safe, _, _, rfl, rfl, by decide, by decide⟩

/-! ## C52 (inspector) -/

/-- **C52** (inspector part). `set_transaction_gas_used` changes the gas used of the root frame and
nothing else. -/
theorem C52_inspector (s : TI) (g : Nat) :
    (∀ x, s.arena[0]? = some x → (s.setTransactionGasUsed g).arena[0]? =
      some { x with trace := { x.trace with gasUsed := g } }) ∧
    (∀ k, k ≠ 0 → (s.setTransactionGasUsed g).arena[k]? = s.arena[k]?) ∧
    (s.setTransactionGasUsed g).traceStack = s.traceStack ∧
    (s.setTransactionGasUsed g).stepStack = s.stepStack ∧
    (s.setTransactionGasUsed g).specId = s.specId ∧
    (s.setTransactionGasUsed g).lastCallReturnData = s.lastCallReturnData := by
  refine ⟨?_, ?_, rfl, rfl, rfl, rfl⟩
  · intro x hx
    cases ha : s.arena with
    | nil => rw [ha] at hx; simp at hx
    | cons n rest => rw [ha] at hx; simp at hx; simp [TI.setTransactionGasUsed, ha, hx]
  · intro k hk
    cases ha : s.arena with
    | nil => simp [TI.setTransactionGasUsed, ha]
    | cons n rest =>
      cases k with
      | zero => exact absurd rfl hk
      | succ k => simp [TI.setTransactionGasUsed, ha]

end Verif.Props
