import Verif.Lemmas.Writer
import Verif.Spec.WriterErrors
/-! The indentation after a failed write (C124). -/
namespace Verif
namespace Writer
open Spec

/-- `m` never changes the indentation. -/
def Keeps (m : W α) : Prop := ∀ s : State, (m s).2.indent = s.indent

theorem Keeps.pure (a : α) : Keeps (Pure.pure a : W α) := fun _ => rfl

theorem Keeps.bind {m : W α} {f : α → W β} (h : Keeps m) (hf : ∀ a, Keeps (f a)) :
    Keeps (m >>= f) := by
  intro s
  have hb : (m >>= f) s = W.bind m f s := rfl
  rw [hb]
  unfold W.bind
  have hm := h s
  cases hr : m s with
  | mk r s' =>
    rw [hr] at hm
    cases r with
    | ok a => exact (hf a s').trans hm
    | error e => exact hm

theorem Keeps.emit (k : Sink) (g : List Glyph) : Keeps (emit k g) := by
  intro s
  unfold Writer.emit
  split <;> rfl

theorem Keeps.getIndent : Keeps getIndent := fun _ => rfl

theorem Keeps.panic (p : Panic) : Keeps (panic p : W α) := fun _ => rfl

theorem Keeps.ite {c : Prop} [Decidable c] {a b : W α} (ha : Keeps a) (hb : Keeps b) :
    Keeps (if c then a else b) := by split <;> assumption

theorem Keeps.pipesLoop (k : Sink) : ∀ n, Keeps (writePipesLoop k n)
  | 0 => Keeps.pure ()
  | n + 1 => (Keeps.emit k _).bind fun _ => Keeps.pipesLoop k n

theorem Keeps.indentation (k : Sink) : Keeps (writeIndentation k) :=
  (Keeps.emit k _).bind fun _ => Keeps.getIndent.bind fun _ => Keeps.pipesLoop k _

theorem Keeps.branch (k : Sink) : Keeps (writeBranch k) :=
  (Keeps.indentation k).bind fun _ => Keeps.getIndent.bind fun _ =>
    Keeps.ite (Keeps.emit k _) (Keeps.pure _)

theorem Keeps.pipes (k : Sink) : Keeps (writePipes k) := (Keeps.indentation k).bind fun _ => Keeps.emit k _
theorem Keeps.edge (k : Sink) : Keeps (writeEdge k) := (Keeps.indentation k).bind fun _ => Keeps.emit k _

theorem Keeps.action (c : CallKind) : Keeps (callAction c) := by
  cases c <;> first | exact Keeps.pure _ | exact Keeps.panic _

theorem Keeps.header (w : Settings) (k : Sink) (t : CallTrace) : Keeps (writeTraceHeader w k t) := by
  refine (Keeps.emit k _).bind fun _ => Keeps.ite (Keeps.emit k _) ?_
  refine (Keeps.emit k _).bind fun _ => (Keeps.ite (Keeps.emit k _) (Keeps.pure _)).bind fun _ =>
    (Keeps.emit k _).bind fun _ => (Keeps.action _).bind fun a => ?_
  cases a with
  | none => exact Keeps.pure _
  | some a => exact Keeps.emit k _

theorem Keeps.footer (w : Settings) (k : Sink) (t : CallTrace) : Keeps (writeTraceFooter w k t) := by
  refine (Keeps.emit k _).bind fun _ => ?_
  cases t.decoded.returnData with
  | some d => exact Keeps.emit k _
  | none => exact Keeps.ite (Keeps.emit k _) (Keeps.ite (Keeps.emit k _) (Keeps.pure _))

theorem Keeps.params (k : Sink) : ∀ (l : List (String × String)) (i : Nat), Keeps (writeParams k i l)
  | [], _ => Keeps.pure _
  | (_, _) :: l, i => (Keeps.ite (Keeps.emit k _) (Keeps.pure _)).bind fun _ =>
      (Keeps.emit k _).bind fun _ => Keeps.params k l (i + 1)

theorem Keeps.topics (w : Settings) (k : Sink) : ∀ (l : List U256) (i : Nat), Keeps (writeTopics w k i l)
  | [], _ => Keeps.pure _
  | _ :: l, i => (Keeps.ite (Keeps.emit k _) ((Keeps.pipes k).bind fun _ => Keeps.emit k _)).bind fun _ =>
      (Keeps.emit k _).bind fun _ => Keeps.topics w k l (i + 1)

theorem Keeps.log (w : Settings) (k : Sink) (l : CallLog) : Keeps (writeLog w k l) := by
  refine (Keeps.branch k).bind fun _ => ?_
  cases l.decoded.name with
  | some name =>
    refine (Keeps.emit k _).bind fun _ => ?_
    have h : Keeps (match l.decoded.params with
        | some params => writeParams k 0 params
        | none => Pure.pure ()) := by
      cases l.decoded.params with
      | none => exact Keeps.pure _
      | some p => exact Keeps.params k p 0
    exact h.bind fun _ => Keeps.emit k _
  | none =>
    exact (Keeps.topics w k _ _).bind fun _ => (Keeps.ite (Keeps.pipes k) (Keeps.pure _)).bind fun _ =>
      Keeps.emit k _

/-! ### Runs with what they leave when they fail -/

/-- As `Prints`, with the relation `P` between what was printed and the indentation after a failure. -/
def Does (m : W α) (i : Nat) (g : List Glyph) (a : α) (i' : Nat) (P : List Glyph → Nat → Prop) : Prop :=
  ∀ s : State, s.indent = i →
    (∃ s', m s = (.ok a, s') ∧ s'.out = s.out ++ g ∧ s'.indent = i') ∨
    (∃ s' p, m s = (.error .io, s') ∧ s'.out = s.out ++ p ∧ P p s'.indent)

/-- What a run that keeps the indentation leaves. -/
def FlatP (i : Nat) (g : List Glyph) (p : List Glyph) (n : Nat) : Prop := p <+: g ∧ n = i

theorem Does.flat {k : Sink} {m : W α} {i : Nat} {g : List Glyph} {a : α} (h : Prints k m i g a i)
    (hk : Keeps m) : Does m i g a i (FlatP i g) := by
  intro s hs
  rcases h s hs with h1 | ⟨s', p, he, hp, ho, _⟩
  · exact Or.inl h1
  · refine Or.inr ⟨s', p, he, ho, hp, ?_⟩
    have := hk s
    rw [he] at this
    exact this.trans hs

theorem Does.bind {m : W α} {f : α → W β} {i i1 i2 : Nat} {g1 g2 : List Glyph} {a : α} {b : β}
    {P1 P2 P : List Glyph → Nat → Prop} (h1 : Does m i g1 a i1 P1) (h2 : Does (f a) i1 g2 b i2 P2)
    (hP1 : ∀ p n, P1 p n → P p n) (hP2 : ∀ p n, P2 p n → P (g1 ++ p) n) :
    Does (m >>= f) i (g1 ++ g2) b i2 P := by
  intro s hs
  have hb : (m >>= f) s = W.bind m f s := rfl
  rw [hb]
  unfold W.bind
  rcases h1 s hs with ⟨s', he, ho, hi⟩ | ⟨s', p, he, ho, hp⟩
  · rw [he]
    rcases h2 s' hi with ⟨s'', he', ho', hi'⟩ | ⟨s'', p, he', ho', hp⟩
    · exact Or.inl ⟨s'', he', by rw [ho', ho, List.append_assoc], hi'⟩
    · exact Or.inr ⟨s'', g1 ++ p, he', by rw [ho', ho, List.append_assoc], hP2 p _ hp⟩
  · rw [he]
    exact Or.inr ⟨s', p, rfl, ho, hP1 p _ hp⟩

/-- A run that prints nothing and does not fail. -/
theorem Does.silent {m : W α} {i i' : Nat} {a : α}
    (h : ∀ s : State, s.indent = i → ∃ s', m s = (.ok a, s') ∧ s'.out = s.out ∧ s'.indent = i') :
    Does m i [] a i' (fun _ _ => False) := by
  intro s hs
  obtain ⟨s', he, ho, hi⟩ := h s hs
  exact Or.inl ⟨s', he, by simp [ho], hi⟩

theorem Does.pure (a : α) (i : Nat) : Does (Pure.pure a : W α) i [] a i (fun _ _ => False) :=
  Does.silent fun s hs => ⟨s, rfl, rfl, hs⟩

theorem Does.index {l : List α} {j : Nat} {a : α} (h : l[j]? = some a) (i : Nat) :
    Does (index l j) i [] a i (fun _ _ => False) :=
  Does.silent fun s hs => ⟨s, by simp [Writer.index, h], rfl, hs⟩

theorem Does.indentUp {i : Nat} (h : i + 1 < 65536) :
    Does indentUp i [] () (i + 1) (fun _ _ => False) :=
  Does.silent fun s hs => ⟨{ s with indent := s.indent + 1 }, by simp [Writer.indentUp, hs, h], rfl, by simp [hs]⟩

theorem Does.indentDown (i : Nat) : Does indentDown (i + 1) [] () i (fun _ _ => False) :=
  Does.silent fun s hs => ⟨{ s with indent := s.indent - 1 }, by simp [Writer.indentDown, hs], rfl, by simp [hs]⟩

/-- Sequencing after an action that prints nothing and does not fail. -/
theorem Does.after {m : W α} {f : α → W β} {i i1 i2 : Nat} {g : List Glyph} {a : α} {b : β}
    {P : List Glyph → Nat → Prop} (h1 : Does m i [] a i1 (fun _ _ => False))
    (h2 : Does (f a) i1 g b i2 P) : Does (m >>= f) i g b i2 P := by
  have := Does.bind (P := P) h1 h2 (fun _ _ h => h.elim) (fun p n h => by simpa using h)
  simpa using this

/-- Ending with an action that prints nothing and does not fail. -/
theorem Does.before {m : W α} {f : α → W β} {i i1 i2 : Nat} {g : List Glyph} {a : α} {b : β}
    {P : List Glyph → Nat → Prop} (h1 : Does m i g a i1 P)
    (h2 : Does (f a) i1 [] b i2 (fun _ _ => False)) : Does (m >>= f) i g b i2 P := by
  have := Does.bind (P := P) h1 h2 (fun _ _ h => h) (fun p n h => h.elim)
  simpa using this

theorem Does.weaken {m : W α} {i i' : Nat} {g : List Glyph} {a : α} {P Q : List Glyph → Nat → Prop}
    (h : Does m i g a i' P) (hPQ : ∀ p n, P p n → Q p n) : Does m i g a i' Q := by
  intro s hs
  rcases h s hs with h1 | ⟨s', p, he, ho, hp⟩
  · exact Or.inl h1
  · exact Or.inr ⟨s', p, he, ho, hPQ _ _ hp⟩

theorem Does.cast {m : W α} {i i' : Nat} {g g' : List Glyph} {a : α} {P : List Glyph → Nat → Prop}
    (h : Does m i g a i' P) (hg : g = g') : Does m i g' a i' P := hg ▸ h

/-- As `StopsIn`, for lines behind others. -/
def StopsBehind (L : List Line) (p : List Glyph) (n : Nat) : Prop :=
  ∃ (A : List Line) (l : Line) (B : List Line) (q : List Glyph),
    L = A ++ l :: B ∧ p = printLines A ++ q ∧ q <+: l.print ∧
    (n = l.level ∨ (n = l.level + 1 ∧ B.head?.map Line.level = some n ∧ margin l.level l.mark <+: q))

theorem stopsIn_behind {L : List Line} {p : List Glyph} {n : Nat} (h : StopsIn L p n) :
    StopsBehind L p n := by
  obtain ⟨A, l, B, q, h1, h2, h3, h4⟩ := h
  exact ⟨A, l, B, q, h1, h2, h3, h4.imp id (fun h => h.2)⟩

theorem StopsBehind.within {L : List Line} {p : List Glyph} {n : Nat} (h : StopsBehind L p n)
    (A C : List Line) : StopsBehind (A ++ (L ++ C)) (printLines A ++ p) n := by
  obtain ⟨A', l, B, q, h1, h2, h3, h4⟩ := h
  refine ⟨A ++ A', l, B ++ C, q, by simp [h1], by simp [h2, printLines_append], h3, h4.imp id ?_⟩
  rintro ⟨h5, h6, h7⟩
  refine ⟨h5, ?_, h7⟩
  cases B with
  | nil => simp at h6
  | cons b B => exact h6

theorem StopsBehind.then {L : List Line} {p : List Glyph} {n : Nat} (h : StopsBehind L p n)
    (C : List Line) : StopsBehind (L ++ C) p n := by simpa [printLines] using h.within [] C

theorem StopsBehind.front {L : List Line} {p : List Glyph} {n : Nat} (h : StopsBehind L p n)
    (A : List Line) : StopsBehind (A ++ L) (printLines A ++ p) n := by simpa using h.within A []

theorem StopsBehind.inFirst {A : List Line} (hA : A ≠ []) {L : List Line} {p : List Glyph} {n : Nat}
    (h : StopsBehind L p n) (C : List Line) : StopsIn (A ++ (L ++ C)) (printLines A ++ p) n := by
  obtain ⟨A', l, B, q, h1, h2, h3, h4⟩ := h
  refine ⟨A ++ A', l, B ++ C, q, by simp [h1], by simp [h2, printLines_append], h3, h4.imp id ?_⟩
  rintro ⟨h5, h6, h7⟩
  refine ⟨by simp [hA], h5, ?_, h7⟩
  cases B with
  | nil => simp at h6
  | cons b B => exact h6

/-- A failure while writing a line at its level. -/
theorem StopsBehind.line {l : Line} {i : Nat} {g p : List Glyph} {n : Nat} (h : FlatP i g p n)
    (hl : l.level = i) (hg : g <+: l.print) : StopsBehind [l] p n :=
  ⟨[], l, [], p, rfl, by simp [printLines], h.1.trans hg, Or.inl (h.2.trans hl.symm)⟩

theorem prefix_lines {L : List Line} {p : List Glyph} (hL : L ≠ []) (h : p <+: printLines L) :
    ∃ A l B q, L = A ++ l :: B ∧ p = printLines A ++ q ∧ q <+: l.print := by
  induction L generalizing p with
  | nil => exact absurd rfl hL
  | cons l L ih =>
    rw [printLines_cons] at h
    by_cases hlen : p.length ≤ l.print.length
    · exact ⟨[], l, L, p, rfl, by simp [printLines],
        List.prefix_of_prefix_length_le h (List.prefix_append _ _) hlen⟩
    · have h1 : l.print <+: p := List.prefix_of_prefix_length_le (List.prefix_append _ _) h (by omega)
      obtain ⟨q, rfl⟩ := h1
      rw [List.prefix_append_right_inj] at h
      cases L with
      | nil =>
        simp only [printLines, List.flatMap_nil, List.prefix_nil] at h
        subst h
        exact absurd (by simp) hlen
      | cons l' L =>
        obtain ⟨A, m, B, q', e1, e2, e3⟩ := ih (by simp) h
        exact ⟨l :: A, m, B, q', by simp [e1], by simp [e2, printLines_cons], e3⟩

/-- A failure while writing lines of one level. -/
theorem StopsBehind.level {L : List Line} (hL : L ≠ []) {i : Nat} {p : List Glyph} {n : Nat}
    (h : FlatP i (printLines L) p n) (hl : ∀ l ∈ L, l.level = i) : StopsBehind L p n := by
  obtain ⟨A, l, B, q, h1, h2, h3⟩ := prefix_lines hL h.1
  exact ⟨A, l, B, q, h1, h2, h3, Or.inl (h.2.trans (hl l (by simp [h1])).symm)⟩

/-! ### The recursive part -/

theorem logLines_ne (w : Settings) (level : Nat) (l : CallLog) : logLines w level l ≠ [] := by
  unfold logLines
  cases l.decoded.name with
  | some name => simp
  | none => cases l.rawLog.topics <;> simp

theorem logLines_levels (w : Settings) (level : Nat) (l : CallLog) :
    ∀ x ∈ logLines w level l, x.level = level := by
  intro x hx
  unfold logLines at hx
  cases hn : l.decoded.name with
  | some name => simp [hn] at hx; simp [hx]
  | none =>
    cases ht : l.rawLog.topics with
    | nil => simp [hn, ht] at hx; simp [hx]
    | cons t ts =>
      simp only [hn, ht, List.mem_cons, List.mem_append, List.mem_map, List.not_mem_nil, or_false] at hx
      rcases hx with rfl | ⟨p, _, rfl⟩ | rfl <;> rfl

/-- The first line for the items of a frame is at the level of the open internal calls. -/
theorem lines_head (w : Settings) (x : Node) (base : Nat) : ∀ (items : DocItems)
    (opens : List (Nat × Option (List String))) (n : Nat) (l : Line) (r : List Line),
    items.lines w x base opens n = l :: r → l.level = base + opens.length
  | .nil, opens, n, l, r, h => by simp [DocItems.lines] at h
  | .log lg rest, opens, n, l, r, h => by
    simp only [DocItems.lines] at h
    cases hl : logLines w (base + opens.length) lg with
    | nil => exact absurd hl (logLines_ne _ _ _)
    | cons a as =>
      rw [hl] at h
      simp only [List.cons_append, List.cons.injEq] at h
      rw [← h.1]
      exact logLines_levels w _ lg a (by simp [hl])
  | .sub d rest, opens, n, l, r, h => by
    obtain ⟨y, its⟩ := d
    simp only [DocItems.lines, Doc.lines, List.cons_append, List.cons.injEq] at h
    rw [← h.1]
  | .step s rest, opens, n, l, r, h => by
    by_cases hend : (opens.map (·.1)).head? = some n
    · cases opens with
      | nil => simp at hend
      | cons o opens' =>
        obtain ⟨e, ret⟩ := o
        simp only [List.map_cons, List.head?_cons, Option.some.injEq] at hend
        subst hend
        simp only [DocItems.lines, if_true, List.cons.injEq] at h
        rw [← h.1]
    · rw [lines_step hend] at h
      cases hd : s.decoded with
      | none => rw [hd] at h; exact lines_head w x base rest opens (n + 1) l r h
      | some dec =>
        rw [hd] at h
        cases dec <;> simp only [List.cons.injEq] at h <;> rw [← h.1]

theorem Does.loopStop {w : Settings} {k : Sink} {nodes : List Node} {idx j i fuel : Nat} {x : Node}
    {u : Until} (hx : nodes[idx]? = some x) (hu : Does (u.eval x j) i [] true i (fun _ _ => False)) :
    Does (writeItemsUntil w k nodes (fuel + 1) idx j u) i [] j i (fun _ _ => False) := by
  simp only [writeItemsUntil]
  exact (Does.index hx i).after (hu.after (by simp only [if_true]; exact Does.pure _ i))

theorem Does.loopNext {w : Settings} {k : Sink} {nodes : List Node} {idx j j1 j2 i fuel : Nat}
    {x : Node} {u : Until} {L1 L2 : List Line} (hx : nodes[idx]? = some x)
    (hu : Does (u.eval x j) i [] false i (fun _ _ => False))
    (h1 : Does (writeItem w k nodes fuel idx j) i (printLines L1) j1 i (StopsBehind L1))
    (h2 : Does (writeItemsUntil w k nodes fuel idx j1 u) i (printLines L2) j2 i (StopsBehind L2)) :
    Does (writeItemsUntil w k nodes (fuel + 1) idx j u) i (printLines (L1 ++ L2)) j2 i
      (StopsBehind (L1 ++ L2)) := by
  simp only [writeItemsUntil]
  refine (Does.index hx i).after (hu.after ?_)
  simp only [Bool.false_eq_true, if_false]
  rw [printLines_append]
  exact h1.bind h2 (fun _ _ h => h.then _) (fun _ _ h => h.front _)

theorem Does.evalStop {x : Node} {j : Nat} {o : TraceMemberOrder}
    (h : x.ordering[j]? = some o) (opens : List (Nat × Option (List String))) (i : Nat)
    (hne : ∀ e, (opens.map (·.1)).head? = some e → o ≠ .step e) :
    Does ((stopOf x opens).eval x j) i [] false i (fun _ _ => False) := by
  cases opens with
  | nil =>
    have hj : j < x.ordering.length := by
      apply Classical.byContradiction; intro hc
      rw [List.getElem?_eq_none (by omega)] at h; simp at h
    have : decide (j = x.ordering.length) = false := by simp; omega
    have hp := Does.pure (decide (j = x.ordering.length)) i
    rw [this] at hp
    simp only [stopOf, Until.eval, this]
    exact hp
  | cons p opens' =>
    obtain ⟨e, r⟩ := p
    have hd : decide (o = .step e) = false := by
      simp only [decide_eq_false_iff_not]; exact hne e rfl
    have hp := (Does.index h i).after (f := fun o => (Pure.pure (decide (o = .step e)) : W Bool))
      (Does.pure (decide (o = .step e)) i)
    rw [hd] at hp
    exact hp

/-- The claim about the items of a node, for items of size below `N`. -/
def ItemsLeave (w : Settings) (k : Sink) (nodes : List Node) (K N : Nat) : Prop :=
  ∀ (items : DocItems), sizeOf items < N →
  ∀ (idx : Nat) (x : Node) (j n base fuel : Nat) (opens : List (Nat × Option (List String))),
    nodes[idx]? = some x → j ≤ x.ordering.length →
    UnfoldsItems nodes idx x (x.ordering.drop j) n items → items.Nested (opens.map (·.1)) n →
    (∀ l ∈ items.lines w x base opens n, l.level < 65536) →
    (nodes.length - idx) * K + 3 * (x.ordering.length - j) + 2 ≤ fuel →
    ∃ L1 j', j ≤ j' ∧
      After w nodes idx x base opens (sizeOf items) (items.lines w x base opens n) L1 j' ∧
      Does (writeItemsUntil w k nodes fuel idx j (stopOf x opens)) (base + opens.length)
        (printLines L1) j' (base + opens.length) (StopsBehind L1)

/-- The claim about a node, for documents of size below `N`. -/
def DocLeaves (w : Settings) (k : Sink) (nodes : List Node) (K N : Nat) : Prop :=
  ∀ (d : Doc), sizeOf d < N → ∀ (idx level fuel : Nat), Unfolds nodes idx d → d.Nested →
    (∀ l ∈ d.lines w level, l.level < 65536) → (nodes.length + 1 - idx) * K ≤ fuel →
    Does (writeNode w k nodes fuel idx) level (printLines (d.lines w level)) () level
      (StopsIn (d.lines w level))

/-- One line written in pieces at its level. -/
theorem Does.line {m : W α} {i i' : Nat} {a : α} {l : Line} (h : Does m i l.print a i' (FlatP i l.print))
    (hl : l.level = i) : Does m i (printLines [l]) a i' (StopsBehind [l]) := by
  have := h.weaken (Q := StopsBehind [l]) (fun p n hp => StopsBehind.line hp hl (List.prefix_refl _))
  simpa [printLines] using this

/-- A piece of a line written at its level, `A` being what was written of the line before. -/
theorem Does.piece {m : W α} {f : α → W β} {i i2 : Nat} {g1 g2 A : List Glyph} {a : α} {b : β} {l : Line}
    (h1 : Does m i g1 a i (FlatP i g1))
    (h2 : Does (f a) i g2 b i2 (fun p n => StopsBehind [l] (A ++ g1 ++ p) n)) (hl : l.level = i)
    (hg : A ++ g1 <+: l.print) :
    Does (m >>= f) i (g1 ++ g2) b i2 (fun p n => StopsBehind [l] (A ++ p) n) := by
  refine h1.bind h2 ?_ (fun p n h => by simpa using h)
  intro p n hp
  exact ⟨[], l, [], _, rfl, by simp [printLines], ((List.prefix_append_right_inj A).2 hp.1).trans hg,
    Or.inl (hp.2.trans hl.symm)⟩

theorem leaves (w : Settings) (k : Sink) (nodes : List Node) (K : Nat)
    (hK : ∀ x ∈ nodes, 3 * x.ordering.length + 3 ≤ K) :
    ∀ N, DocLeaves w k nodes K N ∧ ItemsLeave w k nodes K N := by
  intro N
  induction N with
  | zero => exact ⟨fun d h => absurd h (by omega), fun d h => absurd h (by omega)⟩
  | succ N ih =>
    obtain ⟨ihd, ihi⟩ := ih
    constructor
    · -- a node
      intro d hsz idx level fuel hu hn hlev hf
      obtain ⟨x, items⟩ := d
      simp only [Unfolds] at hu
      obtain ⟨hx, hu⟩ := hu
      simp only [Doc.Nested] at hn
      simp only [Doc.lines] at hlev ⊢
      have hidx : idx < nodes.length := by
        apply Classical.byContradiction; intro hc
        rw [List.getElem?_eq_none (by omega)] at hx; simp at hx
      have hKx := hK x (List.mem_of_getElem? hx)
      have hmul : (nodes.length + 1 - idx) * K = (nodes.length - idx) * K + K := by
        rw [show nodes.length + 1 - idx = (nodes.length - idx) + 1 by omega, Nat.add_mul, Nat.one_mul]
      obtain ⟨f, rfl⟩ : ∃ f, fuel = f + 1 := ⟨fuel - 1, by omega⟩
      obtain ⟨L1, j', _, ha, hp⟩ := ihi items (by simp at hsz; omega) idx x 0 0 (level + 1) f [] hx
        (Nat.zero_le _) hu hn (fun l hl => hlev l (by simp [hl])) (by omega)
      obtain ⟨hL, hj'⟩ := ha
      have hup : level + 1 < 65536 := hlev ⟨level + 1, .edge, footerText w x.trace⟩ (by simp)
      rw [hL]
      generalize hl0 : (⟨level, .branch, headerText w x.trace⟩ : Line) = l0
      generalize hl9 : (⟨level + 1, .edge, footerText w x.trace⟩ : Line) = l9
      have hfoot : Does (writeEdge k >>= fun _ => writeTraceFooter w k x.trace >>= fun _ =>
          emit k (txt "\n") >>= fun _ => indentDown) (level + 1) (printLines [l9]) () level
          (StopsBehind [l9]) := by
        have h1 : l9.print = margin (level + 1) .edge ++ (footerText w x.trace ++ txt "\n") := by
          rw [← hl9]; simp [Line.print, newline]
        have hpre : ∀ {p q : List Glyph} {n : Nat} (A : List Glyph), FlatP (level + 1) q p n → A ++ q <+: l9.print →
            StopsBehind [l9] (A ++ p) n := fun A hp hq =>
          ⟨[], l9, [], _, rfl, by simp [printLines], ((List.prefix_append_right_inj A).2 hp.1).trans hq,
            Or.inl (by rw [hp.2, ← hl9])⟩
        have h2 : printLines [l9] = margin (level + 1) .edge ++ (footerText w x.trace ++ (txt "\n" ++ [])) := by
          simp [printLines, h1]
        rw [h2]
        refine (Does.flat (Prints.edge k (level + 1)) (Keeps.edge k)).bind
          (P2 := fun p n => StopsBehind [l9] (margin (level + 1) .edge ++ p) n)
          ((Does.flat (Prints.footer w k x.trace (level + 1)) (Keeps.footer w k _)).bind
            (P2 := fun p n => StopsBehind [l9] (margin (level + 1) .edge ++ (footerText w x.trace ++ p)) n)
            ((Does.flat (Prints.emit k _ (level + 1)) (Keeps.emit k _)).bind
              (Does.indentDown level) ?_ (fun _ _ h => h.elim)) ?_ (fun _ _ h => h))
          ?_ (fun _ _ h => h)
        · intro p n hp
          rw [← List.append_assoc]
          exact hpre _ hp (by rw [h1]; simp)
        · intro p n hp
          exact hpre _ hp (by rw [h1]; simp)
        · intro p n hp
          simpa using hpre [] hp (by rw [h1]; simp)
      have hrest : Does (writeItemsUntil w k nodes f idx 0 (.at x.ordering.length) >>= fun _ =>
          writeEdge k >>= fun _ => writeTraceFooter w k x.trace >>= fun _ =>
          emit k (txt "\n") >>= fun _ => indentDown) (level + 1) (printLines (L1 ++ [l9])) () level
          (StopsBehind (L1 ++ [l9])) := by
        rw [printLines_append]
        exact hp.bind hfoot (fun _ _ h => h.then _) (fun _ _ h => h.front _)
      simp only [writeNode]
      have h1 : l0.print = margin level .branch ++ (headerText w x.trace ++ txt "\n") := by
        rw [← hl0]; simp [Line.print, newline]
      have hpre : ∀ {p q : List Glyph} {n : Nat} (A : List Glyph), FlatP level q p n → A ++ q <+: l0.print →
          StopsIn (l0 :: (L1 ++ [l9])) (A ++ p) n := fun A hp hq =>
        ⟨[], l0, _, _, rfl, by simp [printLines], ((List.prefix_append_right_inj A).2 hp.1).trans hq,
          Or.inl (by rw [hp.2, ← hl0])⟩
      have h2 : printLines (l0 :: (L1 ++ [l9])) =
          margin level .branch ++ (headerText w x.trace ++ (txt "\n" ++ printLines (L1 ++ [l9]))) := by
        simp [printLines_cons, h1]
      rw [h2]
      refine (Does.index hx level).after ((Does.flat (Prints.branch k level) (Keeps.branch k)).bind
        (P2 := fun p n => StopsIn (l0 :: (L1 ++ [l9])) (margin level .branch ++ p) n)
        ((Does.flat (Prints.header w k x.trace level) (Keeps.header w k _)).bind
          (P2 := fun p n => StopsIn (l0 :: (L1 ++ [l9])) (margin level .branch ++ (headerText w x.trace ++ p)) n)
          ((Does.flat (Prints.emit k _ level) (Keeps.emit k _)).bind
            ((Does.indentUp hup).after hrest) ?_ ?_) ?_ (fun _ _ h => h)) ?_ (fun _ _ h => h))
      · intro p n hp
        rw [← List.append_assoc]
        exact hpre _ hp (by rw [h1]; simp)
      · intro p n hp
        have := hp.inFirst (A := [l0]) (by simp) []
        simpa [printLines_cons, printLines, h1] using this
      · intro p n hp
        exact hpre _ hp (by rw [h1]; simp)
      · intro p n hp
        simpa using hpre [] hp (by rw [h1]; simp)
    · -- the items of a node
      intro items hsz idx x j n base fuel opens hx hj hu hn hlev hf
      have hidx : idx < nodes.length := by
        apply Classical.byContradiction; intro hc
        rw [List.getElem?_eq_none (by omega)] at hx; simp at hx
      obtain ⟨f, rfl⟩ : ∃ f, fuel = f + 1 := ⟨fuel - 1, by omega⟩
      cases items with
      | nil =>
        simp only [UnfoldsItems] at hu
        simp only [DocItems.Nested, List.map_eq_nil_iff] at hn
        subst hn
        have hjl : j = x.ordering.length := by
          have := congrArg List.length hu
          simp at this; omega
        refine ⟨[], j, Nat.le_refl _, ⟨rfl, hjl⟩, ?_⟩
        refine (Does.loopStop hx ?_).weaken (fun _ _ h => h.elim)
        have hp := Does.pure (decide (j = x.ordering.length)) (base + 0)
        rw [show decide (j = x.ordering.length) = true by simp [hjl]] at hp
        simp only [stopOf, Until.eval, show decide (j = x.ordering.length) = true by simp [hjl]]
        exact hp
      | log l rest =>
        simp only [UnfoldsItems] at hu
        obtain ⟨i, os', ho, hl, hu⟩ := hu
        obtain ⟨hoj, hdrop, hjlt⟩ := drop_cons ho
        simp only [DocItems.Nested] at hn
        simp only [DocItems.lines] at hlev ⊢
        obtain ⟨L1, j', hjj, ha, hp⟩ := ihi rest (by simp at hsz; omega) idx x (j + 1) n base f opens hx
          (by omega) (by rw [hdrop]; exact hu) hn (fun l' hl' => hlev l' (by simp [hl'])) (by omega)
        refine ⟨logLines w (base + opens.length) l ++ L1, j', by omega, ha.mono (by simp) _, ?_⟩
        refine Does.loopNext hx (Does.evalStop hoj opens _ (by intro e _ h; simp at h)) ?_ hp
        obtain ⟨f', rfl⟩ : ∃ f', f = f' + 1 := ⟨f - 1, by omega⟩
        simp only [writeItem]
        exact (Does.index hx _).after ((Does.index hoj _).after ((Does.index hl _).after
          (((Does.flat (Prints.log w k l _) (Keeps.log w k l)).weaken (fun p n hp =>
            StopsBehind.level (logLines_ne _ _ _) hp (logLines_levels _ _ _))).before (Does.pure _ _))))
      | sub d rest =>
        simp only [UnfoldsItems] at hu
        obtain ⟨i, c, os', ho, hc, hlt, hud, hu⟩ := hu
        obtain ⟨hoj, hdrop, hjlt⟩ := drop_cons ho
        simp only [DocItems.Nested] at hn
        simp only [DocItems.lines] at hlev ⊢
        obtain ⟨L1, j', hjj, ha, hp⟩ := ihi rest (by simp at hsz; omega) idx x (j + 1) n base f opens hx
          (by omega) (by rw [hdrop]; exact hu) hn.2 (fun l' hl' => hlev l' (by simp [hl'])) (by omega)
        refine ⟨d.lines w (base + opens.length) ++ L1, j', by omega, ha.mono (by simp) _, ?_⟩
        refine Does.loopNext hx (Does.evalStop hoj opens _ (by intro e _ h; simp at h)) ?_ hp
        obtain ⟨f', rfl⟩ : ∃ f', f = f' + 1 := ⟨f - 1, by omega⟩
        have hmul : (nodes.length + 1 - c) * K ≤ (nodes.length - idx) * K :=
          Nat.mul_le_mul_right K (by omega)
        have hd := ihd d (by simp at hsz; omega) c (base + opens.length) f' hud hn.1
          (fun l' hl' => hlev l' (by simp [hl'])) (by omega)
        simp only [writeItem]
        exact (Does.index hx _).after ((Does.index hoj _).after ((Does.index hc _).after
          ((hd.weaken (fun _ _ h => stopsIn_behind h)).before (Does.pure _ _))))
      | step s rest =>
        simp only [UnfoldsItems] at hu
        obtain ⟨os', ho, hs, hu⟩ := hu
        obtain ⟨hoj, hdrop, hjlt⟩ := drop_cons ho
        simp only [DocItems.Nested] at hn
        by_cases hend : (opens.map (·.1)).head? = some n
        · -- the awaited end of the innermost internal call
          cases opens with
          | nil => simp at hend
          | cons o opens' =>
            obtain ⟨e, ret⟩ := o
            simp only [List.map_cons, List.head?_cons, Option.some.injEq] at hend
            subst hend
            simp only [List.map_cons, List.head?_cons, if_true, List.tail_cons] at hn
            refine ⟨[], j, Nat.le_refl _, ⟨rest, ?_, by simp; omega, hjlt, ?_, by rw [hdrop]; exact hu, hn⟩, ?_⟩
            · simp only [DocItems.lines, if_true, List.nil_append]
            · apply Classical.byContradiction; intro hc
              rw [List.getElem?_eq_none (by omega)] at hs; simp at hs
            · refine (Does.loopStop hx ?_).weaken (fun _ _ h => h.elim)
              have hp := (Does.index hoj (base + ((e, ret) :: opens').length)).after
                (f := fun o => (Pure.pure (decide (o = .step e)) : W Bool))
                (Does.pure (decide (TraceMemberOrder.step e = .step e)) _)
              rw [show decide (TraceMemberOrder.step e = TraceMemberOrder.step e) = true by simp] at hp
              exact hp
        · rw [if_neg hend] at hn
          rw [lines_step hend] at hlev ⊢
          obtain ⟨f', rfl⟩ : ∃ f', f = f' + 1 := ⟨f - 1, by omega⟩
          have hev : Does ((stopOf x opens).eval x j) (base + opens.length) [] false
              (base + opens.length) (fun _ _ => False) :=
            Does.evalStop hoj opens _ (by
              intro e he h
              simp only [TraceMemberOrder.step.injEq] at h
              exact hend (by rw [he, h]))
          cases hdec : s.decoded with
          | none =>
            rw [hdec] at hn hlev
            simp only at hn hlev ⊢
            obtain ⟨L1, j', hjj, ha, hp⟩ := ihi rest (by simp at hsz; omega) idx x (j + 1) (n + 1) base
              (f' + 1) opens hx (by omega) (by rw [hdrop]; exact hu) hn hlev (by omega)
            refine ⟨[] ++ L1, j', by omega, ha.mono (by simp) [], ?_⟩
            refine Does.loopNext hx hev ?_ hp
            obtain ⟨f'', rfl⟩ : ∃ f'', f' = f'' + 1 := ⟨f' - 1, by omega⟩
            simp only [writeItem]
            refine (Does.index hx _).after ((Does.index hoj _).after ?_)
            simp only [writeStep]
            refine (Does.index hx _).after ((Does.index hs _).after ?_)
            rw [hdec]
            exact (Does.pure _ _).weaken (fun _ _ h => h.elim)
          | some dec =>
            cases dec with
            | line t =>
              rw [hdec] at hn hlev
              simp only at hn hlev ⊢
              obtain ⟨L1, j', hjj, ha, hp⟩ := ihi rest (by simp at hsz; omega) idx x (j + 1) (n + 1) base
                (f' + 1) opens hx (by omega) (by rw [hdrop]; exact hu) hn
                (fun l' hl' => hlev l' (by simp [hl'])) (by omega)
              refine ⟨_, j', by omega, ha.mono (by simp) [⟨base + opens.length, .branch, txt t⟩], ?_⟩
              refine Does.loopNext hx hev ?_ hp
              obtain ⟨f'', rfl⟩ : ∃ f'', f' = f'' + 1 := ⟨f' - 1, by omega⟩
              simp only [writeItem]
              refine (Does.index hx _).after ((Does.index hoj _).after ?_)
              simp only [writeStep]
              refine (Does.index hx _).after ((Does.index hs _).after ?_)
              rw [hdec]
              have hw := Does.flat ((Prints.branch k (base + opens.length)).bind
                ((Prints.emit k (txt t ++ txt "\n") _).bindEnd (Prints.pure k (j + 1) _)))
                ((Keeps.branch k).bind fun _ => (Keeps.emit k _).bind fun _ => Keeps.pure _)
              have hg : margin (base + opens.length) .branch ++ (txt t ++ txt "\n") =
                  (⟨base + opens.length, .branch, txt t⟩ : Line).print := by simp [Line.print, newline]
              rw [hg] at hw
              exact hw.line rfl
            | internalCall c e =>
              rw [hdec] at hn hlev
              simp only at hn hlev ⊢
              obtain ⟨hne, hhead, hn⟩ := hn
              obtain ⟨f'', rfl⟩ : ∃ f'', f' = f'' + 1 := ⟨f' - 1, by omega⟩
              -- the inside of the internal call
              obtain ⟨L1, j1, hj1, ha, hp⟩ := ihi rest (by simp at hsz; omega) idx x (j + 1) (n + 1) base
                f'' ((e, c.returnData) :: opens) hx (by omega) (by rw [hdrop]; exact hu) hn
                (fun l' hl' => hlev l' (by simp [hl'])) (by omega)
              obtain ⟨items2, hL, hsz2, hj1lt, helt, hu2, hn2⟩ := ha
              have hfirst : (L1 ++ [(⟨base + opens.length + 1, .edge, internalEnd c.returnData⟩ : Line)]).head?.map
                  Line.level = some (base + opens.length + 1) := by
                cases L1 with
                | nil => rfl
                | cons a as =>
                  have := lines_head w x base rest ((e, c.returnData) :: opens) (n + 1) a _ hL
                  simp only [List.cons_append, List.head?_cons, Option.map_some, Option.some.injEq]
                  simp only [List.length_cons] at this
                  omega
              rw [hL] at hlev ⊢
              have hup : base + opens.length + 1 < 65536 := by
                have := hlev ⟨base + ((e, c.returnData) :: opens).length, .edge,
                  internalEnd c.returnData⟩ (by simp)
                simp only [List.length_cons] at this
                omega
              -- what follows it
              obtain ⟨L2, j2, hj2, ha2, hp2⟩ := ihi items2 (by simp at hsz; omega) idx x (j1 + 1) (e + 1)
                base (f'' + 1 + 1) opens hx (by omega) hu2 hn2
                (fun l' hl' => hlev l' (by simp [hl'])) (by omega)
              refine ⟨⟨base + opens.length, .branch, internalText x s c e⟩ :: (L1 ++
                [⟨base + opens.length + 1, .edge, internalEnd c.returnData⟩]) ++ L2, j2, by omega, ?_, ?_⟩
              · have := ha2.mono (sz' := sizeOf (DocItems.step s rest)) (by simp; omega)
                  (⟨base + opens.length, .branch, internalText x s c e⟩ :: (L1 ++
                    [⟨base + opens.length + 1, .edge, internalEnd c.returnData⟩]))
                simpa [Nat.add_assoc] using this
              · refine Does.loopNext hx hev ?_ hp2
                simp only [writeItem]
                refine (Does.index hx _).after ((Does.index hoj _).after ?_)
                simp only [writeStep]
                obtain ⟨last, hlast⟩ : ∃ last, x.trace.steps[e]? = some last :=
                  ⟨_, List.getElem?_eq_getElem helt⟩
                refine (Does.index hx _).after ((Does.index hs _).after ?_)
                rw [hdec]
                refine (Does.index hlast _).after ?_
                generalize hi : base + opens.length = i at *
                have hret : Prints k (match c.returnData with
                    | some outputs => emit k (txt (String.intercalate ", " outputs))
                    | none => Pure.pure ()) (i + 1)
                    (txt (String.intercalate ", " (c.returnData.getD []))) ()
                    (i + 1) := by
                  cases c.returnData with
                  | none => exact Prints.pure k () _
                  | some r => exact Prints.emit k _ _
                have hretk : Keeps (match c.returnData with
                    | some outputs => emit k (txt (String.intercalate ", " outputs))
                    | none => Pure.pure ()) := by
                  cases c.returnData with
                  | none => exact Keeps.pure _
                  | some r => exact Keeps.emit k _
                have hlen : base + ((e, c.returnData) :: opens).length = i + 1 := by
                  simp only [List.length_cons]; omega
                rw [hlen] at hp
                generalize hl9 : (⟨i + 1, .edge, internalEnd c.returnData⟩ : Line) = l9 at *
                generalize hl0 : (⟨i, .branch, internalText x s c e⟩ : Line) = l0
                have hend : Does (writeEdge k >>= fun _ => emit k (txt RETURN) >>= fun _ =>
                    (match c.returnData with
                    | some outputs => emit k (txt (String.intercalate ", " outputs))
                    | none => Pure.pure ()) >>= fun _ => emit k (txt "\n") >>= fun _ =>
                    indentDown >>= fun _ => (Pure.pure (j1 + 1) : W Nat)) (i + 1)
                    (printLines [l9]) (j1 + 1) i (StopsBehind [l9]) := by
                  have hg : l9.print = margin (i + 1) .edge ++ (txt RETURN ++
                      (txt (String.intercalate ", " (c.returnData.getD [])) ++ txt "\n")) := by
                    have hr : txt "← " = txt RETURN := rfl
                    rw [← hl9]
                    simp [Line.print, newline, internalEnd, txt_append, hr]
                  have hlv : l9.level = i + 1 := by rw [← hl9]
                  have h2 : printLines [l9] = margin (i + 1) .edge ++ (txt RETURN ++
                      (txt (String.intercalate ", " (c.returnData.getD [])) ++ (txt "\n" ++ []))) := by
                    simp [printLines, hg]
                  rw [h2]
                  refine (Does.piece (A := []) (l := l9) (Does.flat (Prints.edge k (i + 1)) (Keeps.edge k)) ?_ hlv
                    (by rw [hg]; simp)).weaken (fun p n h => by simpa using h)
                  refine Does.piece (Does.flat (Prints.emit k (txt RETURN) _) (Keeps.emit k _)) ?_ hlv
                    (by rw [hg]; simp)
                  refine Does.piece (Does.flat hret hretk) ?_ hlv (by rw [hg]; simp)
                  refine Does.piece (Does.flat (Prints.emit k (txt "\n") _) (Keeps.emit k _)) ?_ hlv
                    (by rw [hg]; simp)
                  exact ((Does.indentDown i).after (Does.pure (j1 + 1) i)).weaken (fun _ _ (h : False) => h.elim)
                have hbody := hp.bind (f := fun endItemIdx => writeEdge k >>= fun _ => emit k (txt RETURN) >>= fun _ =>
                    (match c.returnData with
                    | some outputs => emit k (txt (String.intercalate ", " outputs))
                    | none => Pure.pure ()) >>= fun _ => emit k (txt "\n") >>= fun _ =>
                    indentDown >>= fun _ => (Pure.pure (endItemIdx + 1) : W Nat))
                  (P := StopsBehind (L1 ++ [l9])) hend (fun _ _ h => h.then _) (fun _ _ h => h.front _)
                rw [← printLines_append] at hbody
                have h0 : l0.print = margin i .branch ++ (txt "[" ++ txt (toString (last.gasUsed - s.gasUsed)) ++
                    txt "] " ++ txt c.funcName ++ txt (match c.args with
                      | some args => "(" ++ String.intercalate ", " args ++ ")"
                      | none => "") ++ txt "\n") := by
                  rw [← hl0]
                  simp only [Line.print, newline, internalText, gasBetween, hlast, txt_append]
                  cases c.args <;> simp [toString_string]
                have h1 : printLines (l0 :: (L1 ++ [l9])) = margin i .branch ++ ((txt "[" ++
                    txt (toString (last.gasUsed - s.gasUsed)) ++
                    txt "] " ++ txt c.funcName ++ txt (match c.args with
                      | some args => "(" ++ String.intercalate ", " args ++ ")"
                      | none => "") ++ txt "\n") ++ printLines (L1 ++ [l9])) := by
                  rw [printLines_cons, h0, List.append_assoc]
                rw [h1]
                refine (Does.flat (Prints.branch k i) (Keeps.branch k)).bind
                  (P2 := fun p n => StopsBehind (l0 :: (L1 ++ [l9])) (margin i .branch ++ p) n)
                  ((Does.indentUp hup).after
                    ((Does.flat (Prints.emit k _ (i + 1)) (Keeps.emit k _)).bind hbody ?_ ?_))
                  ?_ (fun _ _ h => h)
                · intro p m hp
                  refine ⟨[], l0, _, margin i .branch ++ p, rfl, by simp [printLines], ?_, Or.inr ⟨?_, ?_, ?_⟩⟩
                  · rw [h0]
                    exact (List.prefix_append_right_inj _).2 hp.1
                  · rw [hp.2, ← hl0]
                  · rw [hp.2]; exact hfirst
                  · rw [← hl0]; exact List.prefix_append _ _
                · intro p m hp
                  have := hp.front [l0]
                  rw [printLines_cons, h0, show printLines [] = [] from rfl, List.append_nil,
                    List.append_assoc] at this
                  exact this
                · intro p m hp
                  refine ⟨[], l0, _, p, rfl, by simp [printLines], ?_, Or.inl (by rw [hp.2, ← hl0])⟩
                  rw [h0]
                  exact hp.1.trans (List.prefix_append _ _)

end Writer
end Verif
