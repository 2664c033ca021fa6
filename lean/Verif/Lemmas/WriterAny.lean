import Verif.Lemmas.WriterPanics
import Verif.Lemmas.WriterArena
import Verif.Spec.WriterAny
/-! Helper lemmas: printing an arena of any shape. -/
namespace Verif
open Spec
namespace Writer

/-- What `Printable` says of the node itself and of its sub-frames. -/
theorem printable_iff {nodes : List Node} {level idx : Nat} {x : Node} (hx : nodes[idx]? = some x) :
    Printable nodes level idx ↔ level + 1 < 65536 ∧ ∀ o ∈ x.ordering, Refers x o ∧
      ∀ k c, o = .call k → x.children[k]? = some c → Printable nodes (level + 1) c := by
  constructor
  · intro h
    obtain ⟨h0, y, hy, href⟩ := h idx 0 (.here idx)
    rw [hx] at hy
    cases hy
    refine ⟨by omega, fun o ho => ⟨href o ho, ?_⟩⟩
    rintro k c rfl hc i d hd
    obtain ⟨h1, h2⟩ := h i (d + 1) (.into hx ho hc hd)
    exact ⟨by omega, h2⟩
  · rintro ⟨h0, h⟩ i d hd
    cases hd with
    | here => exact ⟨by omega, x, hx, fun o ho => (h o ho).1⟩
    | into hy ho hc hd =>
      rw [hx] at hy
      cases hy
      obtain ⟨h1, h2⟩ := (h _ ho).2 _ _ rfl hc _ _ hd
      exact ⟨by omega, h2⟩

/-- An arena in which sub-frames come after the frames that made them. -/
def Forward (nodes : List Node) : Prop :=
  ∀ (i : Nat) (x : Node), nodes[i]? = some x → ∀ c ∈ x.children, i < c

theorem Prints.evalEnd {k : Sink} {x : Node} {j : Nat} (h : j < x.ordering.length) (i : Nat) :
    Prints k ((Until.at x.ordering.length).eval x j) i [] false i := by
  have hp := Prints.eval_at k x x.ordering.length j i
  rw [show decide (j = x.ordering.length) = false by simp; omega] at hp
  exact hp

/-- The fate of a node. -/
def NodeFate (w : Settings) (k : Sink) (nodes : List Node) (level fuel idx : Nat) : Prop :=
  (Printable nodes level idx ∧ ∃ d, Unfolds (nodes.map withoutSteps) idx d ∧
    Prints k (writeNode w k nodes fuel idx) level (printLines (d.lines w level)) () level) ∨
  (¬ Printable nodes level idx ∧ Fails k (writeNode w k nodes fuel idx) level)

theorem items_fate {w : Settings} {k : Sink} {nodes : List Node} {K idx base : Nat} {x : Node}
    (hplain : Plain x) (hx : nodes[idx]? = some x) (hfwd : ∀ c ∈ x.children, idx < c)
    (hsub : ∀ c, idx < c → ∀ fuel, 1 ≤ fuel → (nodes.length + 1 - c) * K ≤ fuel →
      NodeFate w k nodes base fuel c) :
    ∀ (os : List TraceMemberOrder) (j fuel : Nat), x.ordering.drop j = os → j ≤ x.ordering.length →
      (nodes.length - idx) * K + 3 * (x.ordering.length - j) + 2 ≤ fuel →
      ((∀ o ∈ os, Refers x o ∧ ∀ k c, o = .call k → x.children[k]? = some c → Printable nodes base c) ∧
        ∃ items, UnfoldsItems (nodes.map withoutSteps) idx (withoutSteps x) (os.filter notStep) 0 items ∧
          ∃ j', Prints k (writeItemsUntil w k nodes fuel idx j (.at x.ordering.length)) base
            (printLines (items.lines w (withoutSteps x) base [] 0)) j' base) ∨
      (¬ (∀ o ∈ os, Refers x o ∧ ∀ k c, o = .call k → x.children[k]? = some c → Printable nodes base c) ∧
        Fails k (writeItemsUntil w k nodes fuel idx j (.at x.ordering.length)) base) := by
  have hidx : idx < nodes.length := by
    apply Classical.byContradiction; intro hc
    rw [List.getElem?_eq_none (by omega)] at hx; simp at hx
  intro os
  induction os with
  | nil =>
    intro j fuel hd hj hf
    have hjl : j = x.ordering.length := by
      have := congrArg List.length hd
      simp at this; omega
    obtain ⟨f, rfl⟩ : ∃ f, fuel = f + 1 := ⟨fuel - 1, by omega⟩
    refine Or.inl ⟨by simp, .nil, by simp [UnfoldsItems], j, ?_⟩
    refine Prints.loopStop hx ?_
    have hp := Prints.eval_at k x x.ordering.length j base
    rw [show decide (j = x.ordering.length) = true by simp [hjl]] at hp
    exact hp
  | cons o os ih =>
    intro j fuel hd hj hf
    obtain ⟨hoj, hdrop, hjlt⟩ := drop_cons hd
    obtain ⟨f, rfl⟩ : ∃ f, fuel = f + 2 := ⟨fuel - 2, by omega⟩
    have hih := ih (j + 1) (f + 1) hdrop hjlt (by omega)
    have hev := Prints.evalEnd (k := k) hjlt base
    have hbad : ∀ {Q : Prop}, ¬ (Refers x o ∧ ∀ k c, o = .call k → x.children[k]? = some c →
        Printable nodes base c) → Fails k (writeItem w k nodes (f + 1) idx j) base →
        Q ∨ (¬ (∀ o' ∈ o :: os, Refers x o' ∧ ∀ k c, o' = .call k → x.children[k]? = some c →
          Printable nodes base c) ∧
        Fails k (writeItemsUntil w k nodes (f + 2) idx j (.at x.ordering.length)) base) :=
      fun hno hfail => Or.inr ⟨fun h => hno (h o (by simp)), Fails.loopItem hx hev hfail⟩
    have hgood : ∀ (g : List Glyph) (add : DocItems → DocItems),
        (Refers x o ∧ ∀ k c, o = .call k → x.children[k]? = some c → Printable nodes base c) →
        Prints k (writeItem w k nodes (f + 1) idx j) base g (j + 1) base →
        (∀ items, UnfoldsItems (nodes.map withoutSteps) idx (withoutSteps x) (os.filter notStep) 0 items →
          UnfoldsItems (nodes.map withoutSteps) idx (withoutSteps x) ((o :: os).filter notStep) 0 (add items) ∧
          printLines ((add items).lines w (withoutSteps x) base [] 0) =
            g ++ printLines (items.lines w (withoutSteps x) base [] 0)) →
        ((∀ o' ∈ o :: os, Refers x o' ∧ ∀ k c, o' = .call k → x.children[k]? = some c →
            Printable nodes base c) ∧
          ∃ items, UnfoldsItems (nodes.map withoutSteps) idx (withoutSteps x)
            ((o :: os).filter notStep) 0 items ∧
          ∃ j', Prints k (writeItemsUntil w k nodes (f + 2) idx j (.at x.ordering.length)) base
            (printLines (items.lines w (withoutSteps x) base [] 0)) j' base) ∨
        (¬ (∀ o' ∈ o :: os, Refers x o' ∧ ∀ k c, o' = .call k → x.children[k]? = some c →
            Printable nodes base c) ∧
          Fails k (writeItemsUntil w k nodes (f + 2) idx j (.at x.ordering.length)) base) := by
      intro g add ho hp hadd
      rcases hih with ⟨hall, items, hu, j', hrest⟩ | ⟨hno, hfail⟩
      · obtain ⟨hu', hl'⟩ := hadd items hu
        refine Or.inl ⟨by simpa using ⟨ho, hall⟩, add items, hu', j', ?_⟩
        rw [hl']
        exact Prints.loopNext hx hev hp hrest
      · exact Or.inr ⟨fun h => hno (fun o' ho' => h o' (List.mem_cons_of_mem _ ho')),
          Fails.loopNext hx hev hp hfail⟩
    cases o with
    | log i =>
      cases hl : x.logs[i]? with
      | none =>
        have hlen := List.getElem?_eq_none_iff.1 hl
        refine hbad (fun h => by have := h.1; simp only [Refers] at this; omega) ?_
        simp only [writeItem]
        exact (Prints.index hx _).thenFails ((Prints.index hoj _).thenFails (Fails.index hl _).bind)
      | some l =>
        have hlt : i < x.logs.length := by
          apply Classical.byContradiction; intro hc
          rw [List.getElem?_eq_none (by omega)] at hl; simp at hl
        refine hgood (printLines (logLines w base l)) (.log l) ⟨hlt, by intro _ _ h; simp at h⟩ ?_ ?_
        · simp only [writeItem]
          exact (Prints.index hx _).bind0 ((Prints.index hoj _).bind0 ((Prints.index hl _).bind0
            ((Prints.log w k l _).bindEnd (Prints.pure k _ _))))
        · intro items hu
          refine ⟨?_, by simp [DocItems.lines, printLines_append]⟩
          simp only [UnfoldsItems]
          exact ⟨i, _, rfl, hl, hu⟩
    | step i =>
      cases hs : x.trace.steps[i]? with
      | none =>
        have hlen := List.getElem?_eq_none_iff.1 hs
        refine hbad (fun h => by have := h.1; simp only [Refers] at this; omega) ?_
        simp only [writeItem]
        refine (Prints.index hx _).thenFails ((Prints.index hoj _).thenFails ?_)
        obtain ⟨f', rfl⟩ : ∃ f', f = f' + 1 := ⟨f - 1, by omega⟩
        simp only [writeStep]
        exact (Prints.index hx _).thenFails (Fails.index hs _).bind
      | some s =>
        have hlt : i < x.trace.steps.length := by
          apply Classical.byContradiction; intro hc
          rw [List.getElem?_eq_none (by omega)] at hs; simp at hs
        refine hgood [] id ⟨hlt, by intro _ _ h; simp at h⟩ ?_ ?_
        · simp only [writeItem]
          obtain ⟨f', rfl⟩ : ∃ f', f = f' + 1 := ⟨f - 1, by omega⟩
          refine (Prints.index hx _).bind0 ((Prints.index hoj _).bind0 ?_)
          simp only [writeStep]
          refine (Prints.index hx _).bind0 ((Prints.index hs _).bind0 ?_)
          rw [hplain s (List.mem_of_getElem? hs)]
          exact Prints.pure k _ _
        · intro items hu
          exact ⟨hu, rfl⟩
    | call i =>
      cases hc : x.children[i]? with
      | none =>
        have hlen := List.getElem?_eq_none_iff.1 hc
        refine hbad (fun h => by have := h.1; simp only [Refers] at this; omega) ?_
        simp only [writeItem]
        exact (Prints.index hx _).thenFails ((Prints.index hoj _).thenFails (Fails.index hc _).bind)
      | some c =>
        have hlt : i < x.children.length := by
          apply Classical.byContradiction; intro hc'
          rw [List.getElem?_eq_none (by omega)] at hc; simp at hc
        have hic := hfwd c (List.mem_of_getElem? hc)
        have hmul : (nodes.length + 1 - c) * K ≤ (nodes.length - idx) * K :=
          Nat.mul_le_mul_right K (by omega)
        rcases hsub c hic f (by omega) (by omega) with ⟨hpr, d, hud, hp⟩ | ⟨hno, hfail⟩
        · refine hgood (printLines (d.lines w base)) (.sub d) ⟨hlt, ?_⟩ ?_ ?_
          · intro k' c' h h'
            simp only [TraceMemberOrder.call.injEq] at h
            subst h
            rw [hc] at h'
            cases h'
            exact hpr
          · simp only [writeItem]
            exact (Prints.index hx _).bind0 ((Prints.index hoj _).bind0 ((Prints.index hc _).bind0
              (hp.bindEnd (Prints.pure k _ _))))
          · intro items hu
            refine ⟨?_, by simp [DocItems.lines, printLines_append]⟩
            simp only [UnfoldsItems]
            exact ⟨i, c, _, rfl, hc, hic, hud, hu⟩
        · refine hbad (fun h => hno (h.2 i c rfl hc)) ?_
          simp only [writeItem]
          exact (Prints.index hx _).thenFails ((Prints.index hoj _).thenFails
            ((Prints.index hc _).thenFails hfail.bind))

theorem node_fate {w : Settings} {k : Sink} {nodes : List Node} {K : Nat}
    (hK : ∀ x ∈ nodes, 3 * x.ordering.length + 3 ≤ K) (hplain : ∀ x ∈ nodes, Plain x)
    (hfwd : Forward nodes) : ∀ (m idx level fuel : Nat), nodes.length - idx ≤ m → 1 ≤ fuel →
      (nodes.length + 1 - idx) * K ≤ fuel → level < 65536 → NodeFate w k nodes level fuel idx := by
  intro m
  induction m with
  | zero =>
    intro idx level fuel hm h1 hf hlev
    have hx : nodes[idx]? = none := List.getElem?_eq_none (by omega)
    obtain ⟨f, rfl⟩ : ∃ f, fuel = f + 1 := ⟨fuel - 1, by omega⟩
    refine Or.inr ⟨fun h => ?_, ?_⟩
    · obtain ⟨-, x, hx', -⟩ := h idx 0 (.here idx)
      rw [hx] at hx'; simp at hx'
    · simp only [writeNode]
      exact (Fails.index hx _).bind
  | succ m ih =>
    intro idx level fuel hm h1 hf hlev
    obtain ⟨f, rfl⟩ : ∃ f, fuel = f + 1 := ⟨fuel - 1, by omega⟩
    cases hx : nodes[idx]? with
    | none =>
      refine Or.inr ⟨fun h => ?_, ?_⟩
      · obtain ⟨-, x, hx', -⟩ := h idx 0 (.here idx)
        rw [hx] at hx'; simp at hx'
      · simp only [writeNode]
        exact (Fails.index hx _).bind
    | some x =>
      have hidx : idx < nodes.length := by
        apply Classical.byContradiction; intro hc
        rw [List.getElem?_eq_none (by omega)] at hx; simp at hx
      have hKx := hK x (List.mem_of_getElem? hx)
      have hmul : (nodes.length + 1 - idx) * K = (nodes.length - idx) * K + K := by
        rw [show nodes.length + 1 - idx = (nodes.length - idx) + 1 by omega, Nat.add_mul, Nat.one_mul]
      unfold NodeFate
      rw [printable_iff hx]
      simp only [writeNode]
      by_cases hup : level + 1 < 65536
      · rcases items_fate (w := w) (k := k) (base := level + 1) (hplain x (List.mem_of_getElem? hx)) hx
          (hfwd idx x hx)
          (fun c hc fuel h1 h2 => ih c (level + 1) fuel (by omega) h1 h2 hup) x.ordering 0 f rfl
          (Nat.zero_le _) (by omega) with ⟨hall, items, hu, j', hp⟩ | ⟨hno, hfail⟩
        · refine Or.inl ⟨⟨hup, hall⟩, .mk (withoutSteps x) items, ?_, ?_⟩
          · simp only [Unfolds]
            exact ⟨by rw [List.getElem?_map, hx]; rfl, hu⟩
          · refine Prints.cast ((Prints.index hx level).bind0 ((Prints.branch k level).bind
              ((Prints.header w k x.trace level).bind ((Prints.emit k _ level).bind
              ((Prints.indentUp k hup).bind (hp.bind ((Prints.edge k (level + 1)).bind
              ((Prints.footer w k x.trace (level + 1)).bind ((Prints.emit k _ (level + 1)).bind
                (Prints.indentDown k level)))))))))) ?_
            have hh : headerText w (withoutSteps x).trace = headerText w x.trace := rfl
            have hfo : footerText w (withoutSteps x).trace = footerText w x.trace := rfl
            simp [Doc.lines, printLines, Line.print, newline, hh, hfo]
        · refine Or.inr ⟨fun h => hno h.2, ?_⟩
          exact (Prints.index hx level).thenFails ((Prints.branch k level).thenFails
            ((Prints.header w k x.trace level).thenFails ((Prints.emit k _ level).thenFails
            ((Prints.indentUp k hup).thenFails hfail.bind))))
      · refine Or.inr ⟨fun h => hup h.1, ?_⟩
        exact (Prints.index hx level).thenFails ((Prints.branch k level).thenFails
          ((Prints.header w k x.trace level).thenFails ((Prints.emit k _ level).thenFails
          (Fails.indentUp k hup).bind)))

end Writer
end Verif
