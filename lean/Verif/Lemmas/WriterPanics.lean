import Verif.Lemmas.Writer
/-! Helper lemmas about the text writer: when it panics. -/
namespace Verif
open Spec
namespace Writer

/-- Running `m` at indentation `i` panics (not for lack of fuel), or the sink fails before. -/
def Fails (k : Sink) (m : W α) (i : Nat) : Prop :=
  ∀ s : State, s.indent = i → ∃ s' f, m s = (.error f, s') ∧
    ((∃ p, f = .panic p ∧ p ≠ .diverge) ∨ (f = .io ∧ ∃ n c, k.fault n = some c))

theorem Fails.bind {k : Sink} {m : W α} {f : α → W β} {i : Nat} (h : Fails k m i) :
    Fails k (m >>= f) i := by
  intro s hs
  obtain ⟨s', e, he, hf⟩ := h s hs
  refine ⟨s', e, ?_, hf⟩
  show W.bind m f s = _
  unfold W.bind
  rw [he]

theorem Prints.thenFails {k : Sink} {m : W α} {f : α → W β} {i i1 : Nat} {g : List Glyph} {a : α}
    (h1 : Prints k m i g a i1) (h2 : Fails k (f a) i1) : Fails k (m >>= f) i := by
  intro s hs
  have hb : (m >>= f) s = W.bind m f s := rfl
  rw [hb]
  unfold W.bind
  rcases h1 s hs with ⟨s', he, _, hi⟩ | ⟨s', p, he, _, _, hk⟩
  · rw [he]; exact h2 s' hi
  · rw [he]; exact ⟨s', .io, rfl, Or.inr ⟨rfl, hk⟩⟩

theorem Fails.index {k : Sink} {l : List α} {j : Nat} (h : l[j]? = none) (i : Nat) :
    Fails k (Writer.index l j) i := by
  intro s _
  exact ⟨s, .panic .index, by simp [Writer.index, h], Or.inl ⟨.index, rfl, by simp⟩⟩

theorem Fails.indentUp (k : Sink) {i : Nat} (h : ¬ i + 1 < 65536) : Fails k indentUp i := by
  intro s hs
  exact ⟨s, .panic .arith, by simp [Writer.indentUp, hs, h], Or.inl ⟨.arith, rfl, by simp⟩⟩

theorem Fails.loopEval {w : Settings} {k : Sink} {nodes : List Node} {idx j i fuel : Nat} {x : Node}
    {u : Until} (hx : nodes[idx]? = some x) (hu : Fails k (u.eval x j) i) :
    Fails k (writeItemsUntil w k nodes (fuel + 1) idx j u) i := by
  simp only [writeItemsUntil]
  exact (Prints.index hx i).thenFails hu.bind

theorem Fails.loopItem {w : Settings} {k : Sink} {nodes : List Node} {idx j i fuel : Nat}
    {x : Node} {u : Until} (hx : nodes[idx]? = some x)
    (hu : Prints k (u.eval x j) i [] false i)
    (h1 : Fails k (writeItem w k nodes fuel idx j) i) :
    Fails k (writeItemsUntil w k nodes (fuel + 1) idx j u) i := by
  simp only [writeItemsUntil]
  refine (Prints.index hx i).thenFails (hu.thenFails ?_)
  simp only [Bool.false_eq_true, if_false]
  exact h1.bind

theorem Fails.loopNext {w : Settings} {k : Sink} {nodes : List Node} {idx j j1 i fuel : Nat}
    {x : Node} {u : Until} {g1 : List Glyph} (hx : nodes[idx]? = some x)
    (hu : Prints k (u.eval x j) i [] false i)
    (h1 : Prints k (writeItem w k nodes fuel idx j) i g1 j1 i)
    (h2 : Fails k (writeItemsUntil w k nodes fuel idx j1 u) i) :
    Fails k (writeItemsUntil w k nodes (fuel + 1) idx j u) i := by
  simp only [writeItemsUntil]
  refine (Prints.index hx i).thenFails (hu.thenFails ?_)
  simp only [Bool.false_eq_true, if_false]
  exact h1.thenFails h2

/-- The items can be printed: internal calls nested, levels within range. -/
def FineItems (w : Settings) (x : Node) (base : Nat) (opens : List (Nat × Option (List String)))
    (n : Nat) (items : DocItems) : Prop :=
  items.Nested (opens.map (·.1)) n ∧ ∀ l ∈ items.lines w x base opens n, l.level < 65536

/-- The document can be printed. -/
def FineDoc (w : Settings) (level : Nat) (d : Doc) : Prop :=
  d.Nested ∧ ∀ l ∈ d.lines w level, l.level < 65536

/-- The loop stops at item `j'`; everything before it can be printed, and what remains decides. -/
def Reaches (w : Settings) (nodes : List Node) (idx : Nat) (x : Node) (base : Nat)
    (opens : List (Nat × Option (List String))) (n : Nat) (items : DocItems) (j' : Nat) : Prop :=
  match opens with
  | [] => FineItems w x base [] n items ∧ j' = x.ordering.length
  | (e, ret) :: opens' => ∃ (items2 : DocItems) (L1 : List Line),
      items.lines w x base opens n =
        L1 ++ ⟨base + opens.length, .edge, internalEnd ret⟩ :: items2.lines w x base opens' (e + 1) ∧
      (∀ l ∈ L1, l.level < 65536) ∧
      (items.Nested (opens.map (·.1)) n ↔ items2.Nested (opens'.map (·.1)) (e + 1)) ∧
      sizeOf items2 < sizeOf items ∧ n ≤ e ∧ j' < x.ordering.length ∧ e < x.trace.steps.length ∧
      UnfoldsItems nodes idx x (x.ordering.drop (j' + 1)) (e + 1) items2

/-- Passing over a first item that can be printed. -/
theorem Reaches.over {w : Settings} {nodes : List Node} {idx : Nat} {x : Node} {base : Nat}
    {opens : List (Nat × Option (List String))} {n n' : Nat} {items rest : DocItems} {j' : Nat}
    {L : List Line} (h : Reaches w nodes idx x base opens n' rest j') (hn : n ≤ n')
    (hl : items.lines w x base opens n = L ++ rest.lines w x base opens n')
    (hL : ∀ l ∈ L, l.level < 65536) (hs : sizeOf rest ≤ sizeOf items)
    (hnest : items.Nested (opens.map (·.1)) n ↔ rest.Nested (opens.map (·.1)) n') :
    Reaches w nodes idx x base opens n items j' := by
  cases opens with
  | nil =>
    obtain ⟨⟨h1, h2⟩, h3⟩ := h
    refine ⟨⟨hnest.2 h1, ?_⟩, h3⟩
    intro l hm
    rw [hl, List.mem_append] at hm
    rcases hm with hm | hm
    · exact hL l hm
    · exact h2 l hm
  | cons o opens' =>
    obtain ⟨items2, L1, h1, h2, h3, h4, h5, h6⟩ := h
    refine ⟨items2, L ++ L1, by rw [hl, h1]; simp, ?_, hnest.trans h3, by omega, by omega, h6⟩
    intro l hm
    rw [List.mem_append] at hm
    rcases hm with hm | hm
    · exact hL l hm
    · exact h2 l hm

/-- What remains decides. -/
theorem FineItems.over {w : Settings} {x : Node} {base : Nat}
    {opens opens' : List (Nat × Option (List String))} {n n' : Nat} {items rest : DocItems}
    {L : List Line} (hl : items.lines w x base opens n = L ++ rest.lines w x base opens' n')
    (hnest : items.Nested (opens.map (·.1)) n → rest.Nested (opens'.map (·.1)) n')
    (h : ¬ FineItems w x base opens' n' rest) : ¬ FineItems w x base opens n items := by
  intro hf
  refine h ⟨hnest hf.1, fun l hm => hf.2 l ?_⟩
  rw [hl, List.mem_append]
  exact Or.inr hm

/-- The branch of `write_step` for an internal call. -/
def internalBody (w : Settings) (k : Sink) (nodes : List Node) (f idx j : Nat) (x : Node)
    (s : CallTraceStep) (c : DecodedInternalCall) (e : Nat) : W Nat := do
  let last ← index x.trace.steps e
  let gasUsed := last.gasUsed - s.gasUsed
  writeBranch k
  indentUp
  emit k (txt "[" ++ txt (toString gasUsed) ++ txt "] " ++ txt c.funcName ++
    txt (match c.args with
      | some args => "(" ++ String.intercalate ", " args ++ ")"
      | none => "") ++ txt "\n")
  let endItemIdx ← writeItemsUntil w k nodes f idx (j + 1) (.step e)
  writeEdge k
  emit k (txt RETURN)
  (match c.returnData with
    | some outputs => emit k (txt (String.intercalate ", " outputs))
    | none => pure ())
  emit k (txt "\n")
  indentDown
  pure (endItemIdx + 1)

/-- Either the loop reaches its end, or it fails and the items cannot be printed. -/
def ItemsFate (w : Settings) (k : Sink) (nodes : List Node) (K N : Nat) : Prop :=
  ∀ (items : DocItems), sizeOf items < N →
  ∀ (idx : Nat) (x : Node) (j n base fuel : Nat) (opens : List (Nat × Option (List String))),
    nodes[idx]? = some x → j ≤ x.ordering.length →
    UnfoldsItems nodes idx x (x.ordering.drop j) n items →
    base + opens.length < 65536 →
    (nodes.length - idx) * K + 3 * (x.ordering.length - j) + 2 ≤ fuel →
    (∃ j' g, j ≤ j' ∧ Reaches w nodes idx x base opens n items j' ∧
      Prints k (writeItemsUntil w k nodes fuel idx j (stopOf x opens)) (base + opens.length) g j'
        (base + opens.length)) ∨
    (Fails k (writeItemsUntil w k nodes fuel idx j (stopOf x opens)) (base + opens.length) ∧
      ¬ FineItems w x base opens n items)

/-- Either the node is printed, or it fails and the document cannot be printed. -/
def DocFate (w : Settings) (k : Sink) (nodes : List Node) (K N : Nat) : Prop :=
  ∀ (d : Doc), sizeOf d < N → ∀ (idx level fuel : Nat), Unfolds nodes idx d →
    level < 65536 → (nodes.length + 1 - idx) * K ≤ fuel →
    (∃ g, Prints k (writeNode w k nodes fuel idx) level g () level ∧ FineDoc w level d) ∨
    (Fails k (writeNode w k nodes fuel idx) level ∧ ¬ FineDoc w level d)

theorem logLines_at {w : Settings} {level : Nat} {l : CallLog} :
    ∀ a ∈ logLines w level l, a.level = level := by
  intro a ha
  unfold logLines at ha
  split at ha
  · simp only [List.mem_singleton] at ha; rw [ha]
  · split at ha
    · simp only [List.mem_singleton] at ha; rw [ha]
    · simp only [List.mem_cons, List.mem_append, List.mem_map] at ha
      rcases ha with rfl | ⟨p, _, rfl⟩ | ha
      · rfl
      · rfl
      · simp at ha; rw [ha]

/-- An open internal call of nested items shows a line one level in. -/
theorem nested_edge {w : Settings} {x : Node} {base : Nat} {o : Nat × Option (List String)}
    {opens' : List (Nat × Option (List String))} : ∀ (items : DocItems) {n : Nat},
    items.Nested ((o :: opens').map (·.1)) n →
    ∃ l ∈ items.lines w x base (o :: opens') n, l.level = base + opens'.length + 1
  | .nil, n, h => by simp [DocItems.Nested] at h
  | .log l rest, n, h => by
    simp only [DocItems.Nested] at h
    obtain ⟨a, ha, hl⟩ := nested_edge rest h
    exact ⟨a, by simp only [DocItems.lines, List.mem_append]; exact Or.inr ha, hl⟩
  | .sub d rest, n, h => by
    simp only [DocItems.Nested] at h
    obtain ⟨a, ha, hl⟩ := nested_edge rest h.2
    exact ⟨a, by simp only [DocItems.lines, List.mem_append]; exact Or.inr ha, hl⟩
  | .step s rest, n, h => by
    by_cases hend : ((o :: opens').map (·.1)).head? = some n
    · simp only [List.map_cons, List.head?_cons, Option.some.injEq] at hend
      refine ⟨⟨base + (o :: opens').length, .edge, internalEnd o.2⟩, ?_, by simp; omega⟩
      obtain ⟨e, ret⟩ := o
      simp only at hend
      simp [DocItems.lines, hend]
    · rw [lines_step hend]
      simp only [DocItems.Nested, if_neg hend] at h
      cases hdec : s.decoded with
      | none => rw [hdec] at h; exact nested_edge rest h
      | some dec =>
        cases dec with
        | line t => exact ⟨_, List.mem_cons_self, by simp; omega⟩
        | internalCall c e => exact ⟨_, List.mem_cons_self, by simp; omega⟩

theorem fates (w : Settings) (k : Sink) (nodes : List Node) (K : Nat)
    (hK : ∀ x ∈ nodes, 3 * x.ordering.length + 3 ≤ K) :
    ∀ N, DocFate w k nodes K N ∧ ItemsFate w k nodes K N := by
  intro N
  induction N with
  | zero => exact ⟨fun d h => absurd h (by omega), fun d h => absurd h (by omega)⟩
  | succ N ih =>
    obtain ⟨ihd, ihi⟩ := ih
    constructor
    · -- a node
      intro d hsz idx level fuel hu hlevel hf
      obtain ⟨x, items⟩ := d
      simp only [Unfolds] at hu
      obtain ⟨hx, hu⟩ := hu
      have hidx : idx < nodes.length := by
        apply Classical.byContradiction; intro hc
        rw [List.getElem?_eq_none (by omega)] at hx; simp at hx
      have hKx := hK x (List.mem_of_getElem? hx)
      have hmul : (nodes.length + 1 - idx) * K = (nodes.length - idx) * K + K := by
        rw [show nodes.length + 1 - idx = (nodes.length - idx) + 1 by omega, Nat.add_mul, Nat.one_mul]
      obtain ⟨f, rfl⟩ : ∃ f, fuel = f + 1 := ⟨fuel - 1, by omega⟩
      simp only [writeNode]
      by_cases hup : level + 1 < 65536
      · rcases ihi items (by simp at hsz; omega) idx x 0 0 (level + 1) f [] hx
          (Nat.zero_le _) hu (by simpa using hup) (by omega) with ⟨j', g, _, ⟨hfine, hj'⟩, hp⟩ | ⟨hp, hbad⟩
        · refine Or.inl ⟨_, (Prints.index hx level).bind0 ((Prints.branch k level).bind
            ((Prints.header w k x.trace level).bind ((Prints.emit k _ level).bind
            ((Prints.indentUp k hup).bind (hp.bind ((Prints.edge k (level + 1)).bind
            ((Prints.footer w k x.trace (level + 1)).bind ((Prints.emit k _ (level + 1)).bind
              (Prints.indentDown k level))))))))), hfine.1, ?_⟩
          intro l hl
          simp only [Doc.lines, List.mem_cons, List.mem_append, List.mem_nil_iff, or_false] at hl
          rcases hl with rfl | hl | rfl
          · exact hlevel
          · exact hfine.2 l hl
          · exact hup
        · refine Or.inr ⟨(Prints.index hx level).thenFails ((Prints.branch k level).thenFails
            ((Prints.header w k x.trace level).thenFails ((Prints.emit k _ level).thenFails
            ((Prints.indentUp k hup).thenFails hp.bind)))), ?_⟩
          intro hfd
          exact hbad ⟨hfd.1, fun l hl => hfd.2 l (by simp [Doc.lines, hl])⟩
      · refine Or.inr ⟨(Prints.index hx level).thenFails ((Prints.branch k level).thenFails
            ((Prints.header w k x.trace level).thenFails ((Prints.emit k _ level).thenFails
            (Fails.indentUp k hup).bind))), ?_⟩
        intro hfd
        exact hup (hfd.2 ⟨level + 1, .edge, footerText w x.trace⟩ (by simp [Doc.lines]))
    · -- the items of a node
      intro items hsz idx x j n base fuel opens hx hj hu hlevel hf
      have hidx : idx < nodes.length := by
        apply Classical.byContradiction; intro hc
        rw [List.getElem?_eq_none (by omega)] at hx; simp at hx
      obtain ⟨f, rfl⟩ : ∃ f, fuel = f + 1 := ⟨fuel - 1, by omega⟩
      cases items with
      | nil =>
        simp only [UnfoldsItems] at hu
        have hjl : j = x.ordering.length := by
          have := congrArg List.length hu
          simp at this; omega
        cases opens with
        | nil =>
          refine Or.inl ⟨j, [], Nat.le_refl _, ⟨⟨?_, ?_⟩, hjl⟩, ?_⟩
          · simp [DocItems.Nested]
          · simp [DocItems.lines]
          · refine Prints.loopStop hx ?_
            have hp := Prints.eval_at k x x.ordering.length j (base + 0)
            rw [show decide (j = x.ordering.length) = true by simp [hjl]] at hp
            exact hp
        | cons o opens' =>
          obtain ⟨e, ret⟩ := o
          refine Or.inr ⟨Fails.loopEval hx ?_, ?_⟩
          · exact (Fails.index (List.getElem?_eq_none (by omega)) _).bind
          · intro hfi; have := hfi.1; simp [DocItems.Nested] at this
      | log l rest =>
        simp only [UnfoldsItems] at hu
        obtain ⟨i, os', ho, hl, hu⟩ := hu
        obtain ⟨hoj, hdrop, hjlt⟩ := drop_cons ho
        have hlines : (DocItems.log l rest).lines w x base opens n =
            logLines w (base + opens.length) l ++ rest.lines w x base opens n := by
          simp only [DocItems.lines]
        have hnest : (DocItems.log l rest).Nested (opens.map (·.1)) n ↔
            rest.Nested (opens.map (·.1)) n := by simp only [DocItems.Nested]
        obtain ⟨f', rfl⟩ : ∃ f', f = f' + 1 := ⟨f - 1, by omega⟩
        have hitem : Prints k (writeItem w k nodes (f' + 1) idx j) (base + opens.length)
            (printLines (logLines w (base + opens.length) l)) (j + 1) (base + opens.length) := by
          simp only [writeItem]
          exact (Prints.index hx _).bind0 ((Prints.index hoj _).bind0 ((Prints.index hl _).bind0
            ((Prints.log w k l _).bindEnd (Prints.pure k _ _))))
        have hev := Prints.evalStop (k := k) hoj opens (base + opens.length)
          (by intro e _ h; simp at h)
        rcases ihi rest (by simp at hsz; omega) idx x (j + 1) n base (f' + 1) opens hx
          (by omega) (by rw [hdrop]; exact hu) hlevel (by omega) with ⟨j', g, hjj, hr, hp⟩ | ⟨hp, hbad⟩
        · exact Or.inl ⟨j', _, by omega, hr.over (Nat.le_refl _) hlines
            (fun a ha => by rw [logLines_at a ha]; exact hlevel) (by simp) hnest,
            Prints.loopNext hx hev hitem hp⟩
        · exact Or.inr ⟨Fails.loopNext hx hev hitem hp, FineItems.over hlines hnest.1 hbad⟩
      | sub d rest =>
        simp only [UnfoldsItems] at hu
        obtain ⟨i, c, os', ho, hc, hlt, hud, hu⟩ := hu
        obtain ⟨hoj, hdrop, hjlt⟩ := drop_cons ho
        obtain ⟨f', rfl⟩ : ∃ f', f = f' + 1 := ⟨f - 1, by omega⟩
        have hmul : (nodes.length + 1 - c) * K ≤ (nodes.length - idx) * K :=
          Nat.mul_le_mul_right K (by omega)
        have hlines : (DocItems.sub d rest).lines w x base opens n =
            d.lines w (base + opens.length) ++ rest.lines w x base opens n := by
          simp only [DocItems.lines]
        have hev := Prints.evalStop (k := k) hoj opens (base + opens.length)
          (by intro e _ h; simp at h)
        rcases ihd d (by simp at hsz; omega) c (base + opens.length) f' hud hlevel (by omega) with
          ⟨gd, hd, hfd⟩ | ⟨hd, hbad⟩
        · have hnest : (DocItems.sub d rest).Nested (opens.map (·.1)) n ↔
              rest.Nested (opens.map (·.1)) n := by
            simp only [DocItems.Nested]; exact ⟨fun h => h.2, fun h => ⟨hfd.1, h⟩⟩
          have hitem : Prints k (writeItem w k nodes (f' + 1) idx j) (base + opens.length)
              gd (j + 1) (base + opens.length) := by
            simp only [writeItem]
            exact (Prints.index hx _).bind0 ((Prints.index hoj _).bind0 ((Prints.index hc _).bind0
              (hd.bindEnd (Prints.pure k _ _))))
          rcases ihi rest (by simp at hsz; omega) idx x (j + 1) n base (f' + 1) opens hx
            (by omega) (by rw [hdrop]; exact hu) hlevel (by omega) with
            ⟨j', g, hjj, hr, hp⟩ | ⟨hp, hbad⟩
          · exact Or.inl ⟨j', _, by omega, hr.over (Nat.le_refl _) hlines hfd.2 (by simp) hnest,
              Prints.loopNext hx hev hitem hp⟩
          · exact Or.inr ⟨Fails.loopNext hx hev hitem hp, FineItems.over hlines hnest.1 hbad⟩
        · refine Or.inr ⟨Fails.loopItem hx hev ?_, ?_⟩
          · simp only [writeItem]
            exact (Prints.index hx _).thenFails ((Prints.index hoj _).thenFails
              ((Prints.index hc _).thenFails hd.bind))
          · intro hfi
            refine hbad ⟨?_, fun a ha => hfi.2 a (by rw [hlines]; simp [ha])⟩
            have := hfi.1
            simp only [DocItems.Nested] at this
            exact this.1
      | step s rest =>
        simp only [UnfoldsItems] at hu
        obtain ⟨os', ho, hs, hu⟩ := hu
        obtain ⟨hoj, hdrop, hjlt⟩ := drop_cons ho
        by_cases hend : (opens.map (·.1)).head? = some n
        · cases opens with
          | nil => simp at hend
          | cons o opens' =>
            obtain ⟨e, ret⟩ := o
            simp only [List.map_cons, List.head?_cons, Option.some.injEq] at hend
            subst hend
            refine Or.inl ⟨j, [], Nat.le_refl _, ⟨rest, [], ?_, by simp, ?_, by simp; omega,
              Nat.le_refl _, hjlt, ?_, by rw [hdrop]; exact hu⟩, ?_⟩
            · simp only [DocItems.lines, if_true, List.nil_append]
            · simp [DocItems.Nested]
            · apply Classical.byContradiction; intro hc
              rw [List.getElem?_eq_none (by omega)] at hs; simp at hs
            · refine Prints.loopStop hx ?_
              have hp := Prints.eval_step k hoj e (base + ((e, ret) :: opens').length)
              rw [show decide (TraceMemberOrder.step e = TraceMemberOrder.step e) = true by simp] at hp
              exact hp
        · have hlines := lines_step (w := w) (x := x) (base := base) (s := s) (rest := rest) hend
          have hnest : (DocItems.step s rest).Nested (opens.map (·.1)) n ↔
              (match s.decoded with
                | some (.internalCall _ e) =>
                  n < e ∧ (∀ o, (opens.map (·.1)).head? = some o → e < o) ∧
                    rest.Nested (e :: opens.map (·.1)) (n + 1)
                | _ => rest.Nested (opens.map (·.1)) (n + 1)) := by
            simp only [DocItems.Nested, if_neg hend]
            cases s.decoded with
            | none => exact Iff.rfl
            | some d => cases d <;> exact Iff.rfl
          obtain ⟨f', rfl⟩ : ∃ f', f = f' + 1 := ⟨f - 1, by omega⟩
          have hev : Prints k ((stopOf x opens).eval x j) (base + opens.length) [] false
              (base + opens.length) :=
            Prints.evalStop hoj opens _ (by
              intro e he h
              simp only [TraceMemberOrder.step.injEq] at h
              exact hend (by rw [he, h]))
          cases hdec : s.decoded with
          | none =>
            rw [hdec] at hlines hnest
            simp only at hlines hnest
            obtain ⟨f'', rfl⟩ : ∃ f'', f' = f'' + 1 := ⟨f' - 1, by omega⟩
            have hitem : Prints k (writeItem w k nodes (f'' + 1 + 1) idx j) (base + opens.length)
                [] (j + 1) (base + opens.length) := by
              simp only [writeItem]
              refine (Prints.index hx _).bind0 ((Prints.index hoj _).bind0 ?_)
              simp only [writeStep]
              refine (Prints.index hx _).bind0 ((Prints.index hs _).bind0 ?_)
              rw [hdec]
              exact Prints.pure k _ _
            rcases ihi rest (by simp at hsz; omega) idx x (j + 1) (n + 1) base (f'' + 1 + 1) opens hx
              (by omega) (by rw [hdrop]; exact hu) hlevel (by omega) with
              ⟨j', g, hjj, hr, hp⟩ | ⟨hp, hbad⟩
            · exact Or.inl ⟨j', _, by omega, hr.over (L := []) (by omega) hlines (by simp) (by simp) hnest,
                Prints.loopNext hx hev hitem hp⟩
            · exact Or.inr ⟨Fails.loopNext hx hev hitem hp, FineItems.over (L := []) hlines hnest.1 hbad⟩
          | some dec =>
            cases dec with
            | line t =>
              rw [hdec] at hlines hnest
              simp only at hlines hnest
              obtain ⟨f'', rfl⟩ : ∃ f'', f' = f'' + 1 := ⟨f' - 1, by omega⟩
              have hitem : Prints k (writeItem w k nodes (f'' + 1 + 1) idx j) (base + opens.length)
                  (margin (base + opens.length) .branch ++ (txt t ++ txt "\n")) (j + 1)
                  (base + opens.length) := by
                simp only [writeItem]
                refine (Prints.index hx _).bind0 ((Prints.index hoj _).bind0 ?_)
                simp only [writeStep]
                refine (Prints.index hx _).bind0 ((Prints.index hs _).bind0 ?_)
                rw [hdec]
                exact (Prints.branch k _).bind ((Prints.emit k _ _).bindEnd (Prints.pure k _ _))
              rcases ihi rest (by simp at hsz; omega) idx x (j + 1) (n + 1) base (f'' + 1 + 1) opens hx
                (by omega) (by rw [hdrop]; exact hu) hlevel (by omega) with
                ⟨j', g, hjj, hr, hp⟩ | ⟨hp, hbad⟩
              · exact Or.inl ⟨j', _, by omega,
                  hr.over (L := [⟨base + opens.length, .branch, txt t⟩]) (by omega) hlines
                    (by intro a ha; simp only [List.mem_singleton] at ha; rw [ha]; exact hlevel)
                    (by simp) hnest,
                  Prints.loopNext hx hev hitem hp⟩
              · exact Or.inr ⟨Fails.loopNext hx hev hitem hp,
                  FineItems.over (L := [⟨base + opens.length, .branch, txt t⟩]) hlines hnest.1 hbad⟩
            | internalCall c e =>
              rw [hdec] at hlines hnest
              simp only at hlines hnest
              obtain ⟨f'', rfl⟩ : ∃ f'', f' = f'' + 1 := ⟨f' - 1, by omega⟩
              -- an item that fails because the step does
              have hfailItem : ∀ {i : Nat}, Fails k (internalBody w k nodes f'' idx j x s c e) i →
                  Fails k (writeItem w k nodes (f'' + 1 + 1) idx j) i := by
                intro i hfs
                simp only [writeItem]
                refine (Prints.index hx _).thenFails ((Prints.index hoj _).thenFails ?_)
                simp only [writeStep]
                refine (Prints.index hx _).thenFails ((Prints.index hs _).thenFails ?_)
                rw [hdec]
                exact hfs
              by_cases hup : base + opens.length + 1 < 65536
              · rcases ihi rest (by simp at hsz; omega) idx x (j + 1) (n + 1) base
                  f'' ((e, c.returnData) :: opens) hx (by omega) (by rw [hdrop]; exact hu)
                  (by simp only [List.length_cons]; omega) (by omega) with
                  ⟨j1, g1, hj1, ⟨items2, L1, hL, hL1, hiff, hsz2, hne, hj1lt, helt, hu2⟩, hp⟩ | ⟨hp, hbad⟩
                · -- the inside ends; look at what follows
                  obtain ⟨last, hlast⟩ : ∃ last, x.trace.steps[e]? = some last :=
                    ⟨_, List.getElem?_eq_getElem helt⟩
                  have hret : Prints k (match c.returnData with
                      | some outputs => emit k (txt (String.intercalate ", " outputs))
                      | none => Pure.pure ()) (base + opens.length + 1)
                      (txt (String.intercalate ", " (c.returnData.getD []))) ()
                      (base + opens.length + 1) := by
                    cases c.returnData with
                    | none => exact Prints.pure k () _
                    | some r => exact Prints.emit k _ _
                  have hitem : ∃ g, Prints k (writeItem w k nodes (f'' + 1 + 1) idx j)
                      (base + opens.length) g (j1 + 1) (base + opens.length) := by
                    obtain ⟨g, hb⟩ : ∃ g, Prints k (internalBody w k nodes f'' idx j x s c e)
                        (base + opens.length) g (j1 + 1) (base + opens.length) :=
                      ⟨_, (Prints.index hlast _).bind0 ((Prints.branch k _).bind
                        ((Prints.indentUp k hup).bind ((Prints.emit k _ _).bind (hp.bind
                        ((Prints.edge k _).bind ((Prints.emit k _ _).bind (hret.bind
                        ((Prints.emit k _ _).bind ((Prints.indentDown k _).bindEnd
                        (Prints.pure k _ _))))))))))⟩
                    refine ⟨g, ?_⟩
                    simp only [writeItem]
                    refine (Prints.index hx _).bind0 ((Prints.index hoj _).bind0 ?_)
                    simp only [writeStep]
                    refine (Prints.index hx _).bind0 ((Prints.index hs _).bind0 ?_)
                    rw [hdec]
                    exact hb
                  obtain ⟨gi, hitem⟩ := hitem
                  have hlines2 : (DocItems.step s rest).lines w x base opens n =
                      (⟨base + opens.length, .branch, internalText x s c e⟩ :: (L1 ++
                        [⟨base + opens.length + 1, .edge, internalEnd c.returnData⟩])) ++
                        items2.lines w x base opens (e + 1) := by
                    rw [hlines, hL]; simp [Nat.add_assoc]
                  rcases ihi items2 (by simp at hsz; omega) idx x (j1 + 1) (e + 1) base (f'' + 1 + 1)
                    opens hx (by omega) hu2 hlevel (by omega) with
                    ⟨j', g, hjj, hr, hp2⟩ | ⟨hp2, hbad⟩
                  · refine Or.inl ⟨j', _, by omega, hr.over (by omega) hlines2 ?_ (by simp; omega) ?_,
                      Prints.loopNext hx hev hitem hp2⟩
                    · intro a ha
                      simp only [List.mem_cons, List.mem_append, List.mem_nil_iff, or_false] at ha
                      rcases ha with rfl | ha | rfl
                      · exact hlevel
                      · exact hL1 a ha
                      · exact hup
                    · rw [hnest]
                      refine ⟨fun h => hiff.1 h.2.2, fun h => ⟨by omega, ?_, hiff.2 h⟩⟩
                      intro o ho'
                      cases opens with
                      | nil => simp at ho'
                      | cons p opens' =>
                        obtain ⟨o2, r2⟩ := p
                        simp only [List.map_cons, List.head?_cons, Option.some.injEq] at ho'
                        obtain ⟨_, _, _, _, _, _, hle, _⟩ := hr
                        omega
                  · exact Or.inr ⟨Fails.loopNext hx hev hitem hp2,
                      FineItems.over hlines2 (fun h => hiff.1 (hnest.1 h).2.2) hbad⟩
                · -- the inside fails
                  refine Or.inr ⟨Fails.loopItem hx hev (hfailItem ?_), FineItems.over
                    (L := [⟨base + opens.length, .branch, internalText x s c e⟩])
                    (opens' := (e, c.returnData) :: opens) hlines (fun h => (hnest.1 h).2.2) hbad⟩
                  cases hlast : x.trace.steps[e]? with
                  | none => exact (Fails.index hlast _).bind
                  | some last =>
                    exact (Prints.index hlast _).thenFails ((Prints.branch k _).thenFails
                      ((Prints.indentUp k hup).thenFails ((Prints.emit k _ _).thenFails hp.bind)))
              · -- no room for another level
                refine Or.inr ⟨Fails.loopItem hx hev (hfailItem ?_), ?_⟩
                · cases hlast : x.trace.steps[e]? with
                  | none => exact (Fails.index hlast _).bind
                  | some last =>
                    exact (Prints.index hlast _).thenFails ((Prints.branch k _).thenFails
                      (Fails.indentUp k hup).bind)
                · intro hfi
                  have h1 := (hnest.1 hfi.1).2.2
                  have h2 : ∃ l ∈ rest.lines w x base ((e, c.returnData) :: opens) (n + 1),
                      l.level = base + opens.length + 1 :=
                    nested_edge (w := w) (x := x) (base := base) (o := (e, c.returnData)) (opens' := opens)
                      rest h1
                  obtain ⟨l, hl, hlv⟩ := h2
                  have := hfi.2 l (by rw [hlines]; simp [hl])
                  omega

end Writer
end Verif
