import Verif.Spec.Writer
/-! Helper lemmas about the text writer. -/
namespace Verif
open Spec
namespace Writer

theorem flatMap_pairs {α : Type} (g : Nat → α) (n : Nat) :
    ((List.range n).flatMap fun i => [g (2 * i), g (2 * i + 1)]) = (List.range (2 * n)).map g := by
  induction n with
  | zero => rfl
  | succ n ih =>
    rw [List.range_succ, List.flatMap_append, ih, show 2 * (n + 1) = 2 * n + 1 + 1 by omega,
      List.range_succ, List.range_succ]
    simp

theorem topicString_eq (w : U256) : topicString w = "0x" ++ String.ofList (wordDigits w) := by
  have h : hexEncode (wordBytes w) = wordDigits w := by
    unfold hexEncode wordBytes wordDigits
    rw [List.flatMap_map, show 64 = 2 * 32 from rfl, ← flatMap_pairs]
    rw [List.flatMap_def, List.flatMap_def]
    congr 1
    apply List.map_congr_left
    intro i hi
    rw [List.mem_range] at hi
    have h1 : (UInt8.ofNat (w.toNat / 256 ^ (31 - i) % 256)).toNat = w.toNat / 256 ^ (31 - i) % 256 := by
      rw [UInt8.toNat_ofNat']
      exact Nat.mod_eq_of_lt (Nat.mod_lt _ (by decide))
    have h2 : 256 ^ (31 - i) = 16 ^ (63 - (2 * i + 1)) := by
      rw [show 256 = 16 ^ 2 from rfl, ← Nat.pow_mul]
      congr 1
      omega
    have h3 : 16 ^ (63 - 2 * i) = 16 ^ (63 - (2 * i + 1)) * 16 := by
      rw [← Nat.pow_succ]
      congr 1
      omega
    rw [h1, h2, h3, ← Nat.div_div_eq_div_mul]
    generalize w.toNat / 16 ^ (63 - (2 * i + 1)) = q
    have h4 : q % 256 / 16 = q / 16 % 16 := by omega
    have h5 : q % 256 % 16 = q % 16 := by omega
    rw [h4, h5]
    rfl
  rw [topicString, hexString, h]

/-- Running `m` at indentation `i` prints `g`, returns `a` and leaves indentation `i'`; or the sink
fails, and then a prefix of `g` has been printed. -/
def Prints (k : Sink) (m : W α) (i : Nat) (g : List Glyph) (a : α) (i' : Nat) : Prop :=
  ∀ s : State, s.indent = i →
    (∃ s', m s = (.ok a, s') ∧ s'.out = s.out ++ g ∧ s'.indent = i') ∨
    (∃ s' p, m s = (.error .io, s') ∧ p <+: g ∧ s'.out = s.out ++ p ∧ ∃ n c, k.fault n = some c)

theorem Prints.pure (k : Sink) (a : α) (i : Nat) : Prints k (pure a : W α) i [] a i := by
  intro s hs; exact Or.inl ⟨s, rfl, by simp, hs⟩

theorem Prints.bind {k : Sink} {m : W α} {f : α → W β} {i i1 i2 : Nat} {g1 g2 : List Glyph} {a : α}
    {b : β} (h1 : Prints k m i g1 a i1) (h2 : Prints k (f a) i1 g2 b i2) :
    Prints k (m >>= f) i (g1 ++ g2) b i2 := by
  intro s hs
  have hb : (m >>= f) s = W.bind m f s := rfl
  rw [hb]
  unfold W.bind
  rcases h1 s hs with ⟨s', he, ho, hi⟩ | ⟨s', p, he, hp, ho, hk⟩
  · rw [he]
    rcases h2 s' hi with ⟨s'', he', ho', hi'⟩ | ⟨s'', p, he', hp, ho', hk⟩
    · exact Or.inl ⟨s'', he', by rw [ho', ho, List.append_assoc], hi'⟩
    · refine Or.inr ⟨s'', g1 ++ p, he', ?_, by rw [ho', ho, List.append_assoc], hk⟩
      exact (List.prefix_append_right_inj g1).2 hp
  · rw [he]
    exact Or.inr ⟨s', p, rfl, hp.trans (List.prefix_append _ _), ho, hk⟩

theorem Prints.cast {k : Sink} {m : W α} {i i' : Nat} {g g' : List Glyph} {a : α}
    (h : Prints k m i g a i') (hg : g = g') : Prints k m i g' a i' := hg ▸ h

theorem Prints.emit (k : Sink) (g : List Glyph) (i : Nat) : Prints k (emit k g) i g () i := by
  intro s hs
  unfold Writer.emit
  cases h : k.fault s.writes with
  | none => exact Or.inl ⟨_, rfl, rfl, hs⟩
  | some n => exact Or.inr ⟨_, g.take n, rfl, List.take_prefix _ _, rfl, _, _, h⟩

theorem Prints.getIndent (k : Sink) (i : Nat) : Prints k getIndent i [] i i := by
  intro s hs; exact Or.inl ⟨s, by simp [Writer.getIndent, hs], by simp, hs⟩

theorem Prints.indentUp (k : Sink) {i : Nat} (h : i + 1 < 65536) :
    Prints k indentUp i [] () (i + 1) := by
  intro s hs
  exact Or.inl ⟨{ s with indent := s.indent + 1 }, by simp [Writer.indentUp, hs, h], by simp, by simp [hs]⟩

theorem Prints.indentDown (k : Sink) (i : Nat) : Prints k indentDown (i + 1) [] () i := by
  intro s hs
  exact Or.inl ⟨{ s with indent := s.indent - 1 }, by simp [Writer.indentDown, hs], by simp, by simp [hs]⟩

theorem Prints.index {k : Sink} {l : List α} {j : Nat} {a : α} (h : l[j]? = some a) (i : Nat) :
    Prints k (index l j) i [] a i := by
  intro s hs; exact Or.inl ⟨s, by simp [Writer.index, h], by simp, hs⟩

/-- Sequencing with an action that prints nothing. -/
theorem Prints.bind0 {k : Sink} {m : W α} {f : α → W β} {i i1 i2 : Nat} {g2 : List Glyph} {a : α}
    {b : β} (h1 : Prints k m i [] a i1) (h2 : Prints k (f a) i1 g2 b i2) :
    Prints k (m >>= f) i g2 b i2 := by simpa using h1.bind h2

/-- Ending with an action that prints nothing. -/
theorem Prints.bindEnd {k : Sink} {m : W α} {f : α → W β} {i i1 i2 : Nat} {g : List Glyph} {a : α}
    {b : β} (h1 : Prints k m i g a i1) (h2 : Prints k (f a) i1 [] b i2) :
    Prints k (m >>= f) i g b i2 := by simpa using h1.bind h2

/-! ### Texts -/

theorem txt_append (a b : String) : txt (a ++ b) = txt a ++ txt b := by
  simp [txt, String.toList_append]

theorem txt_empty : txt "" = [] := rfl

theorem toString_string (s : String) : toString s = s := rfl

theorem Prints.pipesLoop (k : Sink) (i : Nat) : ∀ n,
    Prints k (writePipesLoop k n) i (List.replicate n (txt PIPE)).flatten () i := by
  intro n
  induction n with
  | zero => exact Prints.pure k () i
  | succ n ih =>
    rw [List.replicate_succ, List.flatten_cons]
    exact (Prints.emit k _ i).bind ih

theorem Prints.indentation (k : Sink) (i : Nat) :
    Prints k (writeIndentation k) i (txt "  " ++ (List.replicate (i - 1) (txt "  │ ")).flatten) () i :=
  (Prints.emit k _ i).bind ((Prints.getIndent k i).bind0 (Prints.pipesLoop k i _))

theorem Prints.branch (k : Sink) (i : Nat) : Prints k (writeBranch k) i (margin i .branch) () i := by
  refine (Prints.indentation k i).bind ((Prints.getIndent k i).bind0 ?_)
  by_cases h : i = 0
  · subst h; exact Prints.pure k () 0
  · simp only [ne_eq, h, not_false_eq_true, if_true, if_false]
    exact Prints.emit k _ i

theorem Prints.pipes (k : Sink) (i : Nat) : Prints k (writePipes k) i (margin i .pipes) () i :=
  (Prints.indentation k i).bind (Prints.emit k _ i)

theorem Prints.edge (k : Sink) (i : Nat) : Prints k (writeEdge k) i (margin i .edge) () i :=
  (Prints.indentation k i).bind (Prints.emit k _ i)

theorem kindStyle_paint (w : Settings) (s : String) :
    (traceKindStyle w).start ++ txt s ++ (traceKindStyle w).stop = painted w .yellow s := by
  unfold traceKindStyle painted
  cases w.useColors <;> simp [Style.start, Style.stop]

theorem logStyle_paint (w : Settings) (s : String) :
    (logStyle w).start ++ txt s ++ (logStyle w).stop = painted w .cyan s := by
  unfold logStyle painted
  cases w.useColors <;> simp [Style.start, Style.stop]

theorem traceStyle_paint (w : Settings) (t : CallTrace) (s : String) :
    (traceStyle w t).start ++ txt s ++ (traceStyle w t).stop = painted w (frameColor w t) s := by
  unfold traceStyle painted frameColor cheatcodeAddress
  cases w.useColors with
  | false => simp [Style.start, Style.stop]
  | true =>
    by_cases h : w.colorCheatcodes = true ∧ t.address = 0x7109709ECfa91a80626fF3989D68f67F5b1DD12D
    · simp [h.1, h.2, Style.start, Style.stop]
    · have : ¬ (w.colorCheatcodes && decide (t.address = 0x7109709ECfa91a80626fF3989D68f67F5b1DD12D)) = true := by
        simpa using h
      simp only [Bool.not_true, Bool.false_eq_true, if_false, this, h, if_true]
      cases t.success <;> simp [Style.start, Style.stop]

theorem isAnyCreate_iff (t : CallTrace) :
    t.kind.isAnyCreate = true ↔ t.kind = .Create ∨ t.kind = .Create2 := by
  cases h : t.kind <;> simp [CallKind.isAnyCreate]

theorem callText_eq (t : CallTrace) : callText t = shownCall t := by
  unfold callText shownCall
  cases hc : t.decoded.callData with
  | some d => simp [beforeParen]
  | none =>
    match hd : t.data with
    | [] => simp [hexString]
    | [a] => simp [hexString]
    | [a, b] => simp [hexString]
    | [a, b, c] => simp [hexString]
    | a :: b :: c :: d :: rest =>
      have : ¬ (a :: b :: c :: d :: rest).length < 4 := by simp
      simp only [this, if_false]
      simp [hexString]

theorem Prints.header (w : Settings) (k : Sink) (t : CallTrace) (i : Nat) :
    Prints k (writeTraceHeader w k t) i (headerText w t) () i := by
  have hgas : txt s!"[{t.gasUsed}] " = txt "[" ++ txt (toString t.gasUsed) ++ txt "] " := by
    simp [txt_append, toString_string]
  unfold headerText
  rw [hgas]
  refine (Prints.emit k _ i).bind ?_
  by_cases hk : t.kind.isAnyCreate = true
  · have h2 := (isAnyCreate_iff t).1 hk
    simp only [hk, if_true, h2]
    refine (Prints.emit k _ i).cast ?_
    have hp : (traceKindStyle w).start ++ txt CALL ++ txt "new" ++ (traceKindStyle w).stop =
        painted w .yellow "→ new" := by
      rw [← kindStyle_paint]
      have : txt "→ new" = txt CALL ++ txt "new" := by rw [← txt_append]; rfl
      rw [this]; simp
    rw [hp]
    simp [txt_append, toString_string, txt_empty]
  · have h2 : ¬ (t.kind = .Create ∨ t.kind = .Create2) := fun h => hk ((isAnyCreate_iff t).2 h)
    simp only [hk, h2, if_false]
    rw [callText_eq]
    have hname : ∀ (a b : String), (traceStyle w t).start ++ txt a ++ (traceStyle w t).stop ++ txt "::" ++
        (traceStyle w t).start ++ txt b ++ (traceStyle w t).stop =
        painted w (frameColor w t) a ++ txt "::" ++ painted w (frameColor w t) b := by
      intro a b
      rw [traceStyle_paint, ← traceStyle_paint w t b]
      simp
    rw [hname]
    rw [List.append_assoc _ (txt s!"({(shownCall t).2})") _]
    rw [List.append_assoc _ (if t.value = 0 then _ else _) _]
    refine (Prints.emit k _ i).bind ?_
    refine Prints.bind (a := ()) (i1 := i) ?_ ?_
    · by_cases hv : t.value = 0
      · simp only [hv, ne_eq, not_true_eq_false, if_false, if_true]; exact Prints.pure k () i
      · simp only [hv, ne_eq, not_false_eq_true, if_true, if_false]
        refine (Prints.emit k _ i).cast ?_
        simp [txt_append, toString_string]
    · refine Prints.bind (a := ()) (i1 := i) ?_ ?_
      · refine (Prints.emit k _ i).cast ?_
        simp [txt_append, toString_string]
      · cases hkind : t.kind <;> simp [hkind] at h2 <;>
          simp only [callAction, kindSuffix, pure_bind] <;>
          first
          | exact (Prints.pure k none i).bind0 (Prints.pure k () i)
          | (refine (Prints.pure k (some _) i).bind0 ?_
             exact (Prints.emit k _ i).cast (kindStyle_paint w _))

theorem Prints.footer (w : Settings) (k : Sink) (t : CallTrace) (i : Nat) :
    Prints k (writeTraceFooter w k t) i (footerText w t) () i := by
  unfold footerText
  refine Prints.bind (a := ()) (i1 := i) ?_ ?_
  · refine (Prints.emit k _ i).cast ?_
    rw [← traceStyle_paint]
    have : txt s!"← [{t.status.debug}] " = txt RETURN ++ txt "[" ++ txt t.status.debug ++ txt "] " := by
      have h0 : txt "← [" = txt RETURN ++ txt "[" := by rw [← txt_append]; rfl
      simp [txt_append, toString_string, ← h0]
    rw [this]
    simp
  · cases hd : t.decoded.returnData with
    | some d => exact Prints.emit k _ i
    | none =>
      by_cases hk : t.kind.isAnyCreate = true
      · have h2 := (isAnyCreate_iff t).1 hk
        simp only [hk, if_true, h2]
        refine (Prints.emit k _ i).cast ?_
        simp [txt_append, toString_string, txt_empty]
      · have h2 : ¬ (t.kind = .Create ∨ t.kind = .Create2) := fun h => hk ((isAnyCreate_iff t).2 h)
        simp only [hk, h2, if_false]
        cases ho : t.output with
        | nil => exact Prints.pure k () i
        | cons a l => exact Prints.emit k _ i

theorem intercalate_cons (a : String) (l : List String) :
    String.intercalate ", " (a :: l) = a ++ (l.map (", " ++ ·)).foldr (· ++ ·) "" := by
  induction l generalizing a with
  | nil => simp
  | cons b l ih => rw [String.intercalate_cons_cons, ih]; simp [String.append_assoc]

theorem Prints.paramsTail (k : Sink) (i : Nat) (l : List (String × String)) : ∀ n,
    Prints k (writeParams k (n + 1) l) i
      (txt (((l.map fun p => s!"{p.1}: {p.2}").map (", " ++ ·)).foldr (· ++ ·) "")) () i := by
  induction l with
  | nil => intro n; exact Prints.pure k () i
  | cons p l ih =>
    intro n
    obtain ⟨a, b⟩ := p
    simp only [List.map_cons, List.foldr_cons, txt_append]
    rw [List.append_assoc]
    simp only [writeParams, Nat.succ_pos, gt_iff_lt, if_true]
    refine (Prints.emit k _ i).bind (Prints.bind (a := ()) (i1 := i) ?_ (ih _))
    exact (Prints.emit k _ i).cast (by simp [txt_append, toString_string, txt_empty])

theorem Prints.params (k : Sink) (i : Nat) (l : List (String × String)) :
    Prints k (writeParams k 0 l) i
      (txt (String.intercalate ", " (l.map fun p => s!"{p.1}: {p.2}"))) () i := by
  cases l with
  | nil => exact Prints.pure k () i
  | cons p l =>
    obtain ⟨a, b⟩ := p
    rw [List.map_cons, intercalate_cons, txt_append]
    simp only [writeParams, Nat.lt_irrefl, gt_iff_lt, if_false]
    refine (Prints.pure k () i).bind0 (Prints.bind (a := ()) (i1 := i) ?_ (Prints.paramsTail k i l 0))
    exact (Prints.emit k _ i).cast (by simp [txt_append, toString_string, txt_empty])

theorem newline : txt "\n" = [.ch '\n'] := rfl

theorem Prints.topicsTail (w : Settings) (k : Sink) (i : Nat) (l : List U256) : ∀ n,
    Prints k (writeTopics w k (n + 1) l) i
      (printLines ((l.zipIdx (n + 1)).map fun p => ⟨i, .pipes, topicText w p.1 p.2⟩)) () i := by
  induction l with
  | nil => intro n; exact Prints.pure k () i
  | cons t l ih =>
    intro n
    simp only [List.zipIdx_cons, List.map_cons, printLines, List.flatMap_cons]
    simp only [writeTopics, Nat.succ_ne_zero, if_false]
    refine Prints.cast (((Prints.pipes k i).bind (Prints.emit k _ i)).bind
      ((Prints.emit k _ i).bind (ih _))) ?_
    simp only [Line.print, topicText, Nat.succ_ne_zero, if_false, ← logStyle_paint, newline, ← topicString_eq]
    simp [txt_append, toString_string, printLines]

theorem Prints.log (w : Settings) (k : Sink) (l : CallLog) (i : Nat) :
    Prints k (writeLog w k l) i (printLines (logLines w i l)) () i := by
  unfold logLines writeLog
  cases hname : l.decoded.name with
  | some name =>
    cases hp : l.decoded.params with
    | some ps =>
      refine Prints.cast ((Prints.branch k i).bind ((Prints.emit k _ i).bind
        ((Prints.params k i ps).bind (Prints.emit k _ i)))) ?_
      simp only [printLines, List.flatMap_cons, List.flatMap_nil, Line.print, ← logStyle_paint, newline]
      simp [txt_append, toString_string]
    | none =>
      refine Prints.cast ((Prints.branch k i).bind ((Prints.emit k _ i).bind
        ((Prints.pure k () i).bind (Prints.emit k _ i)))) ?_
      simp only [printLines, List.flatMap_cons, List.flatMap_nil, Line.print, ← logStyle_paint, newline]
      simp [txt_append, toString_string, txt_empty]
  | none =>
    cases ht : l.rawLog.topics with
    | nil =>
      refine Prints.cast ((Prints.branch k i).bind ((Prints.pure k () i).bind
        ((Prints.pure k () i).bind (Prints.emit k _ i)))) ?_
      simp only [printLines, List.flatMap_cons, List.flatMap_nil, Line.print, ← logStyle_paint, newline]
      simp [bytesString, hexString]
    | cons t ts =>
      refine Prints.cast ((Prints.branch k i).bind (((Prints.emit k _ i).bind ((Prints.emit k _ i).bind
        (Prints.topicsTail w k i ts 0))).bind ((Prints.pipes k i).bind (Prints.emit k _ i)))) ?_
      have : txt " emit topic 0: " = txt " emit topic 0" ++ txt ": " := by rw [← txt_append]; rfl
      simp only [printLines, List.flatMap_cons, List.flatMap_append, List.flatMap_nil, Line.print,
        topicText, if_true, ← logStyle_paint, newline, this, ← topicString_eq]
      simp [bytesString, hexString]

/-! ### The recursion -/

theorem Prints.eval_at (k : Sink) (x : Node) (n j i : Nat) :
    Prints k ((Until.at n).eval x j) i [] (decide (j = n)) i := Prints.pure k _ i

theorem Prints.eval_step (k : Sink) {x : Node} {j : Nat} {o : TraceMemberOrder}
    (h : x.ordering[j]? = some o) (e i : Nat) :
    Prints k ((Until.step e).eval x j) i [] (decide (o = .step e)) i :=
  (Prints.index h i).bind0 (Prints.pure k _ i)

theorem Prints.loopStop {w : Settings} {k : Sink} {nodes : List Node} {idx j i fuel : Nat} {x : Node}
    {u : Until} (hx : nodes[idx]? = some x) (hu : Prints k (u.eval x j) i [] true i) :
    Prints k (writeItemsUntil w k nodes (fuel + 1) idx j u) i [] j i := by
  simp only [writeItemsUntil]
  exact (Prints.index hx i).bind0 (hu.bind0 (by simp only [if_true]; exact Prints.pure k _ i))

theorem Prints.loopNext {w : Settings} {k : Sink} {nodes : List Node} {idx j j1 j2 i fuel : Nat}
    {x : Node} {u : Until} {g1 g2 : List Glyph} (hx : nodes[idx]? = some x)
    (hu : Prints k (u.eval x j) i [] false i)
    (h1 : Prints k (writeItem w k nodes fuel idx j) i g1 j1 i)
    (h2 : Prints k (writeItemsUntil w k nodes fuel idx j1 u) i g2 j2 i) :
    Prints k (writeItemsUntil w k nodes (fuel + 1) idx j u) i (g1 ++ g2) j2 i := by
  simp only [writeItemsUntil]
  refine (Prints.index hx i).bind0 (hu.bind0 ?_)
  simp only [Bool.false_eq_true, if_false]
  exact h1.bind h2

theorem drop_cons {l : List α} {j : Nat} {a : α} {r : List α} (h : l.drop j = a :: r) :
    l[j]? = some a ∧ l.drop (j + 1) = r ∧ j < l.length := by
  have h1 : (l.drop j)[0]? = some a := by rw [h]; rfl
  have h2 : (l.drop j).drop 1 = r := by rw [h]; rfl
  have hl := congrArg List.length h
  simp at hl
  rw [List.getElem?_drop] at h1
  rw [List.drop_drop] at h2
  exact ⟨by simpa using h1, h2, by omega⟩

theorem printLines_append (a b : List Line) : printLines (a ++ b) = printLines a ++ printLines b := by
  simp [printLines]

theorem printLines_cons (a : Line) (b : List Line) : printLines (a :: b) = a.print ++ printLines b := by
  simp [printLines]

/-- Where the loop over items stops while the internal calls `opens` are open. -/
def stopOf (x : Node) : List (Nat × Option (List String)) → Until
  | [] => .at x.ordering.length
  | (e, _) :: _ => .step e

/-- `L1` are the lines of `L` up to the place where the loop stops, at item `j'`. -/
def After (w : Settings) (nodes : List Node) (idx : Nat) (x : Node) (base : Nat)
    (opens : List (Nat × Option (List String))) (sz : Nat) (L L1 : List Line) (j' : Nat) : Prop :=
  match opens with
  | [] => L = L1 ∧ j' = x.ordering.length
  | (e, ret) :: opens' => ∃ items2 : DocItems,
      L = L1 ++ ⟨base + opens.length, .edge, internalEnd ret⟩ :: items2.lines w x base opens' (e + 1) ∧
      sizeOf items2 < sz ∧ j' < x.ordering.length ∧ e < x.trace.steps.length ∧
      UnfoldsItems nodes idx x (x.ordering.drop (j' + 1)) (e + 1) items2 ∧
      items2.Nested (opens'.map (·.1)) (e + 1)

theorem After.mono {w : Settings} {nodes : List Node} {idx : Nat} {x : Node} {base : Nat}
    {opens : List (Nat × Option (List String))} {sz sz' : Nat} {L L1 : List Line} {j' : Nat}
    (h : After w nodes idx x base opens sz L L1 j') (hs : sz ≤ sz') (A : List Line) :
    After w nodes idx x base opens sz' (A ++ L) (A ++ L1) j' := by
  cases opens with
  | nil => exact ⟨by rw [h.1], h.2⟩
  | cons o opens' =>
    obtain ⟨items2, h1, h2, h3⟩ := h
    exact ⟨items2, by rw [h1]; simp, by omega, h3⟩

/-- What is shown for a step that is not the end of an open internal call. -/
theorem lines_step {w : Settings} {x : Node} {base n : Nat}
    {opens : List (Nat × Option (List String))} {s : CallTraceStep} {rest : DocItems}
    (h : (opens.map (·.1)).head? ≠ some n) :
    (DocItems.step s rest).lines w x base opens n =
      match s.decoded with
      | none => rest.lines w x base opens (n + 1)
      | some (.line t) => ⟨base + opens.length, .branch, txt t⟩ :: rest.lines w x base opens (n + 1)
      | some (.internalCall c e') =>
        ⟨base + opens.length, .branch, internalText x s c e'⟩ ::
          rest.lines w x base ((e', c.returnData) :: opens) (n + 1) := by
  cases opens with
  | nil => simp only [DocItems.lines]; rfl
  | cons o opens' =>
    obtain ⟨e, r⟩ := o
    have : e ≠ n := by intro h'; exact h (by simp [h'])
    simp only [DocItems.lines, this, if_false]
    cases s.decoded with
    | none => rfl
    | some d => cases d <;> rfl

/-- The loop does not stop at an item that is not the awaited step. -/
theorem Prints.evalStop {k : Sink} {x : Node} {j : Nat} {o : TraceMemberOrder}
    (h : x.ordering[j]? = some o) (opens : List (Nat × Option (List String))) (i : Nat)
    (hne : ∀ e, (opens.map (·.1)).head? = some e → o ≠ .step e) :
    Prints k ((stopOf x opens).eval x j) i [] false i := by
  cases opens with
  | nil =>
    have hj : j < x.ordering.length := by
      apply Classical.byContradiction; intro hc
      rw [List.getElem?_eq_none (by omega)] at h; simp at h
    have : decide (j = x.ordering.length) = false := by simp; omega
    have hp := Prints.eval_at k x x.ordering.length j i
    rw [this] at hp
    exact hp
  | cons p opens' =>
    obtain ⟨e, r⟩ := p
    have hp := Prints.eval_step k h e i
    have : decide (o = .step e) = false := by
      simp only [decide_eq_false_iff_not]; exact hne e rfl
    rw [this] at hp
    exact hp

/-- The claim about the items of a node, for items of size below `N`. -/
def ItemsClaim (w : Settings) (k : Sink) (nodes : List Node) (K N : Nat) : Prop :=
  ∀ (items : DocItems), sizeOf items < N →
  ∀ (idx : Nat) (x : Node) (j n base fuel : Nat) (opens : List (Nat × Option (List String))),
    nodes[idx]? = some x → j ≤ x.ordering.length →
    UnfoldsItems nodes idx x (x.ordering.drop j) n items → items.Nested (opens.map (·.1)) n →
    (∀ l ∈ items.lines w x base opens n, l.level < 65536) →
    (nodes.length - idx) * K + 3 * (x.ordering.length - j) + 2 ≤ fuel →
    ∃ L1 j', j ≤ j' ∧
      After w nodes idx x base opens (sizeOf items) (items.lines w x base opens n) L1 j' ∧
      Prints k (writeItemsUntil w k nodes fuel idx j (stopOf x opens)) (base + opens.length)
        (printLines L1) j' (base + opens.length)

/-- The claim about a node, for documents of size below `N`. -/
def DocClaim (w : Settings) (k : Sink) (nodes : List Node) (K N : Nat) : Prop :=
  ∀ (d : Doc), sizeOf d < N → ∀ (idx level fuel : Nat), Unfolds nodes idx d → d.Nested →
    (∀ l ∈ d.lines w level, l.level < 65536) → (nodes.length + 1 - idx) * K ≤ fuel →
    Prints k (writeNode w k nodes fuel idx) level (printLines (d.lines w level)) () level

theorem claims (w : Settings) (k : Sink) (nodes : List Node) (K : Nat)
    (hK : ∀ x ∈ nodes, 3 * x.ordering.length + 3 ≤ K) :
    ∀ N, DocClaim w k nodes K N ∧ ItemsClaim w k nodes K N := by
  intro N
  induction N with
  | zero => exact ⟨fun d h => absurd h (by omega), fun d h => absurd h (by omega)⟩
  | succ N ih =>
    obtain ⟨ihd, ihi⟩ := ih
    constructor
    · -- a node
      intro d hsz idx level fuel hu hn hlev hf
      obtain ⟨x, items⟩ := d
      simp only [Unfolds] at hu
      obtain ⟨hx, hu⟩ := hu
      simp only [Doc.Nested] at hn
      simp only [Doc.lines] at hlev ⊢
      have hidx : idx < nodes.length := by
        apply Classical.byContradiction; intro hc
        rw [List.getElem?_eq_none (by omega)] at hx; simp at hx
      have hKx := hK x (List.mem_of_getElem? hx)
      have hmul : (nodes.length + 1 - idx) * K = (nodes.length - idx) * K + K := by
        rw [show nodes.length + 1 - idx = (nodes.length - idx) + 1 by omega, Nat.add_mul, Nat.one_mul]
      obtain ⟨f, rfl⟩ : ∃ f, fuel = f + 1 := ⟨fuel - 1, by omega⟩
      obtain ⟨L1, j', _, ha, hp⟩ := ihi items (by simp at hsz; omega) idx x 0 0 (level + 1) f [] hx
        (Nat.zero_le _) hu hn (fun l hl => hlev l (by simp [hl])) (by omega)
      obtain ⟨hL, hj'⟩ := ha
      have hup : level + 1 < 65536 := hlev ⟨level + 1, .edge, footerText w x.trace⟩ (by simp)
      simp only [writeNode]
      refine Prints.cast ((Prints.index hx level).bind0 ((Prints.branch k level).bind
        ((Prints.header w k x.trace level).bind ((Prints.emit k _ level).bind
        ((Prints.indentUp k hup).bind (hp.bind ((Prints.edge k (level + 1)).bind
        ((Prints.footer w k x.trace (level + 1)).bind ((Prints.emit k _ (level + 1)).bind
          (Prints.indentDown k level)))))))))) ?_
      rw [hL]
      simp [printLines, Line.print, newline]
    · -- the items of a node
      intro items hsz idx x j n base fuel opens hx hj hu hn hlev hf
      have hidx : idx < nodes.length := by
        apply Classical.byContradiction; intro hc
        rw [List.getElem?_eq_none (by omega)] at hx; simp at hx
      obtain ⟨f, rfl⟩ : ∃ f, fuel = f + 1 := ⟨fuel - 1, by omega⟩
      cases items with
      | nil =>
        simp only [UnfoldsItems] at hu
        simp only [DocItems.Nested, List.map_eq_nil_iff] at hn
        subst hn
        have hjl : j = x.ordering.length := by
          have := congrArg List.length hu
          simp at this; omega
        refine ⟨[], j, Nat.le_refl _, ⟨rfl, hjl⟩, ?_⟩
        refine Prints.loopStop hx ?_
        have hp := Prints.eval_at k x x.ordering.length j (base + 0)
        rw [show decide (j = x.ordering.length) = true by simp [hjl]] at hp
        exact hp
      | log l rest =>
        simp only [UnfoldsItems] at hu
        obtain ⟨i, os', ho, hl, hu⟩ := hu
        obtain ⟨hoj, hdrop, hjlt⟩ := drop_cons ho
        simp only [DocItems.Nested] at hn
        simp only [DocItems.lines] at hlev ⊢
        obtain ⟨L1, j', hjj, ha, hp⟩ := ihi rest (by simp at hsz; omega) idx x (j + 1) n base f opens hx
          (by omega) (by rw [hdrop]; exact hu) hn (fun l' hl' => hlev l' (by simp [hl'])) (by omega)
        refine ⟨logLines w (base + opens.length) l ++ L1, j', by omega, ha.mono (by simp) _, ?_⟩
        rw [printLines_append]
        refine Prints.loopNext hx (Prints.evalStop hoj opens _ (by intro e _ h; simp at h)) ?_ hp
        obtain ⟨f', rfl⟩ : ∃ f', f = f' + 1 := ⟨f - 1, by omega⟩
        simp only [writeItem]
        exact (Prints.index hx _).bind0 ((Prints.index hoj _).bind0 ((Prints.index hl _).bind0
          ((Prints.log w k l _).bindEnd (Prints.pure k _ _))))
      | sub d rest =>
        simp only [UnfoldsItems] at hu
        obtain ⟨i, c, os', ho, hc, hlt, hud, hu⟩ := hu
        obtain ⟨hoj, hdrop, hjlt⟩ := drop_cons ho
        simp only [DocItems.Nested] at hn
        simp only [DocItems.lines] at hlev ⊢
        obtain ⟨L1, j', hjj, ha, hp⟩ := ihi rest (by simp at hsz; omega) idx x (j + 1) n base f opens hx
          (by omega) (by rw [hdrop]; exact hu) hn.2 (fun l' hl' => hlev l' (by simp [hl'])) (by omega)
        refine ⟨d.lines w (base + opens.length) ++ L1, j', by omega, ha.mono (by simp) _, ?_⟩
        rw [printLines_append]
        refine Prints.loopNext hx (Prints.evalStop hoj opens _ (by intro e _ h; simp at h)) ?_ hp
        obtain ⟨f', rfl⟩ : ∃ f', f = f' + 1 := ⟨f - 1, by omega⟩
        have hmul : (nodes.length + 1 - c) * K ≤ (nodes.length - idx) * K :=
          Nat.mul_le_mul_right K (by omega)
        have hd := ihd d (by simp at hsz; omega) c (base + opens.length) f' hud hn.1
          (fun l' hl' => hlev l' (by simp [hl'])) (by omega)
        simp only [writeItem]
        exact (Prints.index hx _).bind0 ((Prints.index hoj _).bind0 ((Prints.index hc _).bind0
          (hd.bindEnd (Prints.pure k _ _))))
      | step s rest =>
        simp only [UnfoldsItems] at hu
        obtain ⟨os', ho, hs, hu⟩ := hu
        obtain ⟨hoj, hdrop, hjlt⟩ := drop_cons ho
        simp only [DocItems.Nested] at hn
        by_cases hend : (opens.map (·.1)).head? = some n
        · -- the awaited end of the innermost internal call
          cases opens with
          | nil => simp at hend
          | cons o opens' =>
            obtain ⟨e, ret⟩ := o
            simp only [List.map_cons, List.head?_cons, Option.some.injEq] at hend
            subst hend
            simp only [List.map_cons, List.head?_cons, if_true, List.tail_cons] at hn
            refine ⟨[], j, Nat.le_refl _, ⟨rest, ?_, by simp; omega, hjlt, ?_, by rw [hdrop]; exact hu, hn⟩, ?_⟩
            · simp only [DocItems.lines, if_true, List.nil_append]
            · apply Classical.byContradiction; intro hc
              rw [List.getElem?_eq_none (by omega)] at hs; simp at hs
            · refine Prints.loopStop hx ?_
              have hp := Prints.eval_step k hoj e (base + ((e, ret) :: opens').length)
              rw [show decide (TraceMemberOrder.step e = TraceMemberOrder.step e) = true by simp] at hp
              exact hp
        · rw [if_neg hend] at hn
          rw [lines_step hend] at hlev ⊢
          obtain ⟨f', rfl⟩ : ∃ f', f = f' + 1 := ⟨f - 1, by omega⟩
          have hev : Prints k ((stopOf x opens).eval x j) (base + opens.length) [] false
              (base + opens.length) :=
            Prints.evalStop hoj opens _ (by
              intro e he h
              simp only [TraceMemberOrder.step.injEq] at h
              exact hend (by rw [he, h]))
          cases hdec : s.decoded with
          | none =>
            rw [hdec] at hn hlev
            simp only at hn hlev ⊢
            obtain ⟨L1, j', hjj, ha, hp⟩ := ihi rest (by simp at hsz; omega) idx x (j + 1) (n + 1) base
              (f' + 1) opens hx (by omega) (by rw [hdrop]; exact hu) hn hlev (by omega)
            refine ⟨L1, j', by omega, ha.mono (by simp) [], ?_⟩
            rw [← List.nil_append (printLines L1)]
            refine Prints.loopNext hx hev ?_ hp
            obtain ⟨f'', rfl⟩ : ∃ f'', f' = f'' + 1 := ⟨f' - 1, by omega⟩
            simp only [writeItem]
            refine (Prints.index hx _).bind0 ((Prints.index hoj _).bind0 ?_)
            simp only [writeStep]
            refine (Prints.index hx _).bind0 ((Prints.index hs _).bind0 ?_)
            rw [hdec]
            exact Prints.pure k _ _
          | some dec =>
            cases dec with
            | line t =>
              rw [hdec] at hn hlev
              simp only at hn hlev ⊢
              obtain ⟨L1, j', hjj, ha, hp⟩ := ihi rest (by simp at hsz; omega) idx x (j + 1) (n + 1) base
                (f' + 1) opens hx (by omega) (by rw [hdrop]; exact hu) hn
                (fun l' hl' => hlev l' (by simp [hl'])) (by omega)
              refine ⟨_, j', by omega, ha.mono (by simp) [⟨base + opens.length, .branch, txt t⟩], ?_⟩
              rw [printLines_append]
              refine Prints.loopNext hx hev ?_ hp
              obtain ⟨f'', rfl⟩ : ∃ f'', f' = f'' + 1 := ⟨f' - 1, by omega⟩
              simp only [writeItem]
              refine (Prints.index hx _).bind0 ((Prints.index hoj _).bind0 ?_)
              simp only [writeStep]
              refine (Prints.index hx _).bind0 ((Prints.index hs _).bind0 ?_)
              rw [hdec]
              refine Prints.cast ((Prints.branch k _).bind
                ((Prints.emit k _ _).bindEnd (Prints.pure k _ _))) ?_
              simp [printLines, Line.print, newline]
            | internalCall c e =>
              rw [hdec] at hn hlev
              simp only at hn hlev ⊢
              obtain ⟨hne, hhead, hn⟩ := hn
              obtain ⟨f'', rfl⟩ : ∃ f'', f' = f'' + 1 := ⟨f' - 1, by omega⟩
              -- the inside of the internal call
              obtain ⟨L1, j1, hj1, ha, hp⟩ := ihi rest (by simp at hsz; omega) idx x (j + 1) (n + 1) base
                f'' ((e, c.returnData) :: opens) hx (by omega) (by rw [hdrop]; exact hu) hn
                (fun l' hl' => hlev l' (by simp [hl'])) (by omega)
              obtain ⟨items2, hL, hsz2, hj1lt, helt, hu2, hn2⟩ := ha
              rw [hL] at hlev ⊢
              have hup : base + opens.length + 1 < 65536 := by
                have := hlev ⟨base + ((e, c.returnData) :: opens).length, .edge,
                  internalEnd c.returnData⟩ (by simp)
                simp only [List.length_cons] at this
                omega
              -- what follows it
              obtain ⟨L2, j2, hj2, ha2, hp2⟩ := ihi items2 (by simp at hsz; omega) idx x (j1 + 1) (e + 1)
                base (f'' + 1 + 1) opens hx (by omega) hu2 hn2
                (fun l' hl' => hlev l' (by simp [hl'])) (by omega)
              refine ⟨⟨base + opens.length, .branch, internalText x s c e⟩ :: (L1 ++
                [⟨base + opens.length + 1, .edge, internalEnd c.returnData⟩]) ++ L2, j2, by omega, ?_, ?_⟩
              · have := ha2.mono (sz' := sizeOf (DocItems.step s rest)) (by simp; omega)
                  (⟨base + opens.length, .branch, internalText x s c e⟩ :: (L1 ++
                    [⟨base + opens.length + 1, .edge, internalEnd c.returnData⟩]))
                simpa [Nat.add_assoc] using this
              · rw [printLines_append]
                refine Prints.loopNext hx hev ?_ hp2
                simp only [writeItem]
                refine (Prints.index hx _).bind0 ((Prints.index hoj _).bind0 ?_)
                simp only [writeStep]
                obtain ⟨last, hlast⟩ : ∃ last, x.trace.steps[e]? = some last :=
                  ⟨_, List.getElem?_eq_getElem helt⟩
                refine (Prints.index hx _).bind0 ((Prints.index hs _).bind0 ?_)
                rw [hdec]
                have hret : Prints k (match c.returnData with
                    | some outputs => emit k (txt (String.intercalate ", " outputs))
                    | none => Pure.pure ()) (base + opens.length + 1)
                    (txt (String.intercalate ", " (c.returnData.getD []))) ()
                    (base + opens.length + 1) := by
                  cases c.returnData with
                  | none => exact Prints.pure k () _
                  | some r => exact Prints.emit k _ _
                refine Prints.cast ((Prints.index hlast _).bind0 ((Prints.branch k _).bind
                  ((Prints.indentUp k hup).bind ((Prints.emit k _ _).bind (hp.bind
                  ((Prints.edge k _).bind ((Prints.emit k _ _).bind (hret.bind
                  ((Prints.emit k _ _).bind ((Prints.indentDown k _).bindEnd
                  (Prints.pure k _ _))))))))))) ?_
                have hr : txt "← " = txt RETURN := rfl
                simp only [printLines, List.flatMap_cons, List.flatMap_append, List.flatMap_nil,
                  Line.print, newline, internalText, internalEnd, gasBetween, hlast, txt_append, hr]
                cases c.args <;> simp [toString_string, Nat.add_assoc]

end Writer
end Verif
