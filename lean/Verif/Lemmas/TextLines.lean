import Verif.Spec.TextLines
import Verif.Lemmas.ReadBack
/-! # Line breaks in the text of a trace -/
namespace Verif.Props
open Spec Writer ReadBack

/-- The text contains no line break. -/
def Plain1 (s : String) : Prop := '\n' ∉ s.toList

theorem mem_txt (s : String) : (.ch '\n' : Glyph) ∈ txt s ↔ '\n' ∈ s.toList := by
  simp [txt]

theorem mem_painted (w : Settings) (c : Ansi) (s : String) :
    (.ch '\n' : Glyph) ∈ painted w c s ↔ '\n' ∈ s.toList := by
  unfold painted
  split <;> simp [mem_txt]

theorem break_intercalate : ∀ (l : List String),
    '\n' ∈ (String.intercalate ", " l).toList ↔ ∃ s ∈ l, '\n' ∈ s.toList
  | [] => by simp
  | [a] => by simp
  | a :: b :: l => by
    have h1 : '\n' ∉ (", " : String).toList := by decide
    rw [String.intercalate_cons_cons, String.toList_append, String.toList_append, List.mem_append, List.mem_append,
      break_intercalate (b :: l)]
    simp only [h1, or_false]
    constructor
    · rintro (h | ⟨s, hs, h⟩)
      · exact ⟨a, List.mem_cons_self .., h⟩
      · exact ⟨s, List.mem_cons_of_mem _ hs, h⟩
    · rintro ⟨s, hs, h⟩
      rcases List.mem_cons.1 hs with rfl | hs
      · exact .inl h
      · exact .inr ⟨s, hs, h⟩

theorem cutLines_line : ∀ (l : List Glyph) (r : List Glyph), .ch '\n' ∉ l →
    cutLines (l ++ .ch '\n' :: r) = l :: cutLines r := by
  intro l
  induction l with
  | nil => intro r _; simp [cutLines]
  | cons g l ih =>
    intro r h
    simp only [List.mem_cons, not_or] at h
    rw [List.cons_append, cutLines, if_neg (fun e => h.1 e.symm), ih r h.2]

theorem cutLines_count : ∀ g : List Glyph, g.count (.ch '\n') ≤ (cutLines g).length
  | [] => Nat.le_refl _
  | g :: r => by
    have ih := cutLines_count r
    rw [cutLines]
    by_cases h : g = .ch '\n'
    · rw [if_pos h, h, List.count_cons_self]
      exact Nat.succ_le_succ ih
    · rw [if_neg h, List.count_cons_of_ne h]
      cases hc : cutLines r with
      | nil => rw [hc] at ih; simp only [List.length_nil, Nat.le_zero_eq] at ih; rw [ih]; exact Nat.zero_le _
      | cons l ls => rw [hc] at ih; exact ih

theorem margin_line (n : Nat) (m : Mark) : (.ch '\n' : Glyph) ∉ margin n m := by
  have h : ∀ n, (.ch '\n' : Glyph) ∉ (List.replicate n (txt "  │ ")).flatten := by
    intro n h
    rw [List.mem_flatten] at h
    obtain ⟨l, hl, hm⟩ := h
    rw [(List.mem_replicate.1 hl).2] at hm
    revert hm
    decide
  cases m <;> simp only [margin, List.mem_append, not_or]
  · refine ⟨⟨by decide, h _⟩, ?_⟩
    split <;> decide
  · exact ⟨⟨by decide, h _⟩, by decide⟩
  · exact ⟨⟨by decide, h _⟩, by decide⟩


theorem whole_line (l : Line) : (.ch '\n' : Glyph) ∉ l.whole ↔ (.ch '\n' : Glyph) ∉ l.text := by
  rw [Line.whole, List.mem_append, not_or]
  exact ⟨fun h => h.2, fun h => ⟨margin_line _ _, h⟩⟩

theorem cutLines_printLines : ∀ (ls : List Line), (∀ l ∈ ls, (.ch '\n' : Glyph) ∉ l.text) →
    cutLines (printLines ls) = ls.map Line.whole
  | [], _ => rfl
  | l :: ls, h => by
    have e : printLines (l :: ls) = l.whole ++ .ch '\n' :: printLines ls := by
      simp [printLines, Line.print, Line.whole]
    rw [e, cutLines_line _ _ ((whole_line l).2 (h l (List.mem_cons_self ..))),
      cutLines_printLines ls (fun x hx => h x (List.mem_cons_of_mem _ hx)), List.map_cons]

theorem count_printLines : ∀ (ls : List Line),
    (printLines ls).count (.ch '\n') = ls.length + (ls.map fun l => l.whole.count (.ch '\n')).sum
  | [] => rfl
  | l :: ls => by
    have e : printLines (l :: ls) = l.whole ++ .ch '\n' :: printLines ls := by
      simp [printLines, Line.print, Line.whole]
    rw [e, List.count_append, List.count_cons_self, count_printLines ls, List.map_cons, List.sum_cons, List.length_cons]
    omega

theorem cutLines_iff (ls : List Line) :
    (cutLines (printLines ls)).length = ls.length ↔ ∀ l ∈ ls, (.ch '\n' : Glyph) ∉ l.text := by
  constructor
  · intro h l hl hm
    have h1 := cutLines_count (printLines ls)
    rw [count_printLines, h] at h1
    have h2 : (ls.map fun l => l.whole.count (.ch '\n')).sum = 0 := by omega
    rw [List.sum_eq_zero_iff_forall_eq_nat] at h2
    have h3 := h2 _ (List.mem_map_of_mem hl)
    rw [List.count_eq_zero] at h3
    exact (whole_line l).1 h3 hm
  · intro h
    rw [cutLines_printLines ls h, List.length_map]

/-! ### Which texts are printed -/

theorem nat_line (n : Nat) : '\n' ∉ (toString n).toList := by
  have := digits_line n
  simpa [toString, Nat.toList_repr] using this

theorem str_str (s : String) : toString s = s := rfl

theorem hex_str (b : Bytes) : '\n' ∉ (String.ofList (hexEncode b)).toList := by
  rw [String.toList_ofList]
  exact hex_line b

theorem word_str (b : U256) : '\n' ∉ (String.ofList (wordDigits b)).toList := by
  rw [String.toList_ofList]
  exact word_line b

theorem checksum_line {f : Address → String} (hf : AddressText f) (a : Address) : '\n' ∉ (f a).toList :=
  (addrText hf).line a

theorem shownCall_line {t : CallTrace} (h : t.decoded.callData = none) :
    '\n' ∉ (shownCall t).1.toList ∧ '\n' ∉ (shownCall t).2.toList := by
  unfold shownCall
  rw [h]
  split
  · contradiction
  · simp only [String.toList_ofList]
    exact ⟨hex_line _, hex_line _⟩
  · simp only [String.toList_ofList]
    exact ⟨by decide, hex_line _⟩

theorem suffix_break (w : Settings) (k : CallKind) :
    (.ch '\n' : Glyph) ∉ (match kindSuffix k with
      | some s => painted w .yellow s
      | none => []) := by
  cases k <;> simp only [kindSuffix, List.not_mem_nil, not_false_eq_true, mem_painted] <;> decide

theorem header_break {w : Settings} (hw : AddressText w.checksum) (t : CallTrace) :
    (.ch '\n' : Glyph) ∉ headerText w t ↔ ∀ s ∈ headerShown t, '\n' ∉ s.toList := by
  have hg : '\n' ∉ (s!"[{t.gasUsed}] ").toList := by
    simp only [str_str, String.toList_append, List.mem_append, not_or]
    exact ⟨⟨by decide, nat_line _⟩, by decide⟩
  have ha := checksum_line hw t.address
  unfold headerText headerShown
  rw [List.mem_append, mem_txt, not_or, List.forall_mem_append, and_iff_right hg]
  by_cases hk : t.kind = .Create ∨ t.kind = .Create2
  · rw [if_pos hk, if_pos hk, List.mem_append, mem_painted, mem_txt]
    have h1 : '\n' ∉ ("→ new" : String).toList := by decide
    have h2 : '\n' ∉ ("<unknown>" : String).toList := by decide
    have h3 : '\n' ∉ (" " : String).toList := by decide
    have h4 : '\n' ∉ ("@" : String).toList := by decide
    cases hl : t.decoded.label with
    | none =>
      simp only [str_str, String.toList_append, List.mem_append, Option.getD_none, Option.toList_none, ha, h1, h2, h3,
        h4, or_self, not_false_eq_true, and_self, List.not_mem_nil, false_implies, implies_true]
    | some l =>
      simp only [str_str, String.toList_append, List.mem_append, Option.getD_some, Option.toList_some, ha, h1, h3, h4,
        false_or, or_false, not_false_eq_true, true_and, List.mem_singleton, forall_eq, List.not_mem_nil, false_implies,
        implies_true, and_true]
  · rw [if_neg hk, if_neg hk]
    have h1 : '\n' ∉ ("::" : String).toList := by decide
    have h2 : '\n' ∉ ("(" : String).toList := by decide
    have h3 : '\n' ∉ (")" : String).toList := by decide
    have hv : (.ch '\n' : Glyph) ∉
        (if t.value = 0 then [] else txt ("{value: " ++ toString t.value.toNat ++ "}")) := by
      split
      · exact List.not_mem_nil
      · rw [mem_txt, String.toList_append, String.toList_append, List.mem_append, List.mem_append, not_or, not_or]
        exact ⟨⟨by decide, nat_line _⟩, by decide⟩
    have hs := suffix_break w t.kind
    have hl : '\n' ∈ (t.decoded.label.getD (w.checksum t.address)).toList ↔
        ∃ s ∈ t.decoded.label.toList, '\n' ∈ s.toList := by
      cases t.decoded.label with
      | none => simp [ha]
      | some l => simp
    have hc : ('\n' ∈ (shownCall t).1.toList ∨ '\n' ∈ (shownCall t).2.toList) ↔
        ∃ s ∈ (match t.decoded.callData with
          | some d => String.ofList (d.signature.toList.takeWhile (· ≠ '(')) :: d.args
          | none => []), '\n' ∈ s.toList := by
      cases hd : t.decoded.callData with
      | none =>
        have := shownCall_line hd
        simp [this.1, this.2]
      | some d =>
        have e : shownCall t =
            (String.ofList (d.signature.toList.takeWhile (· ≠ '(')), String.intercalate ", " d.args) := by
          unfold shownCall
          rw [hd]
        rw [e, break_intercalate]
        constructor
        · rintro (h | ⟨s, hs, h⟩)
          · exact ⟨_, List.mem_cons_self .., h⟩
          · exact ⟨s, List.mem_cons_of_mem _ hs, h⟩
        · rintro ⟨s, hs, h⟩
          rcases List.mem_cons.1 hs with rfl | hs
          · exact .inl h
          · exact .inr ⟨s, hs, h⟩
    rw [List.mem_append]
    refine Iff.trans (not_congr (or_iff_left hs)) ?_
    simp only [List.mem_append, mem_painted, mem_txt, str_str, String.toList_append, h1, h2, h3, hv, hl, false_or,
      or_false]
    rw [or_assoc, hc, not_or]
    constructor
    · rintro ⟨h4, h5⟩
      exact ⟨fun s hs h => h4 ⟨s, hs, h⟩, fun s hs h => h5 ⟨s, hs, h⟩⟩
    · rintro ⟨h4, h5⟩
      exact ⟨fun ⟨s, hs, h⟩ => h4 s hs h, fun ⟨s, hs, h⟩ => h5 s hs h⟩

theorem footer_break (w : Settings) (t : CallTrace) :
    (.ch '\n' : Glyph) ∉ footerText w t ↔ ∀ s ∈ t.decoded.returnData.toList, '\n' ∉ s.toList := by
  have h1 : '\n' ∉ (s!"← [{t.status.debug}] ").toList := by
    simp only [str_str, String.toList_append, List.mem_append, not_or]
    exact ⟨⟨by decide, noNewline_of (by decide) (debug_chars _)⟩, by decide⟩
  unfold footerText
  rw [List.mem_append, mem_painted, not_or]
  cases t.decoded.returnData with
  | some d => simp only [h1, mem_txt, not_false_eq_true, true_and, Option.toList_some, List.mem_singleton, forall_eq]
  | none =>
    simp only [h1, not_false_eq_true, true_and, Option.toList_none, List.not_mem_nil, false_implies, implies_true,
      iff_true]
    split
    · rw [mem_txt]
      simp only [str_str, String.toList_append, List.mem_append, not_or]
      exact ⟨nat_line _, by decide⟩
    · split
      · exact List.not_mem_nil
      · rw [mem_txt, String.toList_append, List.mem_append, not_or]
        exact ⟨by decide, hex_str _⟩

theorem topic_break (w : Settings) (t : U256) (i : Nat) : (.ch '\n' : Glyph) ∉ topicText w t i := by
  unfold topicText
  rw [List.mem_append, mem_txt, mem_painted, not_or, String.toList_append, List.mem_append, not_or]
  refine ⟨?_, by decide, word_str t⟩
  split
  · decide
  · simp only [str_str, String.toList_append, List.mem_append, not_or]
    exact ⟨⟨by decide, nat_line _⟩, by decide⟩

theorem log_break (w : Settings) (n : Nat) (l : CallLog) :
    (∀ x ∈ logLines w n l, (.ch '\n' : Glyph) ∉ x.text) ↔ ∀ s ∈ logShown l, '\n' ∉ s.toList := by
  unfold logLines logShown
  cases l.decoded.name with
  | some name =>
    have h1 : '\n' ∉ ("emit " : String).toList := by decide
    have h2 : '\n' ∉ ("(" : String).toList := by decide
    have h3 : '\n' ∉ (")" : String).toList := by decide
    have h4 : '\n' ∉ (": " : String).toList := by decide
    simp only [List.mem_singleton, forall_eq, List.mem_append, mem_txt, mem_painted, str_str, String.toList_append, h1,
      h2, h3, break_intercalate, false_or, or_false, not_or, List.forall_mem_cons]
    refine and_congr Iff.rfl ?_
    constructor
    · intro h s hs hb
      obtain ⟨p, hp, hs⟩ := List.mem_flatMap.1 hs
      refine h ⟨_, List.mem_map_of_mem hp, ?_⟩
      simp only [List.mem_cons, List.not_mem_nil, or_false] at hs
      simp only [String.toList_append, List.mem_append]
      rcases hs with rfl | rfl
      · exact .inl (.inl hb)
      · exact .inr hb
    · rintro h ⟨s, hs, hb⟩
      obtain ⟨p, hp, rfl⟩ := List.mem_map.1 hs
      simp only [String.toList_append, List.mem_append, h4, or_false] at hb
      rcases hb with hb | hb
      · exact h p.1 (List.mem_flatMap.2 ⟨p, hp, by simp⟩) hb
      · exact h p.2 (List.mem_flatMap.2 ⟨p, hp, by simp⟩) hb
  | none =>
    have hd : (.ch '\n' : Glyph) ∉ txt "          data: " ++
        painted w .cyan ("0x" ++ String.ofList (hexEncode l.rawLog.data)) := by
      rw [List.mem_append, mem_txt, mem_painted, not_or, String.toList_append, List.mem_append, not_or]
      exact ⟨by decide, by decide, hex_str _⟩
    simp only [List.not_mem_nil, false_implies, implies_true, iff_true]
    split
    · intro x hx
      rw [List.mem_singleton.1 hx]
      exact hd
    · intro x hx
      simp only [List.mem_cons, List.mem_append, List.mem_map, List.not_mem_nil, or_false] at hx
      rcases hx with rfl | ⟨p, _, rfl⟩ | rfl
      · exact topic_break _ _ _
      · exact topic_break _ _ _
      · exact hd

theorem internal_break (x : Node) (s : CallTraceStep) (c : DecodedInternalCall) (e : Nat) :
    (.ch '\n' : Glyph) ∉ internalText x s c e ↔
      '\n' ∉ c.funcName.toList ∧ ∀ s ∈ c.args.getD [], '\n' ∉ s.toList := by
  have h1 : '\n' ∉ ("[" : String).toList := by decide
  have h2 : '\n' ∉ ("] " : String).toList := by decide
  have h3 : '\n' ∉ ("(" : String).toList := by decide
  have h4 : '\n' ∉ (")" : String).toList := by decide
  have h5 : '\n' ∉ ("" : String).toList := by decide
  have h6 := nat_line (gasBetween x s e)
  unfold internalText
  rw [mem_txt]
  cases c.args with
  | none =>
    simp only [str_str, String.toList_append, List.mem_append, h1, h2, h5, h6, false_or, or_false, Option.getD_none,
      List.not_mem_nil, false_implies, implies_true, and_true]
  | some args =>
    simp only [str_str, String.toList_append, List.mem_append, h1, h2, h3, h4, h6, false_or, or_false, Option.getD_some,
      break_intercalate, not_or, not_exists, not_and]

theorem internalEnd_break (ret : Option (List String)) :
    (.ch '\n' : Glyph) ∉ internalEnd ret ↔ ∀ s ∈ ret.getD [], '\n' ∉ s.toList := by
  rw [internalEnd, mem_txt, String.toList_append, List.mem_append, break_intercalate]
  have h1 : '\n' ∉ ("← " : String).toList := by decide
  simp only [h1, false_or, not_exists, not_and]

mutual
theorem doc_break {w : Settings} (hw : AddressText w.checksum) : ∀ (d : Doc) (n : Nat),
    (∀ l ∈ d.lines w n, (.ch '\n' : Glyph) ∉ l.text) ↔ ∀ s ∈ d.shown, '\n' ∉ s.toList
  | .mk x items, n => by
    simp only [Doc.lines, Doc.shown, List.forall_mem_cons, List.forall_mem_append]
    rw [header_break hw, footer_break, items_break hw items x (n + 1) [] 0]
    simp only [List.not_mem_nil, false_implies, implies_true, and_true]
theorem items_break {w : Settings} (hw : AddressText w.checksum) : ∀ (it : DocItems) (x : Node) (b : Nat)
    (opens : List (Nat × Option (List String))) (n : Nat),
    (∀ l ∈ it.lines w x b opens n, (.ch '\n' : Glyph) ∉ l.text) ↔ ∀ s ∈ it.shown opens n, '\n' ∉ s.toList
  | .nil, x, b, opens, n => by simp [DocItems.lines, DocItems.shown]
  | .log l rest, x, b, opens, n => by
    simp only [DocItems.lines, DocItems.shown, List.forall_mem_append]
    rw [log_break, items_break hw rest]
  | .sub d rest, x, b, opens, n => by
    simp only [DocItems.lines, DocItems.shown, List.forall_mem_append]
    rw [doc_break hw d, items_break hw rest]
  | .step s rest, x, b, [], n => by
    rw [DocItems.lines, DocItems.shown]
    cases hs : s.decoded with
    | none => exact items_break hw rest ..
    | some v =>
      cases v with
      | line t =>
        simp only [List.forall_mem_cons, mem_txt]
        rw [items_break hw rest]
      | internalCall c e =>
        simp only [List.forall_mem_cons, List.forall_mem_append]
        rw [internal_break, items_break hw rest, and_assoc]
  | .step s rest, x, b, (e, ret) :: opens, n => by
    rw [DocItems.lines, DocItems.shown]
    by_cases he : e = n
    · rw [if_pos he, if_pos he]
      simp only [List.forall_mem_cons, List.forall_mem_append]
      rw [internalEnd_break, items_break hw rest]
    · rw [if_neg he, if_neg he]
      cases hs : s.decoded with
      | none => exact items_break hw rest ..
      | some v =>
        cases v with
        | line t =>
          simp only [List.forall_mem_cons, mem_txt]
          rw [items_break hw rest]
        | internalCall c e =>
          simp only [List.forall_mem_cons, List.forall_mem_append]
          rw [internal_break, items_break hw rest, and_assoc]
end

/-! ### Printed texts are texts of the nodes -/

theorem header_of_node {x : Node} (hP : ∀ s ∈ decodedTexts x, '\n' ∉ s.toList) :
    ∀ s ∈ headerShown x.trace, '\n' ∉ s.toList := by
  intro s hs
  unfold headerShown at hs
  rw [List.mem_append] at hs
  rcases hs with hs | hs
  · exact hP s (by simp [decodedTexts, hs])
  · split at hs
    · simp at hs
    · cases hc : x.trace.decoded.callData with
      | none => rw [hc] at hs; simp at hs
      | some d =>
        rw [hc] at hs
        rcases List.mem_cons.1 hs with rfl | hs
        · rw [String.toList_ofList]
          intro h
          exact hP d.signature (by simp [decodedTexts, hc]) ((List.takeWhile_sublist _).mem h)
        · exact hP s (by simp [decodedTexts, hc, hs])

theorem log_of_node {x : Node} (hP : ∀ s ∈ decodedTexts x, '\n' ∉ s.toList) {l : CallLog} (hl : l ∈ x.logs) :
    ∀ s ∈ logShown l, '\n' ∉ s.toList := by
  intro s hs
  apply hP
  have : s ∈ l.decoded.name.toList ++ (l.decoded.params.getD []).flatMap fun p => [p.1, p.2] := by
    unfold logShown at hs
    cases hn : l.decoded.name with
    | none => rw [hn] at hs; simp at hs
    | some name => rw [hn] at hs; simpa using hs
  unfold decodedTexts
  simp only [List.mem_append]
  exact .inl (.inr (List.mem_flatMap.2 ⟨l, hl, this⟩))

theorem step_of_node {x : Node} (hP : ∀ s ∈ decodedTexts x, '\n' ∉ s.toList) {s : CallTraceStep}
    (hs : s ∈ x.trace.steps) :
    (∀ t, s.decoded = some (.line t) → '\n' ∉ t.toList) ∧
    (∀ c e, s.decoded = some (.internalCall c e) → '\n' ∉ c.funcName.toList ∧
      (∀ a ∈ c.args.getD [], '\n' ∉ a.toList) ∧ ∀ a ∈ c.returnData.getD [], '\n' ∉ a.toList) := by
  have key : ∀ a, (a ∈ (match s.decoded with
      | some (.line t) => [t]
      | some (.internalCall c _) => c.funcName :: (c.args.getD [] ++ c.returnData.getD [])
      | none => [])) → '\n' ∉ a.toList := by
    intro a ha
    apply hP
    unfold decodedTexts
    simp only [List.mem_append]
    exact .inr (List.mem_flatMap.2 ⟨s, hs, ha⟩)
  constructor
  · intro t ht
    rw [ht] at key
    exact key t (List.mem_singleton.2 rfl)
  · intro c e hc
    rw [hc] at key
    exact ⟨key _ (List.mem_cons_self ..), fun a ha => key a (List.mem_cons_of_mem _ (List.mem_append_left _ ha)),
      fun a ha => key a (List.mem_cons_of_mem _ (List.mem_append_right _ ha))⟩

mutual
theorem shown_of_nodes {nodes : List Node} (hP : ∀ x ∈ nodes, ∀ s ∈ decodedTexts x, '\n' ∉ s.toList) :
    ∀ (d : Doc) (idx : Nat), Unfolds nodes idx d → ∀ s ∈ d.shown, '\n' ∉ s.toList
  | .mk x items, idx, h => by
    obtain ⟨h1, h2⟩ := h
    have hx := hP x (List.mem_of_getElem? h1)
    rw [Doc.shown, List.forall_mem_append, List.forall_mem_append]
    exact ⟨header_of_node hx, shown_of_items hP items idx x x.ordering [] 0 hx (fun _ h => nomatch h) h2,
      fun s hs => hx s (by simp [decodedTexts, hs])⟩
theorem shown_of_items {nodes : List Node} (hP : ∀ x ∈ nodes, ∀ s ∈ decodedTexts x, '\n' ∉ s.toList) :
    ∀ (it : DocItems) (idx : Nat) (x : Node) (os : List TraceMemberOrder) (opens : List (Nat × Option (List String)))
      (n : Nat), (∀ s ∈ decodedTexts x, '\n' ∉ s.toList) →
      (∀ o ∈ opens, ∀ s ∈ o.2.getD [], '\n' ∉ s.toList) → UnfoldsItems nodes idx x os n it →
      ∀ s ∈ it.shown opens n, '\n' ∉ s.toList
  | .nil, idx, x, os, opens, n, hx, ho, h => by intro s hs; simp [DocItems.shown] at hs
  | .log l rest, idx, x, os, opens, n, hx, ho, h => by
    obtain ⟨i, os', _, h2, h3⟩ := h
    rw [DocItems.shown, List.forall_mem_append]
    exact ⟨log_of_node hx (List.mem_of_getElem? h2), shown_of_items hP rest idx x os' opens n hx ho h3⟩
  | .sub d rest, idx, x, os, opens, n, hx, ho, h => by
    obtain ⟨i, c, os', _, _, _, h2, h3⟩ := h
    rw [DocItems.shown, List.forall_mem_append]
    exact ⟨shown_of_nodes hP d c h2, shown_of_items hP rest idx x os' opens n hx ho h3⟩
  | .step s rest, idx, x, os, [], n, hx, ho, h => by
    obtain ⟨os', _, h2, h3⟩ := h
    have hs := step_of_node hx (List.mem_of_getElem? h2)
    rw [DocItems.shown]
    cases hd : s.decoded with
    | none => exact shown_of_items hP rest idx x os' _ _ hx ho h3
    | some v =>
      cases v with
      | line t =>
        simp only [List.forall_mem_cons]
        exact ⟨hs.1 t hd, shown_of_items hP rest idx x os' _ _ hx ho h3⟩
      | internalCall c e =>
        simp only [List.forall_mem_cons, List.forall_mem_append]
        obtain ⟨h4, h5, h6⟩ := hs.2 c e hd
        refine ⟨h4, h5, shown_of_items hP rest idx x os' _ _ hx ?_ h3⟩
        intro o ho'
        rw [List.mem_singleton.1 ho']
        exact h6
  | .step s rest, idx, x, os, (e, ret) :: opens, n, hx, ho, h => by
    obtain ⟨os', _, h2, h3⟩ := h
    have hs := step_of_node hx (List.mem_of_getElem? h2)
    rw [DocItems.shown]
    by_cases he : e = n
    · rw [if_pos he, List.forall_mem_append]
      exact ⟨ho _ (List.mem_cons_self ..),
        shown_of_items hP rest idx x os' _ _ hx (fun o h => ho o (List.mem_cons_of_mem _ h)) h3⟩
    · rw [if_neg he]
      cases hd : s.decoded with
      | none => exact shown_of_items hP rest idx x os' _ _ hx ho h3
      | some v =>
        cases v with
        | line t =>
          simp only [List.forall_mem_cons]
          exact ⟨hs.1 t hd, shown_of_items hP rest idx x os' _ _ hx ho h3⟩
        | internalCall c e =>
          simp only [List.forall_mem_cons, List.forall_mem_append]
          obtain ⟨h4, h5, h6⟩ := hs.2 c e hd
          refine ⟨h4, h5, shown_of_items hP rest idx x os' _ _ hx ?_ h3⟩
          intro o ho'
          rcases List.mem_cons.1 ho' with rfl | ho'
          · exact h6
          · exact ho o ho'
end

end Verif.Props
