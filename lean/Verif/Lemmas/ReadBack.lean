import Verif.Lemmas.ReadBackTrees
/-! Helper lemmas: the text of a trace without decoded information is that of what is seen of it. -/
namespace Verif
open Spec Writer
namespace ReadBack

/-! ### No line is broken -/

theorem noNewline_of {P : Char → Bool} (hP : P '\n' = false) {l : List Char} (h : ∀ c ∈ l, P c = true) : '\n' ∉ l := by
  intro hm; have := h _ hm; rw [hP] at this; cases this

theorem digits_line (n : Nat) : '\n' ∉ Nat.toDigits 10 n := noNewline_of (by decide) (digits_digit n)
theorem hex_line (b : Bytes) : '\n' ∉ hexEncode b := noNewline_of (by decide) (hexEncode_isHex b)
theorem word_line (w : U256) : '\n' ∉ wordDigits w := fun h => wordDigits_hex w _ h rfl
theorem stem_line (n : Nat) : '\n' ∉ stem n := by
  simp only [stem, List.mem_cons, List.mem_flatten, List.mem_replicate, not_or]
  refine ⟨by decide, by decide, ?_⟩
  rintro ⟨l, ⟨_, rfl⟩, h⟩
  revert h; decide
theorem branch_line (n : Nat) : '\n' ∉ mBranch n := by
  simp only [mBranch, List.mem_append, not_or]
  refine ⟨stem_line n, ?_⟩
  split <;> decide
theorem edge_line (n : Nat) : '\n' ∉ mEdge n := by
  simp only [mEdge, List.mem_append, not_or]
  exact ⟨stem_line n, by decide⟩
theorem pipes_line (n : Nat) : '\n' ∉ mPipes n := by
  simp only [mPipes, List.mem_append, not_or]
  exact ⟨stem_line n, by decide⟩

theorem value_line (v : U256) : '\n' ∉ valueChars v := by
  unfold valueChars
  split
  · simp
  · simp only [List.mem_append, not_or]
    exact ⟨by decide, digits_line _, by decide⟩

theorem what_line {f : Address → List Char} (hf : AddrText f) (s : Seen) : '\n' ∉ whatChars f s := by
  cases s with
  | created a n =>
    simp only [whatChars, List.mem_cons, List.mem_append, not_or]
    exact ⟨by decide, by decide, hf.line a⟩
  | called k a v i o =>
    simp only [whatChars, List.mem_cons, List.mem_append, not_or]
    refine ⟨hf.line a, by decide, by decide, noNewline_of (P := fun c => decide (c ≠ '\n')) (by decide) ?_, value_line v,
      by decide, noNewline_of (by decide) (nameOf_snd i), by decide, ?_⟩
    · intro c hc
      unfold nameOf at hc
      split at hc
      · rw [decide_eq_true_eq]; rintro rfl; exact hex_line _ hc
      · have h : ∀ c ∈ "fallback".toList, decide (c ≠ '\n') = true := by decide
        exact h c hc
    · cases k <;> decide

theorem head_line {f : Address → List Char} (hf : AddrText f) (s : SeenFrame) : '\n' ∉ headChars f s := by
  simp only [headChars, List.mem_cons, List.mem_append, not_or]
  exact ⟨by decide, digits_line _, by decide, by decide, what_line hf _⟩

theorem foot_line (s : SeenFrame) : '\n' ∉ footChars s := by
  simp only [footChars, List.mem_cons, List.mem_append, not_or]
  refine ⟨by decide, by decide, by decide, noNewline_of (by decide) (debug_chars _), by decide, by decide, ?_⟩
  cases s.what with
  | created a n => simp only [outChars, List.mem_append, not_or]; exact ⟨digits_line _, by decide⟩
  | called k a v i o =>
    simp only [outChars]
    split
    · simp
    · simp only [List.mem_cons, not_or]; exact ⟨by decide, by decide, hex_line _⟩

theorem topics_line (n : Nat) : ∀ (ts : List U256) (i : Nat), ∀ x ∈ topicsFrom n i ts, '\n' ∉ x
  | [], _, x, hx => by simp [topicsFrom] at hx
  | t :: ts, i, x, hx => by
    simp only [topicsFrom, List.mem_cons] at hx
    rcases hx with rfl | hx
    · simp only [topicChars, List.mem_append, List.mem_cons, not_or]
      exact ⟨pipes_line n, by decide, by decide, by decide, digits_line _, by decide, word_line t⟩
    · exact topics_line n ts _ x hx

theorem data_line (d : Bytes) : '\n' ∉ dataChars d := by
  simp only [dataChars, List.mem_append, List.mem_cons, not_or]
  exact ⟨by decide, by decide, by decide, hex_line d⟩

theorem log_line (n : Nat) (ts : List U256) (d : Bytes) : ∀ x ∈ logChars n ts d, '\n' ∉ x := by
  intro x hx
  cases ts with
  | nil =>
    simp only [logChars, List.mem_singleton] at hx
    rw [hx, List.mem_append, not_or]
    exact ⟨branch_line n, data_line d⟩
  | cons t ts =>
    simp only [logChars, List.mem_cons, List.mem_append, List.not_mem_nil, or_false] at hx
    rcases hx with rfl | hx | rfl
    · simp only [topicZero, List.mem_append, List.mem_cons, not_or]
      exact ⟨branch_line n, by decide, by decide, by decide, word_line t⟩
    · exact topics_line n ts 1 x hx
    · rw [List.mem_append, not_or]; exact ⟨pipes_line n, data_line d⟩

mutual
theorem tree_line {f : Address → List Char} (hf : AddrText f) : ∀ (t : SeenTree) (n : Nat), ∀ x ∈ treeChars f n t, '\n' ∉ x
  | .mk s it, n, x, hx => by
    simp only [treeChars, List.mem_cons, List.mem_append, List.not_mem_nil, or_false] at hx
    rcases hx with rfl | hx | rfl
    · rw [List.mem_append, not_or]; exact ⟨branch_line n, head_line hf s⟩
    · exact items_line hf it (n + 1) x hx
    · rw [List.mem_append, not_or]; exact ⟨edge_line _, foot_line s⟩
theorem items_line {f : Address → List Char} (hf : AddrText f) : ∀ (it : SeenItems) (n : Nat), ∀ x ∈ itemChars f n it, '\n' ∉ x
  | .nil, n, x, hx => by simp [itemChars] at hx
  | .log ts d rest, n, x, hx => by
    simp only [itemChars, List.mem_append] at hx
    rcases hx with hx | hx
    · exact log_line n ts d x hx
    · exact items_line hf rest n x hx
  | .sub t rest, n, x, hx => by
    simp only [itemChars, List.mem_append] at hx
    rcases hx with hx | hx
    · exact tree_line hf t n x hx
    · exact items_line hf rest n x hx
end

/-- A tree can be read from its text. -/
theorem text_inj {f : Address → List Char} (hf : AddrText f) {t t' : SeenTree} {n : Nat} (hs : SaneTree t)
    (hs' : SaneTree t')
    (h : (treeChars f n t).flatMap (· ++ ['\n']) = (treeChars f n t').flatMap (· ++ ['\n'])) : t = t' := by
  have h1 := lines_eq (tree_line hf t n) (tree_line hf t' n) h
  exact (tree_inj hf t t' n [] [] hs hs' (by simpa using h1)).1

/-! ### The text of a document -/

/-- A node without decoded information. -/
structure Bare (x : Node) : Prop where
  trace : x.trace.decoded = {}
  steps : ∀ s ∈ x.trace.steps, s.decoded = none
  logs : ∀ l ∈ x.logs, l.decoded = {}

mutual
/-- A document without decoded information. -/
def BareDoc : Doc → Prop
  | .mk x items => x.trace.decoded = {} ∧ BareItems items
def BareItems : DocItems → Prop
  | .nil => True
  | .log l rest => l.decoded = {} ∧ BareItems rest
  | .step s rest => s.decoded = none ∧ BareItems rest
  | .sub d rest => BareDoc d ∧ BareItems rest
end

/-- The characters of a line without the line break. -/
def plainOf (l : Line) : List Glyph := dropColors (margin l.level l.mark ++ l.text)

theorem print_plain (L : List Line) (C : List (List Char)) (h : L.map plainOf = C.map (·.map Glyph.ch)) :
    dropColors (printLines L) = (C.flatMap (· ++ ['\n'])).map .ch := by
  induction L generalizing C with
  | nil =>
    cases C with
    | nil => rfl
    | cons c C => simp at h
  | cons l L ih =>
    cases C with
    | nil => simp at h
    | cons c C =>
      simp only [List.map_cons, List.cons.injEq] at h
      have := ih C h.2
      simp only [printLines, List.flatMap_cons, List.map_append, dropColors_append] at this ⊢
      rw [this]
      have e : dropColors l.print = c.map .ch ++ [.ch '\n'] := by
        rw [Line.print, dropColors_append, ← h.1]; rfl
      rw [e]; simp

theorem drop_ch (l : List Char) : dropColors (l.map .ch) = l.map .ch := by
  induction l with
  | nil => rfl
  | cons a l ih => simp only [dropColors, List.map_cons, List.filter_cons_of_pos] at ih ⊢; rw [ih]

theorem margin_ch (n : Nat) (m : Mark) : margin n m =
    (match m with | .branch => mBranch n | .edge => mEdge n | .pipes => mPipes n).map .ch := by
  have hrep : ∀ k, (List.replicate k (txt "  │ ")).flatten =
      (List.replicate k [' ', ' ', '│', ' ']).flatten.map Glyph.ch := by
    intro k
    induction k with
    | zero => rfl
    | succ k ih =>
      rw [List.replicate_succ, List.flatten_cons, ih, List.replicate_succ, List.flatten_cons, List.map_append]; rfl
  cases m with
  | branch =>
    simp only [margin, mBranch, stem, hrep, List.map_append, List.map_cons]
    split <;> rfl
  | edge => simp only [margin, mEdge, stem, hrep, List.map_append, List.map_cons]; rfl
  | pipes => simp only [margin, mPipes, stem, hrep, List.map_append, List.map_cons]; rfl

theorem painted_plain (w : Settings) (c : Ansi) (s : String) : dropColors (painted w c s) = s.toList.map .ch := by
  unfold painted
  split
  · have : dropColors (Glyph.on c :: (txt s ++ [.off])) = dropColors (txt s ++ [.off]) := rfl
    rw [this, dropColors_append, dropColors_txt]
    exact List.append_nil _
  · rw [dropColors_txt]; rfl

theorem txt_plain (s : String) : dropColors (txt s) = s.toList.map .ch := by rw [dropColors_txt]; rfl

theorem nat_chars (n : Nat) : (toString n).toList = Nat.toDigits 10 n := by
  rw [Nat.toString_eq_ofList_toDigits, String.toList_ofList]

theorem header_plain (w : Settings) (x : Node) (h : x.trace.decoded = {}) :
    dropColors (headerText w x.trace) =
      (headChars (fun a => (w.checksum a).toList) (seenFrame x.trace.gasUsed (readFrame x))).map .ch := by
  have hname : shownCall x.trace =
      (String.ofList (nameOf x.trace.data).1, String.ofList (nameOf x.trace.data).2) := by
    unfold shownCall
    rw [h]
    generalize x.trace.data = data
    rcases data with _ | ⟨a, _ | ⟨b, _ | ⟨c, _ | ⟨d, r⟩⟩⟩⟩ <;>
      simp only [nameOf, String.ofList_toList]
  have hval : dropColors (if x.trace.value = 0 then ([] : List Glyph)
      else txt ("{value: " ++ toString x.trace.value.toNat ++ "}")) = (valueChars x.trace.value).map .ch := by
    unfold valueChars
    split
    · rfl
    · rw [txt_plain]
      simp only [String.toList_append, nat_chars, List.append_assoc]; rfl
  have hsuf : dropColors (match kindSuffix x.trace.kind with
      | some s => painted w .yellow s
      | none => []) = (suffixChars x.trace.kind).map .ch := by
    unfold suffixChars
    cases kindSuffix x.trace.kind with
    | some s => exact painted_plain _ _ _
    | none => rfl
  unfold headerText headChars seenFrame
  rw [dropColors_append, txt_plain]
  by_cases hk : x.trace.kind = .Create ∨ x.trace.kind = .Create2
  · rw [if_pos hk, if_pos (show (readFrame x).kind = .Create ∨ (readFrame x).kind = .Create2 from hk)]
    rw [dropColors_append, painted_plain, txt_plain, h]
    simp only [String.toList_append, nat_chars, List.append_assoc, whatChars, List.map_append, List.map_cons]
    rfl
  · rw [if_neg hk, if_neg (show ¬ ((readFrame x).kind = .Create ∨ (readFrame x).kind = .Create2) from hk)]
    rw [dropColors_append, dropColors_append, dropColors_append, dropColors_append, dropColors_append, hval]
    refine Eq.trans (congrArg (_ ++ ·) (congrArg (_ ++ ·) hsuf)) ?_
    simp only [painted_plain, txt_plain, hname, h]
    simp only [String.toList_append, nat_chars, List.append_assoc, whatChars, List.map_append, List.map_cons,
      String.toList_ofList, toString, id, Nat.toList_repr]
    rfl

theorem footer_plain (w : Settings) (x : Node) (h : x.trace.decoded = {}) :
    dropColors (footerText w x.trace) = (footChars (seenFrame x.trace.gasUsed (readFrame x))).map .ch := by
  unfold footerText footChars seenFrame
  rw [dropColors_append, painted_plain, h]
  simp only [String.toList_append]
  by_cases hk : x.trace.kind = .Create ∨ x.trace.kind = .Create2
  · rw [if_pos hk, if_pos (show (readFrame x).kind = .Create ∨ (readFrame x).kind = .Create2 from hk), txt_plain]
    simp only [String.toList_append, nat_chars, List.append_assoc, outChars, List.map_append, List.map_cons]
    rfl
  · rw [if_neg hk, if_neg (show ¬ ((readFrame x).kind = .Create ∨ (readFrame x).kind = .Create2) from hk)]
    simp only [outChars]
    by_cases ho : x.trace.output = []
    · rw [if_pos ho, if_pos (show (readFrame x).output = [] from ho)]
      simp only [List.map_append, List.map_cons, List.append_assoc]; rfl
    · rw [if_neg ho, if_neg (show ¬ (readFrame x).output = [] from ho), txt_plain]
      simp only [String.toList_append, String.toList_ofList, List.map_append, List.map_cons, List.append_assoc]; rfl

theorem logLines_plain (w : Settings) (n : Nat) (l : CallLog) (h : l.decoded = {}) :
    (logLines w n l).map plainOf = (logChars n l.rawLog.topics l.rawLog.data).map (·.map Glyph.ch) := by
  have hdata : dropColors (txt "          data: " ++ painted w .cyan ("0x" ++ String.ofList (hexEncode l.rawLog.data))) =
      (dataChars l.rawLog.data).map .ch := by
    rw [dropColors_append, txt_plain, painted_plain]
    simp only [String.toList_append, String.toList_ofList, dataChars, List.map_append, List.map_cons]; rfl
  have hzero : ∀ t, dropColors (topicText w t 0) = (topicZero t).map .ch := by
    intro t
    unfold topicText
    rw [dropColors_append, txt_plain, painted_plain]
    simp only [String.toList_append, String.toList_ofList, topicZero, List.map_append, List.map_cons]; rfl
  have htopic : ∀ i t, i ≠ 0 → dropColors (topicText w t i) = (topicChars i t).map .ch := by
    intro i t hi
    unfold topicText
    rw [dropColors_append, txt_plain, painted_plain, if_neg hi]
    simp only [String.toList_append, String.toList_ofList, nat_chars, topicChars, List.map_append, List.map_cons,
      List.append_assoc]; rfl
  have htopics : ∀ (ts : List U256) (i : Nat), i ≠ 0 →
      ((ts.zipIdx i).map fun p => (⟨n, .pipes, topicText w p.1 p.2⟩ : Line)).map plainOf =
        (topicsFrom n i ts).map (·.map Glyph.ch) := by
    intro ts
    induction ts with
    | nil => intro i _; rfl
    | cons t ts ih =>
      intro i hi
      rw [List.zipIdx_cons, List.map_cons, List.map_cons, ih (i + 1) (by omega), topicsFrom, List.map_cons, plainOf,
        dropColors_append, htopic i t hi, margin_ch, drop_ch, List.map_append]
  unfold logLines
  rw [h]
  cases hts : l.rawLog.topics with
  | nil =>
    simp only [logChars, List.map_cons, List.map_nil, plainOf, List.map_append]
    rw [dropColors_append, hdata, margin_ch, drop_ch]
  | cons t ts =>
    simp only [logChars, List.map_cons, List.map_nil, List.map_append, htopics ts 1 (by decide)]
    simp only [plainOf]
    rw [dropColors_append, hzero, dropColors_append (margin n .pipes), hdata, margin_ch, drop_ch, margin_ch, drop_ch]

mutual
theorem doc_plain (w : Settings) : ∀ (d : Doc) (n : Nat), BareDoc d →
    (d.lines w n).map plainOf = (treeChars (fun a => (w.checksum a).toList) n d.seen).map (·.map Glyph.ch)
  | .mk x items, n, h => by
    simp only [BareDoc] at h
    simp only [Doc.lines, Doc.seen, treeChars, List.map_cons, List.map_append, List.map_nil,
      items_plain w items x (n + 1) 0 h.2, plainOf, dropColors_append, header_plain w x h.1, footer_plain w x h.1,
      margin_ch, drop_ch]
theorem items_plain (w : Settings) : ∀ (items : DocItems) (x : Node) (n k : Nat), BareItems items →
    (items.lines w x n [] k).map plainOf =
      (itemChars (fun a => (w.checksum a).toList) n items.seen).map (·.map Glyph.ch)
  | .nil, x, n, k, _ => rfl
  | .log l rest, x, n, k, h => by
    simp only [BareItems] at h
    simp only [DocItems.lines, DocItems.seen, itemChars, List.map_append, List.length_nil, Nat.add_zero,
      logLines_plain w n l h.1, items_plain w rest x n k h.2]
  | .step s rest, x, n, k, h => by
    simp only [BareItems] at h
    simp only [DocItems.lines, h.1, DocItems.seen, items_plain w rest x n (k + 1) h.2]
  | .sub d rest, x, n, k, h => by
    simp only [BareItems] at h
    simp only [DocItems.lines, DocItems.seen, itemChars, List.map_append, List.length_nil, Nat.add_zero,
      doc_plain w d n h.1, items_plain w rest x n k h.2]
end

mutual
theorem doc_sane : ∀ d : Doc, SaneTree d.seen
  | .mk x items => by
    simp only [Doc.seen, SaneTree]
    refine ⟨?_, items_sane items⟩
    unfold Sane seenFrame
    split
    · rename_i h
      split at h
      · cases h
      · rename_i hk
        simp only [Seen.called.injEq] at h
        rw [← h.1]
        exact ⟨fun e => hk (Or.inl e), fun e => hk (Or.inr e)⟩
    · trivial
theorem items_sane : ∀ it : DocItems, SaneItems it.seen
  | .nil => trivial
  | .log l rest => by simp only [DocItems.seen, SaneItems]; exact items_sane rest
  | .step s rest => by simp only [DocItems.seen]; exact items_sane rest
  | .sub d rest => by simp only [DocItems.seen, SaneItems]; exact ⟨doc_sane d, items_sane rest⟩
end

end ReadBack
end Verif
