import Verif.Spec.BigPrefix
import Verif.Props.BigText
/-! C116: reading big integers from hexadecimal, octal and binary texts. -/
namespace Verif.Props
open BigJs Spec

/-- What is taken for the digits to a base. -/
theorem natLiteral_eq (base : Nat) (s : List Char) : natLiteral base s =
    if s = [] then none else (digitsOf base s).map (positional base) := by
  have hlen : ∀ s : List Char, (leadingDigits base s).length = s.length →
      digitsOf base s = some (leadingDigits base s) := by
    intro s
    induction s with
    | nil => intro _; rfl
    | cons c s ih =>
      intro h
      rw [leadingDigits] at h ⊢
      rw [digitsOf_cons]
      cases hc : digitValue c with
      | none => rw [hc] at h; simp at h
      | some d =>
        rw [hc] at h
        dsimp only at h ⊢
        by_cases hd : d < base
        · rw [if_pos hd] at h ⊢
          rw [ih (by simpa using h)]
          simp [Option.filter, hd]
        · rw [if_neg hd] at h; simp at h
  have hle : ∀ l : List Nat, l.foldl (fun n d => base * n + d) 0 = positional base l := by
    intro l; rw [foldl_positional]; simp
  rw [natLiteral]
  by_cases hs : s = []
  · subst hs; rfl
  rw [if_neg hs]
  cases hd : digitsOf base s with
  | some l =>
    have hl := digitsOf_iff.mp hd
    have h1 := hl.leading
    have h2 := hl.length
    rw [h1, if_neg, hle]
    · rfl
    · rintro (h | h)
      · subst h; exact hs (List.eq_nil_of_length_eq_zero h2.symm)
      · exact h h2
  | none =>
    rw [if_pos]
    · rfl
    · right
      intro h
      rw [hlen s h] at hd
      cases hd

/-- A text with a character that can be in no decimal number is not read digit by digit. -/
theorem parseLong_bad (fl : Rat → Rat) {v p q : List Char} {c : Char} (hv : v = p ++ c :: q)
    (hp : NoE p) (hc : isDecimal c = false) (hE : c ≠ 'e' ∧ c ≠ 'E') (hdot : c ≠ '.')
    (hminus : c ≠ '-') : Throws (parseLong fl v) := by
  have hbody : ∀ (v p : List Char) (sign : Bool), v = p ++ c :: q → NoE p → Throws (match splitE v with
      | [_] => parseDigits v sign
      | [text, e] => parseExponent fl text e sign
      | _ => .error (.expect "Invalid integer")) := by
    intro v p sign hv hp
    have hsplit : ∃ t ps, splitE v = t :: ps ∧ c ∈ t := by
      rw [hv]
      clear hv
      induction p with
      | nil =>
        rw [List.nil_append, splitE, if_neg (by simp [hE.1, hE.2])]
        split
        · exact ⟨_, _, rfl, by simp⟩
        · exact ⟨_, _, rfl, by simp⟩
      | cons a p ih =>
        have ha := hp a (by simp)
        obtain ⟨t, ps, h1, h2⟩ := ih (fun x hx => hp x (by simp [hx]))
        rw [List.cons_append, splitE, if_neg (by simp [ha.1, ha.2]), h1]
        exact ⟨_, _, rfl, by simp [h2]⟩
    obtain ⟨t, ps, hs, ht⟩ := hsplit
    rw [hs]
    match ps with
    | [] => exact ⟨_, parseDigits_bad (by rw [hv]; simp) hc _⟩
    | [e] =>
      dsimp only
      rw [parseExponent]
      split
      · exact ⟨_, rfl⟩
      · split
        · exact ⟨_, rfl⟩
        · have hmem : ∀ n : Int, c ∈ (removePoint t n).1 := by
            intro n
            rw [removePoint]
            split
            · rename_i dp hdp
              obtain ⟨hlt, hget, _⟩ := List.idxOf?_eq_some_iff.mp hdp
              have : t = t.take dp ++ '.' :: t.drop (dp + 1) := by
                conv => lhs; rw [← List.take_append_drop dp t, List.drop_eq_getElem_cons hlt]
                rw [show t[dp] = '.' from by simpa using hget]
              rw [this] at ht
              simp only [List.mem_append, List.mem_cons] at ht
              simp only [List.mem_append]
              rcases ht with h | h | h
              · exact .inl h
              · exact absurd h hdot
              · exact .inr h
            · exact ht
          dsimp only
          split
          · exact ⟨_, rfl⟩
          · split
            · exact ⟨_, rfl⟩
            · exact ⟨_, parseDigits_bad (List.mem_append_left _ (hmem _)) hc _⟩
    | _ :: _ :: _ => exact ⟨_, rfl⟩
  rw [parseLong]
  by_cases hh : v.head? = some '-'
  · simp only [hh, decide_true, if_true]
    cases p with
    | nil => rw [hv] at hh; simp at hh; exact absurd hh hminus
    | cons a p =>
      exact hbody _ p _ (by rw [hv]; rfl) (fun x hx => hp x (by simp [hx]))
  · simp only [hh, decide_false, Bool.false_eq_true, if_false]
    exact hbody _ p _ hv hp

theorem letters {c : Char} {base : Nat} (h : announcedBase c = some base) :
    ((c = 'x' ∨ c = 'X') ∧ base = 16) ∨ ((c = 'o' ∨ c = 'O') ∧ base = 8) ∨ ((c = 'b' ∨ c = 'B') ∧ base = 2) := by
  rw [announcedBase] at h
  split at h
  · rename_i hc; cases h; exact .inl ⟨hc, rfl⟩
  · split at h
    · rename_i hc; cases h; exact .inr (.inl ⟨hc, rfl⟩)
    · split at h
      · rename_i hc; cases h; exact .inr (.inr ⟨hc, rfl⟩)
      · cases h

/-- Facts about the letters. -/
theorem letter_facts {c : Char} {base : Nat} (h : announcedBase c = some base) :
    isDecimal c = false ∧ (c ≠ 'e' ∧ c ≠ 'E') ∧ c ≠ '.' ∧ c ≠ '-' ∧ isSpace c = false ∧ digitValue c ≠ none ∧
      (∀ d, digitValue c = some d → 10 ≤ d) := by
  rcases letters h with ⟨rfl | rfl, rfl⟩ | ⟨rfl | rfl, rfl⟩ | ⟨rfl | rfl, rfl⟩ <;> decide

theorem noE_zero : NoE ['0'] := by unfold NoE; decide

/-- The number of a text that begins with zero and a letter. -/
theorem stringToNumber_letter (fl : Rat → Rat) {c : Char} {base : Nat} (h : announcedBase c = some base)
    {ds : List Char} (hb : ∀ x ∈ ds, isSpace x = false) :
    stringToNumber fl ('0' :: c :: ds) = (natLiteral base ds).map fun n : Nat => toDouble fl n := by
  have hsp := (letter_facts h).2.2.2.2.1
  rw [stringToNumber, trimSpace_none (by
    intro x hx
    rcases List.mem_cons.mp hx with rfl | hx
    · decide
    · rcases List.mem_cons.mp hx with rfl | hx
      · exact hsp
      · exact hb x hx)]
  rcases letters h with ⟨rfl | rfl, rfl⟩ | ⟨rfl | rfl, rfl⟩ | ⟨rfl | rfl, rfl⟩ <;> rfl

/-- With a sign it is not a number. -/
theorem stringToNumber_signed (fl : Rat → Rat) {g : Char} (hg : g = '-' ∨ g = '+') {c : Char} {base : Nat}
    (h : announcedBase c = some base) {ds : List Char} (hb : ∀ x ∈ ds, isSpace x = false) :
    stringToNumber fl (g :: '0' :: c :: ds) = none := by
  obtain ⟨h1, h2, h3, h4, h5, h6, h7⟩ := letter_facts h
  have hun : unsignedDecimal ('0' :: c :: ds) = none := by
    rcases letters h with ⟨rfl | rfl, rfl⟩ | ⟨rfl | rfl, rfl⟩ | ⟨rfl | rfl, rfl⟩ <;> rfl
  have htrim : trimSpace (g :: '0' :: c :: ds) = g :: '0' :: c :: ds := trimSpace_none (by
    intro x hx
    rcases List.mem_cons.mp hx with rfl | hx
    · rcases hg with rfl | rfl <;> decide
    · rcases List.mem_cons.mp hx with rfl | hx
      · decide
      · rcases List.mem_cons.mp hx with rfl | hx
        · exact h5
        · exact hb x hx)
  rw [stringToNumber, htrim]
  rcases hg with rfl | rfl
  · simp only [takeSign]
    rw [hun]
    rfl
  · simp only [takeSign]
    rw [hun]
    rfl

/-- **C116, exactly.** For every text without white space that begins with a zero and one of the letters:
if it denotes an integer below `2^53`, that integer is read, and otherwise the text is rejected. -/
theorem C116_exact (fl : Rat → Rat) (hfl : Rounding fl) (c : Char) (base : Nat) (hc : announcedBase c = some base)
    (ds : List Char) (hb : ∀ x ∈ ds, blanks.contains x.toNat = false) :
    (∀ n, announced ('0' :: c :: ds) = some n → n < 2 ^ 53 → GivesInt (parseText fl ('0' :: c :: ds)) n) ∧
    ((∀ n, announced ('0' :: c :: ds) = some n → 2 ^ 53 ≤ n) → Throws (parseText fl ('0' :: c :: ds))) := by
  have hM : (MAX_INT : Int) = 9007199254740992 := rfl
  have hf := letter_facts hc
  have hs : stringToNumber fl ('0' :: c :: ds) = (announced ('0' :: c :: ds)).map fun n : Nat => toDouble fl n := by
    rw [stringToNumber_letter fl hc (fun x hx => by rw [isSpace_eq]; exact hb x hx), natLiteral_eq, announced, hc]
    rfl
  have hlong : Throws (parseLong fl ('0' :: c :: ds)) :=
    parseLong_bad fl (p := ['0']) (q := ds) rfl noE_zero hf.1 hf.2.1 hf.2.2.1 hf.2.2.2.1
  constructor
  · intro n hn hlt
    refine givesInt_of (b := .ofSmall n) ?_ (ofSmall_ok (by omega) (by omega)) rfl
    rw [parseText, hs, hn]
    have := toDouble_small hfl (n := (n : Int)) (by omega)
    simp only [Option.map_some]
    rw [show ((n : Nat) : Rat) = ((n : Int) : Rat) from rfl, this, isPreciseRat_int, decide_eq_true (by omega)]
    simp
  · intro hno
    rw [parseText, hs]
    cases hn : announced ('0' :: c :: ds) with
    | none => exact hlong
    | some n =>
      have hge := hno n hn
      have := toDouble_int hfl (n : Int)
      rw [decide_eq_false (by omega)] at this
      simp only [Option.map_some]
      rw [show ((n : Nat) : Rat) = ((n : Int) : Rat) from rfl, this]
      exact hlong

/-- **C116, in part.** Hexadecimal, octal and binary literals are read as the integers they denote, if these
are below `2^53`. Missing: larger ones (`C116_refuted`) and those with a sign (`C116_signed`). -/
theorem C116_reads_partial (fl : Rat → Rat) (hfl : Rounding fl) (text : List Char) (n : Nat)
    (hn : announced text = some n) (hlt : n < 2 ^ 53) : GivesInt (parseText fl text) n := by
  obtain ⟨c, ds, rfl⟩ : ∃ c ds, text = '0' :: c :: ds := by
    unfold announced at hn
    split at hn
    · exact ⟨_, _, rfl⟩
    · cases hn
  cases hc : announcedBase c with
  | none => rw [announced, hc] at hn; cases hn
  | some base =>
    refine (C116_exact fl hfl c base hc ds ?_).1 n hn hlt
    intro x hx
    rw [announced, hc] at hn
    dsimp only [Option.bind_some] at hn
    split at hn
    · cases hn
    · cases hd : digitsOf base ds with
      | none => rw [hd] at hn; cases hn
      | some l =>
        have := digitsOf_iff.mp hd
        rw [← isSpace_eq]
        clear hn hd
        induction this with
        | nil => cases hx
        | cons h1 _ _ ih =>
          rcases List.mem_cons.mp hx with rfl | hx
          · exact (digit_seen _ _ h1).2.1
          · exact ih hx (List.ne_nil_of_mem hx)

/-- **C116, literals with a sign.** They are always rejected. -/
theorem C116_signed (fl : Rat → Rat) (g : Char) (hg : g = '-' ∨ g = '+') (c : Char) (base : Nat)
    (hc : announcedBase c = some base) (ds : List Char) (hb : ∀ x ∈ ds, blanks.contains x.toNat = false) :
    Throws (parseText fl (g :: '0' :: c :: ds)) := by
  have hf := letter_facts hc
  rw [parseText, stringToNumber_signed fl hg hc (fun x hx => by rw [isSpace_eq]; exact hb x hx)]
  refine parseLong_bad fl (p := [g, '0']) (q := ds) rfl ?_ hf.1 hf.2.1 hf.2.2.1 hf.2.2.2.1
  rcases hg with rfl | rfl <;> (unfold NoE; decide)

/-- **C116 fails** from `2^53` on: the address `0x` followed by forty digits is rejected. -/
theorem C116_refuted : ¬ ∀ fl, Rounding fl → ∀ text n, announced text = some n → GivesInt (parseText fl text) n := by
  intro h
  obtain ⟨fl, hfl⟩ := rounding_exists
  have h1 := h fl hfl "0xd8da6bf26964af9d7eed9e03e53415d37aa96045".toList
    0xd8da6bf26964af9d7eed9e03e53415d37aa96045 (by decide +kernel)
  obtain ⟨msg, h2⟩ := (C116_exact fl hfl 'x' 16 rfl "d8da6bf26964af9d7eed9e03e53415d37aa96045".toList
    (by decide +kernel)).2 (by
      intro n hn
      have : announced "0xd8da6bf26964af9d7eed9e03e53415d37aa96045".toList =
        some 0xd8da6bf26964af9d7eed9e03e53415d37aa96045 := by decide +kernel
      rw [show ('0' :: 'x' :: "d8da6bf26964af9d7eed9e03e53415d37aa96045".toList) =
        "0xd8da6bf26964af9d7eed9e03e53415d37aa96045".toList from by decide +kernel, this] at hn
      cases hn
      decide)
  obtain ⟨b, h3, _⟩ := h1
  rw [show ('0' :: 'x' :: "d8da6bf26964af9d7eed9e03e53415d37aa96045".toList) =
        "0xd8da6bf26964af9d7eed9e03e53415d37aa96045".toList from by decide +kernel, h3] at h2
  cases h2

/-- Texts that are read. -/
example : announced "0xFFe5".toList = some 65509 ∧ announced "0b101".toList = some 5 ∧
    announced "0O17".toList = some 15 ∧ announced "0x".toList = none ∧ announced "0b12".toList = none := by decide +kernel

end Verif.Props
