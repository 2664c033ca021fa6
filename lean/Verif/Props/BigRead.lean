import Verif.Lemmas.BigRead
/-! C82: reading big integers to a base. -/
namespace Verif.Props
open BigJs Spec

/-- What reading gives for a number, or for a text that is no number. -/
def ReadAs (r : Option (R Big)) : Option Int → Prop
  | some n => ∃ b, r = some (.ok b) ∧ b.Ok ∧ b.toInt = n ∧ b.toText = .ok (intNumeral 10 n)
  | none => ∃ msg, r = some (.error (.expect msg))

/-- The lengths up to which texts are short, as computed with logarithms: numbers of so many digits are
below `2^53`, and every base has short texts. -/
def ShortOk (short : Nat → Nat) : Prop := ∀ base, 2 ≤ base → base ≤ 36 → 1 ≤ short base ∧ base ^ short base ≤ 2 ^ 53

theorem readAs_of {r : Option (R Big)} {b : Big} {n : Int} (h1 : r = some (.ok b)) (h2 : b.Ok) (h3 : b.toInt = n) :
    ReadAs r (some n) := ⟨b, h1, h2, h3, by rw [toText_ok h2, h3]⟩

theorem denoted_cases {base : Nat} (text : List Char) : denoted base text =
    let neg := decide (text.head? = some '-')
    let ds := if neg then text.drop 1 else text
    if ds = [] then none else (digitsOf base ds).map fun l : List Nat => if neg then -(positional base l : Int) else positional base l := by
  cases text with
  | nil => rfl
  | cons c cs =>
    by_cases h : c = '-'
    · subst h; rfl
    · rw [denoted]
      · simp [h]
      · rintro ds h'
        cases h'
        exact h rfl

theorem leading_fits {base : Nat} {s : List Char} {l : List Nat} (h : leadingDigits base s = l) :
    (∀ d ∈ l, d < base) ∧ l.length ≤ s.length := by
  subst h
  induction s with
  | nil => simp [leadingDigits]
  | cons c s ih =>
    rw [leadingDigits]
    cases digitValue c with
    | none => simp
    | some d =>
      by_cases hd : d < base
      · simp only [hd, if_true, List.forall_mem_cons, List.length_cons, true_and]
        exact ⟨ih.1, by omega⟩
      · simp [hd]

/-- The number at the start of a short text is below `2^53`. -/
theorem startNumber_bound {base k : Nat} (hb : 2 ≤ base) {text : List Char} (hlen : text.length ≤ k) {n : Int}
    (h : startNumber base text = some n) : n.natAbs < base ^ k := by
  have hnat : ∀ {s : List Char} {m : Nat}, startNat base s = some m → s.length ≤ k → m < base ^ k := by
    intro s m hm hs
    rw [startNat_eq] at hm
    obtain ⟨h1, h2⟩ := leading_fits (base := base) (s := s) rfl
    have h3 := positional_lt h1
    have h4 : base ^ (leadingDigits base s).length ≤ base ^ k := Nat.pow_le_pow_right (by omega) (by omega)
    split at hm
    · cases hm
    · rename_i hl
      cases hm
      rw [hl] at h3 h4
      omega
  have hdrop : (text.dropWhile fun c => blanks.contains c.toNat).length ≤ k :=
    Nat.le_trans (List.dropWhile_suffix _).sublist.length_le hlen
  rw [startNumber] at h
  simp only at h
  generalize (text.dropWhile fun c => blanks.contains c.toNat) = s at h hdrop
  have fin : ∀ {s : List Char} {f : Nat → Int}, (∀ m, (f m).natAbs = m) → (startNat base s).map f = some n →
      s.length ≤ k → n.natAbs < base ^ k := by
    intro s f hf hm hs
    cases hsn : startNat base s with
    | none => rw [hsn] at hm; cases hm
    | some m =>
      rw [hsn] at hm
      cases hm
      rw [hf]
      exact hnat hsn hs
  split at h
  · exact fin (fun m => by omega) h (by simp at hdrop; omega)
  · exact fin (fun m => by omega) h (by simp at hdrop; omega)
  · exact fin (fun m => by omega) h hdrop

/-- **C82, exactly.** For every base from 2 to 36 other than 10 and every text without an opening angle
bracket, `bigint(text, base)` gives the number of `readAs`, and an error if there is none. -/
theorem C82_exact (short : Nat → Nat) (hs : ShortOk short) (base : Nat) (hb : 2 ≤ base) (hb' : base ≤ 36)
    (hten : base ≠ 10) (text : List Char) (hbr : '<' ∉ text) :
    ReadAs (bigOfText short text base) (readAs (short base) base text) := by
  have hM : (MAX_INT : Int) = 9007199254740992 := rfl
  obtain ⟨s1, s2⟩ := hs base hb hb'
  rw [bigOfText, if_neg hten, parseBase, checkDigits_eq, readAs]
  have hfits : (∀ c ∈ text, ∀ d ∈ ofDigit (lookalike c), d < base) ↔ ∀ c ∈ text, Fits base c := by
    constructor
    · intro h c hc d hd
      exact h c hc d (by rw [ofDigit_eq]; exact hd)
    · intro h c hc d hd
      rw [ofDigit_eq] at hd
      exact h c hc d hd
  by_cases hf : ∀ c ∈ text, Fits base c
  · rw [if_pos hf, if_pos (hfits.mpr hf)]
    simp only
    by_cases hlen : text.length ≤ short base
    · rw [if_pos hlen, if_pos hlen, parseInt_eq]
      cases hn : startNumber base text with
      | none => exact ⟨_, rfl⟩
      | some n =>
        have := startNumber_bound hb hlen hn
        have h53 : (2 : Nat) ^ 53 = 9007199254740992 := by decide
        exact readAs_of rfl (ofSmall_ok (by omega) (by omega)) rfl
    · rw [if_neg hlen, if_neg hlen, denoted_cases]
      have hhead : ((text.map lookalike).head? = some '-') ↔ text.head? = some '-' := by
        cases text with
        | nil => rfl
        | cons c cs =>
          simp only [List.map_cons, List.head?_cons, Option.some.injEq]
          constructor
          · intro h
            by_cases h1 : c = Char.ofNat 0x212A
            · subst h1; exact absurd h (by decide)
            · by_cases h2 : c = Char.ofNat 0x130
              · subst h2; exact absurd h (by decide)
              · rwa [lookalike, if_neg h1, if_neg h2] at h
          · intro h; subst h; decide
      simp only [hhead]
      let ds := if text.head? = some '-' then text.drop 1 else text
      have hdm : (if decide (text.head? = some '-') = true then (text.map lookalike).drop 1 else text.map lookalike) =
          ds.map lookalike := by
        simp only [ds, decide_eq_true_eq]
        split
        · rw [List.map_drop]
        · rfl
      rw [hdm]
      have hne : ds.map lookalike ≠ [] := by
        intro h
        have : ds.length = 0 := by simpa using congrArg List.length h
        simp only [ds] at this
        split at this
        · rw [List.length_drop] at this; omega
        · omega
      rw [if_neg hne]
      have hsub : ∀ c ∈ ds, c ∈ text := by
        intro c hc
        simp only [ds] at hc
        split at hc
        · exact List.mem_of_mem_drop hc
        · exact hc
      have hcol := collectDigits_eq base text.length ds (by simp only [ds]; split <;> simp)
        (fun c hc => hf c (hsub c hc)) (fun h => hbr (hsub _ h))
      cases hl : digitsOf base (ds.map lookalike) with
      | none =>
        rw [hl] at hcol
        simp only at hcol
        simp only [ds] at hcol
        rw [hcol]
        exact ⟨_, rfl⟩
      | some l =>
        rw [hl] at hcol
        simp only at hcol
        simp only [ds] at hcol
        rw [hcol]
        obtain ⟨r, r1, r2, r3⟩ := parseBaseFromArray_ok hb' l (digitsOf_iff.mp hl).lt (decide (text.head? = some '-'))
        exact readAs_of (congrArg some r1) r2 r3
  · rw [if_neg hf, if_neg (fun h => hf (hfits.mp h))]
    exact ⟨_, rfl⟩

theorem lookalike_digit {c : Char} {d : Nat} (h : digitValue c = some d) : lookalike c = c := by
  rw [lookalike, if_neg, if_neg]
  · rintro rfl; have : digitValue (Char.ofNat 0x130) = none := by decide +kernel
    rw [this] at h; cases h
  · rintro rfl; have : digitValue (Char.ofNat 0x212A) = none := by decide +kernel
    rw [this] at h; cases h

theorem denoted_digits {base : Nat} {text : List Char} {n : Int} (h : denoted base text = some n) :
    ∃ (neg : Bool) (ds : List Char) (l : List Nat), text = (if neg then ['-'] else []) ++ ds ∧ ds ≠ [] ∧
      DigitsAre base ds l ∧ n = if neg then -(positional base l : Int) else positional base l := by
  have gen : ∀ ds : List Char, ∀ f : List Nat → Int,
      (if ds = [] then none else (digitsOf base ds).map f) = some n → ds ≠ [] ∧ ∃ l, DigitsAre base ds l ∧ n = f l := by
    intro ds f h
    by_cases h0 : ds = []
    · rw [if_pos h0] at h; cases h
    · rw [if_neg h0] at h
      cases hl : digitsOf base ds with
      | none => rw [hl] at h; cases h
      | some l => rw [hl] at h; cases h; exact ⟨h0, l, digitsOf_iff.mp hl, rfl⟩
  rw [denoted_cases] at h
  obtain ⟨h1, l, h2, h3⟩ := gen _ _ h
  refine ⟨decide (text.head? = some '-'), _, l, ?_, h1, h2, h3⟩
  cases text with
  | nil => rfl
  | cons c cs =>
    by_cases hc : c = '-'
    · subst hc; rfl
    · simp [hc]

/-- A text that denotes a number is read as that number, short or not. -/
theorem readAs_denoted {short base : Nat} {text : List Char} {n : Int}
    (h : denoted base text = some n) : readAs short base text = some n := by
  obtain ⟨neg, ds, l, rfl, hne, hd, hn⟩ := denoted_digits h
  have hall : ∀ c ∈ ds, ∃ d, digitValue c = some d ∧ d < base := by
    clear h hne hn
    induction hd with
    | nil => simp
    | cons hc hlt _ ih =>
      intro c hc'
      rcases List.mem_cons.mp hc' with rfl | hc'
      · exact ⟨_, hc, hlt⟩
      · exact ih c hc'
  have hfit : ∀ c ∈ (if neg then ['-'] else []) ++ ds, ∀ d ∈ ofDigit (lookalike c), d < base := by
    intro c hc d hd'
    rcases List.mem_append.mp hc with hc | hc
    · cases neg with
      | false => simp at hc
      | true =>
        simp only [if_true, List.mem_singleton] at hc
        subst hc
        rw [ofDigit_eq] at hd'
        revert hd'
        have : digitValue (lookalike '-') = none := by decide
        rw [this]
        simp
    · obtain ⟨d', h1, h2⟩ := hall c hc
      rw [lookalike_digit h1, ofDigit_eq, h1] at hd'
      cases hd'
      exact h2
  rw [readAs, if_pos hfit]
  have hmap : ((if neg then ['-'] else []) ++ ds).map lookalike = (if neg then ['-'] else []) ++ ds := by
    rw [List.map_append]
    congr 1
    · cases neg <;> decide
    · conv => rhs; rw [← List.map_id ds]
      exact List.map_congr_left fun c hc => by
        obtain ⟨d, h1, _⟩ := hall c hc
        exact lookalike_digit h1
  rw [hmap, h]
  by_cases hlen : ((if neg then ['-'] else []) ++ ds).length ≤ short
  · rw [if_pos hlen]
    clear hlen
    obtain ⟨c, cs, rfl⟩ : ∃ c cs, ds = c :: cs := by
      cases ds with
      | nil => exact absurd rfl hne
      | cons c cs => exact ⟨c, cs, rfl⟩
    obtain ⟨d, h1, h2⟩ := hall c (by simp)
    obtain ⟨_, e1, e2, e3, _⟩ := digit_seen c d h1
    have hst : startNat base (c :: cs) = some (positional base l) := by
      rw [startNat_eq, hd.leading]
      cases hd with
      | cons _ _ _ => rfl
    have hstart : ∀ neg : Bool, startNumber base ((if neg then ['-'] else []) ++ c :: cs) =
        (startNat base (c :: cs)).map fun n : Nat => if neg then -(n : Int) else (n : Int) := by
      intro neg
      rw [startNumber]
      cases neg with
      | true =>
        have : List.dropWhile (fun c => blanks.contains c.toNat) ((if true = true then ['-'] else []) ++ c :: cs) =
            '-' :: c :: cs := by
          simp only [if_true, List.singleton_append]
          rw [List.dropWhile_cons_of_neg (by decide)]
        rw [this]
        rfl
      | false =>
        have : List.dropWhile (fun c => blanks.contains c.toNat) ((if false = true then ['-'] else []) ++ c :: cs) =
            c :: cs := by
          simp only [Bool.false_eq_true, if_false, List.nil_append]
          rw [List.dropWhile_cons_of_neg (by rw [← isSpace_eq, e1]; simp)]
        rw [this]
        simp only
        split
        · rename_i h; cases h; exact absurd rfl e2
        · rename_i h; cases h; exact absurd rfl e3
        · rfl
    rw [hstart, hst, hn]
    rfl
  · rw [if_neg hlen]

/-- **C82.** For every base from 2 to 36, every text that denotes a number to that base (digits of either
case, after a minus sign or not, as many as one likes) is read by `bigint(text, base)` as that number. -/
theorem C82_reads (short : Nat → Nat) (hs : ShortOk short) (base : Nat) (hb : 2 ≤ base) (hb' : base ≤ 36)
    (text : List Char) (n : Int) (h : denoted base text = some n) :
    ReadAs (bigOfText short text base) (some n) := by
  by_cases hten : base = 10
  · subst hten
    obtain ⟨neg, ds, l, rfl, hne, hd, hn⟩ := denoted_digits h
    obtain ⟨h1, h2⟩ := digitsNumber_positional hd
    obtain ⟨b, b1, b2, b3⟩ := parse_ok hne h1 neg
    rw [bigOfText, if_pos rfl]
    exact readAs_of b1 b2 (by rw [b3, h2, hn])
  · have hbr : '<' ∉ text := by
      obtain ⟨neg, ds, l, rfl, hne, hd, hn⟩ := denoted_digits h
      intro hmem
      rcases List.mem_append.mp hmem with hmem | hmem'
      · cases neg <;> simp at hmem
      · clear h hne hn hmem
        induction hd with
        | nil => simp at hmem'
        | cons hc _ _ ih =>
          rcases List.mem_cons.mp hmem' with h | h
          · subst h; revert hc; have : digitValue '<' = none := by decide
            rw [this]; simp
          · exact ih h
    have := C82_exact short hs base hb hb' hten text hbr
    rwa [readAs_denoted h] at this

theorem digit_value {d : Nat} (h : d < 36) : digitValue (digit d) = some d := by
  have : ∀ d : Fin 36, digitValue (digit d.val) = some d.val := by decide +kernel
  exact this ⟨d, h⟩

theorem numeral_digits {base : Nat} (hb : 2 ≤ base) (hb' : base ≤ 36) (n : Nat) :
    numeral base n ≠ [] ∧ ∃ l, DigitsAre base (numeral base n) l ∧ positional base l = n := by
  induction n using Nat.strongRecOn with
  | ind n ih =>
    by_cases h : n < base
    · rw [numeral_lt h]
      exact ⟨by simp, [n], .cons (digit_value (by omega)) h .nil, by simp [positional]⟩
    · obtain ⟨i1, l, i2, i3⟩ := ih (n / base) (Nat.div_lt_self (by omega) (by omega))
      have hm := Nat.mod_lt n (show base > 0 by omega)
      rw [numeral_ge hb (by omega)]
      refine ⟨by simp, l ++ [n % base], ?_, ?_⟩
      · clear i1 i3
        revert i2
        generalize numeral base (n / base) = ds
        intro i2
        induction i2 with
        | nil => exact .cons (digit_value (by omega)) hm .nil
        | cons hc hd _ ih => exact .cons hc hd ih
      · have h1 := foldl_positional base (l ++ [n % base]) 0
        have h2 := foldl_positional base l 0
        rw [List.foldl_append] at h1
        simp only [List.foldl_cons, List.foldl_nil, Nat.zero_mul, Nat.zero_add] at h1 h2
        rw [← h1, h2, i3]
        exact Nat.div_add_mod n base

/-- The text of every integer denotes it. -/
theorem denoted_numeral {base : Nat} (hb : 2 ≤ base) (hb' : base ≤ 36) (n : Int) :
    denoted base (intNumeral base n) = some n := by
  obtain ⟨h1, l, h2, h3⟩ := numeral_digits hb hb' n.natAbs
  have h4 := digitsOf_iff.mpr h2
  rw [intNumeral]
  by_cases h : n < 0
  · rw [if_pos h, denoted, if_neg h1, h4]
    simp only [Option.map_some, h3]
    congr 1
    omega
  · rw [if_neg h, denoted_cases]
    have hm : (numeral base n.natAbs).head? ≠ some '-' := by
      revert h1 h2
      cases numeral base n.natAbs with
      | nil => intro h; exact absurd rfl h
      | cons c cs =>
        intro _ hd hx
        cases hd with
        | cons hc _ _ =>
          simp only [List.head?_cons, Option.some.injEq] at hx
          subst hx
          revert hc
          have : digitValue '-' = none := by decide
          rw [this]; simp
    simp only [hm, decide_false, Bool.false_eq_true, if_false]
    rw [if_neg h1, h4]
    simp only [Option.map_some, h3]
    congr 1
    omega

/-- **C82.** What `toString(base)` writes, `bigint(text, base)` reads as the same number, for every integer
and every base from 2 to 36. -/
theorem C82_roundtrip (short : Nat → Nat) (hs : ShortOk short) (base : Nat) (hb : 2 ≤ base) (hb' : base ≤ 36)
    (n : Int) : ∃ b, parseStringValue (intNumeral 10 n) = some (.ok b) ∧
      ∀ fl fuel, n.natAbs < fuel → ∃ text b', b.toBase fl fuel base = .ok text ∧
        bigOfText short text base = some (.ok b') ∧ b'.toInt = n ∧ b'.toText = b.toText := by
  obtain ⟨b, h1, h2, h3⟩ := parse_numeral n
  refine ⟨b, h1, fun fl fuel hf => ?_⟩
  obtain ⟨b', k1, k2, k3, k4⟩ := C82_reads short hs base hb hb' _ n (denoted_numeral hb hb' n)
  exact ⟨_, b', by rw [toBase_ok fl h2 hb hb' (by rw [h3]; exact hf), h3], k1, k3, by rw [k4, toText_ok h2, h3]⟩

/-- **C82, the texts that denote no number, in part.** A long text that denotes no number is rejected if it
has none of `<`, the Kelvin sign and the capital I with a dot. Missing: short texts (see
`C82_refuted`), texts with one of these characters, and base 10. -/
theorem C82_rejects_partial (short : Nat → Nat) (hs : ShortOk short) (base : Nat) (hb : 2 ≤ base) (hb' : base ≤ 36)
    (hten : base ≠ 10) (text : List Char) (hbr : '<' ∉ text) (hlook : ∀ c ∈ text, lookalike c = c)
    (hlong : short base < text.length) (h : denoted base text = none) :
    ∃ msg, bigOfText short text base = some (.error (.expect msg)) := by
  have := C82_exact short hs base hb hb' hten text hbr
  have hmap : text.map lookalike = text := by
    conv => rhs; rw [← List.map_id text]
    exact List.map_congr_left hlook
  rw [readAs, hmap, if_neg (show ¬ text.length ≤ short base by omega), h] at this
  split at this
  · exact this
  · exact this

/-- The lengths for the bases 2, 8, 16 and 36; the others are chosen to be valid. -/
def shortSample (base : Nat) : Nat :=
  if base = 2 then 53 else if base = 8 then 17 else if base = 16 then 13 else 10

theorem shortSample_ok : ShortOk shortSample := by
  intro base hb hb'
  have : ∀ b : Fin 37, 2 ≤ b.val → 1 ≤ shortSample b.val ∧ b.val ^ shortSample b.val ≤ 2 ^ 53 := by decide +kernel
  exact this ⟨base, by omega⟩ hb

/-- **C82 fails for texts that denote no number.** Of a short text only the start is read: for all short
texts that begin with a digit, whatever follows it, if it is no digit that is too large. So `1-2`, `1.5`
and `f f` are numbers to base 16, whereas longer texts of the kind are rejected. -/
theorem C82_refuted : ¬ ∀ short, ShortOk short → ∀ text, denoted 16 text = none →
    ∀ b, bigOfText short text 16 ≠ some (.ok b) := by
  intro h
  exact h shortSample shortSample_ok "1-2".toList (by decide +kernel) (.ofSmall 1) rfl

theorem C82_starts (short : Nat → Nat) (hs : ShortOk short) (base : Nat) (hb : 2 ≤ base) (hb' : base ≤ 36)
    (hten : base ≠ 10) (c : Char) (d : Nat) (hc : ofDigit c = some d) (hd : d < base) (rest : List Char)
    (hrest : ∀ x ∈ rest, ofDigit (lookalike x) = none) (hbr : '<' ∉ rest) (hlen : rest.length < short base) :
    ReadAs (bigOfText short (c :: rest) base) (some d) := by
  rw [ofDigit_eq] at hc
  have hex := C82_exact short hs base hb hb' hten (c :: rest) (by
    intro h
    rcases List.mem_cons.mp h with h | h
    · subst h; revert hc; have : digitValue '<' = none := by decide
      rw [this]; simp
    · exact hbr h)
  rw [readAs, if_pos, if_pos (by simp only [List.length_cons]; omega)] at hex
  · have hnone : leadingDigits base rest = [] := by
      cases rest with
      | nil => rfl
      | cons x xs =>
        rw [leadingDigits]
        cases hx : digitValue x with
        | none => rfl
        | some d' =>
          have := hrest x (by simp)
          rw [lookalike_digit hx, ofDigit_eq, hx] at this
          cases this
    have hst : startNat base (c :: rest) = some d := by
      rw [startNat_eq, leadingDigits, hc]
      simp only
      rw [if_pos hd, hnone]
      simp [positional]
    obtain ⟨_, e1, e2, e3, _⟩ := digit_seen c d hc
    have : startNumber base (c :: rest) = some (d : Int) := by
      rw [startNumber, List.dropWhile_cons_of_neg (by rw [← isSpace_eq, e1]; simp)]
      simp only
      split
      · rename_i h; cases h; exact absurd rfl e2
      · rename_i h; cases h; exact absurd rfl e3
      · show (startNat base (c :: rest)).map _ = _
        rw [hst]; rfl
    rwa [this] at hex
  · intro x hx d' hd'
    rcases List.mem_cons.mp hx with rfl | hx
    · rw [lookalike_digit hc, ofDigit_eq, hc] at hd'
      cases hd'; exact hd
    · rw [hrest x hx] at hd'; cases hd'

theorem upToBracket_diverges {s : List Char} (h : '>' ∉ s) : upToBracket s = .error .diverge := by
  induction s with
  | nil => rfl
  | cons c s ih =>
    rw [upToBracket, if_neg (fun hc => h (by simp [hc])), ih (fun hs => h (by simp [hs]))]
    rfl

/-- A long text with an opening angle bracket after digits and no closing one is read without end: the loop
that looks for the closing bracket does not stop at the end of the text. -/
theorem C82_bracket (short : Nat → Nat) (base : Nat) (hb : 2 ≤ base) (hb' : base ≤ 36) (hten : base ≠ 10)
    (n : Nat) (rest : List Char) (hrest : ∀ c ∈ rest, ∀ d ∈ ofDigit (lookalike c), d < base) (hbr : '>' ∉ rest)
    (hlong : short base ≤ (numeral base n).length + rest.length) :
    bigOfText short (numeral base n ++ '<' :: rest) base = some (.error .diverge) := by
  obtain ⟨hne, l, hd, hpos⟩ := numeral_digits hb hb' n
  clear hpos
  revert hne hd hlong
  generalize numeral base n = ds
  intro hlong hne hd
  have hcheck : ∀ c ∈ ds ++ '<' :: rest, Fits base c := by
    intro c hc
    rcases List.mem_append.mp hc with hc' | hc
    · clear hlong hne hc
      induction hd with
      | nil => simp at hc'
      | cons h1 h2 _ ih =>
        rcases List.mem_cons.mp hc' with rfl | hc
        · intro d' hd'
          rw [lookalike_digit h1, h1] at hd'
          cases hd'; exact h2
        · exact ih hc
    · rcases List.mem_cons.mp hc with rfl | hc
      · intro d hd
        have : digitValue (lookalike '<') = none := by decide
        rw [this] at hd; cases hd
      · intro d hd
        exact hrest c hc d (by rw [ofDigit_eq]; exact hd)
  have hmin : (ds ++ '<' :: rest).head? ≠ some '-' := by
    cases hd with
    | nil => exact absurd rfl hne
    | cons hc _ _ =>
      simp only [List.cons_append, List.head?_cons, ne_eq, Option.some.injEq]
      rintro rfl
      have : digitValue '-' = none := by decide
      rw [this] at hc; cases hc
  rw [bigOfText, if_neg hten, parseBase, checkDigits_eq, if_pos hcheck]
  simp only
  rw [if_neg (show ¬ (ds ++ '<' :: rest).length ≤ short base by simp only [List.length_append, List.length_cons]; omega)]
  simp only [hmin, if_false]
  have hcol : ∀ fuel, ds.length < fuel → collectDigits fuel (ds ++ '<' :: rest) = some (.error .diverge) := by
    clear hlong hne hmin hcheck
    induction hd with
    | nil =>
      intro fuel hf
      cases fuel with
      | zero => simp at hf
      | succ fuel =>
        rw [List.nil_append, collectDigits, if_neg (by decide), if_neg (by decide), if_pos (by decide),
          upToBracket_diverges hbr]
    | @cons c d cs ds hc hlt _ ih =>
      intro fuel hf
      cases fuel with
      | zero => simp at hf
      | succ fuel =>
        obtain ⟨h1, _, _, _, h2, h3⟩ := digit_seen _ _ hc
        rw [List.cons_append, collectDigits, ih fuel (by simpa using hf)]
        rcases h3 with ⟨h3, _⟩ | ⟨h3, h4, _⟩
        · rw [if_pos h3]; rfl
        · rw [if_neg (by simp [h3]), if_pos h4]; rfl
  rw [hcol _ (by simp)]

/-- A balance, as the prestate tracer of geth reads it. -/
example : denoted 16 "de0b6b3a7640000".toList = some 1000000000000000000 ∧
    (match bigOfText shortSample "de0b6b3a7640000".toList 16 with
      | some (.ok b) => b.toText.toOption == some "1000000000000000000".toList
      | _ => false) = true := by decide +kernel

example : denoted 16 "-FFffFFffFFffFFffFFff".toList = some (-1208925819614629174706175) ∧
    (match bigOfText shortSample "-FFffFFffFFffFFffFFff".toList 16 with
      | some (.ok b) => b.toText.toOption == some "-1208925819614629174706175".toList
      | _ => false) = true := by decide +kernel

/-- A long text that denotes no number, and one with a bracket. -/
example : denoted 16 "1000000000000-2".toList = none ∧
    bigOfText shortSample "1000000000000-2".toList 16 = some (.error (.expect "is not a valid character")) ∧
    bigOfText shortSample "10000000000000<".toList 16 = some (.error .diverge) := by
  refine ⟨by decide +kernel, ?_, ?_⟩ <;> rfl

/-- Short texts of which the start is read. -/
example : readAs 13 16 " +f f".toList = some 15 ∧ readAs 13 16 "1.5".toList = some 1 ∧
    readAs 13 16 "0x10".toList = none ∧ readAs 13 16 "".toList = none ∧ readAs 13 16 "-".toList = none := by
  decide +kernel

end Verif.Props
