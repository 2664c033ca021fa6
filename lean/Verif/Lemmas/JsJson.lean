import Verif.Spec.JsJson
import Verif.Lemmas.BigIntText
/-! Lemmas on the JSON texts of JavaScript values and their parsing. -/
namespace Verif
open Spec JsonText JsonParse BigJs

/-! ### Outcomes -/

/-- `x` is `a` if `P` holds and a syntax error if not. -/
def Parses {α : Type} (P : Prop) (a : α) (x : Except JsonErr α) : Prop :=
  (P → x = .ok a) ∧ (¬ P → x = .error .syntax)

theorem Parses.iff {α : Type} {P Q : Prop} {a : α} {x : Except JsonErr α} (h : Parses P a x)
    (hi : P ↔ Q) : Parses Q a x :=
  ⟨fun q => h.1 (hi.mpr q), fun q => h.2 (fun p => q (hi.mp p))⟩

theorem Parses.bind {α β : Type} {P Q : Prop} {a : α} {b : β} {x : Except JsonErr α}
    {f : α → Except JsonErr β} (h : Parses P a x) (hf : P → Parses Q b (f a)) :
    Parses (P ∧ Q) b (x >>= f) := by
  constructor
  · rintro ⟨p, q⟩
    rw [h.1 p]
    exact (hf p).1 q
  · intro hn
    by_cases p : P
    · rw [h.1 p]
      exact (hf p).2 (fun q => hn ⟨p, q⟩)
    · rw [h.2 p]; rfl

theorem Parses.ok {α : Type} {P : Prop} (hp : P) (a : α) : Parses P a (.ok a) :=
  ⟨fun _ => rfl, fun h => absurd hp h⟩

theorem Parses.error {α : Type} {P : Prop} (hp : ¬ P) (a : α) : Parses P a (.error .syntax) :=
  ⟨fun h => absurd h hp, fun _ => rfl⟩

/-! ### Strings -/

theorem hexVal_hexDigit (n : Nat) : hexVal (hexDigit n) = some (n % 16) := by
  have h : ∀ k : Fin 16, hexVal (Nat.digitChar k.val) = some k.val := by decide
  exact h ⟨n % 16, Nat.mod_lt _ (by decide)⟩

theorem hex4_digits {n : Nat} (h : n < 65536) :
    hex4 (hexDigit (n / 4096)) (hexDigit (n / 256)) (hexDigit (n / 16)) (hexDigit n) = some n := by
  simp only [hex4, hexVal_hexDigit, Option.bind_eq_bind, Option.bind_some, Option.some.injEq]
  omega

theorem ofNat_toNat (c : Char) {n : Nat} (h : c.toNat = n) : Char.ofNat n = c := by
  rw [← h, Char.ofNat_toNat]

theorem string_ch (c : Char) (r : List Char) :
    string (escape (.ch c) ++ r) = (do let (s, r) ← string r; .ok (c :: s, r)) := by
  unfold escape
  simp only
  split
  · rename_i h
    rw [List.cons_append, List.cons_append, List.nil_append, string]
    · rw [← ofNat_toNat c h]; rfl
    all_goals simp
  split
  · rename_i h
    rw [List.cons_append, List.cons_append, List.nil_append, string]
    · rw [← ofNat_toNat c h]; rfl
    all_goals simp
  split
  · rename_i h
    rw [List.cons_append, List.cons_append, List.nil_append, string]
    · rw [← ofNat_toNat c h]; rfl
    all_goals simp
  split
  · rename_i h
    rw [List.cons_append, List.cons_append, List.nil_append, string]
    · rw [← ofNat_toNat c h]; rfl
    all_goals simp
  split
  · rename_i h
    rw [List.cons_append, List.cons_append, List.nil_append, string]
    · rw [← ofNat_toNat c h]; rfl
    all_goals simp
  split
  · rename_i h
    rw [List.cons_append, List.cons_append, List.nil_append, string]
    · rw [h]; rfl
    all_goals simp
  split
  · rename_i h
    rw [List.cons_append, List.cons_append, List.nil_append, string]
    · rw [h]; rfl
    all_goals simp
  split
  · rename_i h
    simp only [unicodeEscape, List.cons_append, List.nil_append]
    rw [string, hex4_digits (by omega)]
    simp only
    rw [if_neg (by omega), if_neg (by omega), ofNat_toNat c rfl]
  · rename_i h1 h2 h3
    rw [List.cons_append, List.nil_append, string]
    · rw [if_neg (by simp only [h2, false_or]; exact h3)]
    · exact h1
    · intro _ _ _ _ _ hc; exact absurd hc h2
    · intro _ _ hc; exact absurd hc h2

theorem string_lone {n : Nat} {s : List JsChar} (h : PairedStr (.lone n :: s)) (r : List Char) :
    string (escape (.lone n) ++ (s.flatMap escape ++ '"' :: r)) = .error .syntax := by
  obtain ⟨h1, h2, h3, h4⟩ := h
  simp only [escape, unicodeEscape, List.cons_append, List.nil_append]
  rw [string, hex4_digits (by omega)]
  simp only
  split
  · rfl
  rename_i hlow
  rw [if_pos (by omega)]
  cases s with
  | nil => simp
  | cons x s =>
    cases x with
    | lone m =>
      have h5 := h3 m rfl
      obtain ⟨h6, h7, _⟩ := h4
      simp only [List.flatMap_cons, escape, unicodeEscape, List.cons_append, List.nil_append]
      rw [hex4_digits (by omega)]
      simp only
      rw [if_neg (by omega)]
    | ch c =>
      simp only [List.flatMap_cons, escape]
      by_cases h32 : c.toNat = 8 ∨ c.toNat = 9 ∨ c.toNat = 10 ∨ c.toNat = 12 ∨ c.toNat = 13 ∨ c = '"' ∨ c = '\\'
      · rcases h32 with h | h | h | h | h | h | h <;> simp [h]
      · simp only [not_or] at h32
        obtain ⟨g1, g2, g3, g4, g5, g6, g7⟩ := h32
        rw [if_neg g1, if_neg g2, if_neg g3, if_neg g4, if_neg g5, if_neg g6, if_neg g7]
        by_cases hc : c.toNat < 32
        · rw [if_pos hc]
          simp only [unicodeEscape, List.cons_append, List.nil_append]
          rw [hex4_digits (by omega)]
          simp only
          rw [if_neg (by omega)]
        · rw [if_neg hc]
          simp only [List.cons_append, List.nil_append]
          split
          · rename_i he
            exact absurd (List.cons.inj he).1 g7
          · rfl

theorem string_escape {s : List JsChar} (h : PairedStr s) (r : List Char) :
    Parses (UnicodeStr s) (chars s, r) (string (s.flatMap escape ++ '"' :: r)) := by
  induction s with
  | nil =>
    refine (Parses.ok True.intro _).iff ?_
    simp [UnicodeStr]
  | cons c s ih =>
    cases c with
    | ch c =>
      rw [List.flatMap_cons, List.append_assoc, string_ch]
      refine ((ih h).bind (Q := True) (fun _ => ?_)).iff (by simp [UnicodeStr])
      exact Parses.ok True.intro _
    | lone n =>
      rw [List.flatMap_cons, List.append_assoc, string_lone h]
      exact Parses.error (by simp [UnicodeStr]; exact ⟨n, fun h => absurd rfl h⟩) _

/-! ### Numbers -/

theorem isDigit_iff (c : Char) : isDigit c = true ↔ '0' ≤ c ∧ c ≤ '9' := by
  simp [isDigit]

theorem numeral_digits (n : Nat) : ∀ c ∈ numeral 10 n, isDigit c = true := by
  induction n using Nat.strongRecOn with
  | ind n ih =>
    have hd : ∀ k : Fin 10, isDigit (digit k.val) = true := by decide
    by_cases h : n < 10
    · rw [numeral_lt h]
      intro c hc
      rw [List.mem_singleton] at hc
      subst hc
      exact hd ⟨n, h⟩
    · rw [numeral_ge (by decide) (by omega)]
      intro c hc
      rw [List.mem_append, List.mem_singleton] at hc
      rcases hc with hc | hc
      · exact ih (n / 10) (by omega) c hc
      · subst hc
        exact hd ⟨n % 10, Nat.mod_lt _ (by decide)⟩

theorem numeral_head (n : Nat) : ∃ c r, numeral 10 n = c :: r ∧ (c = '0' → n = 0 ∧ r = []) := by
  induction n using Nat.strongRecOn with
  | ind n ih =>
    by_cases h : n < 10
    · rw [numeral_lt h]
      refine ⟨_, _, rfl, fun hc => ⟨?_, rfl⟩⟩
      have hd : ∀ k : Fin 10, digit k.val = '0' → k.val = 0 := by decide
      exact hd ⟨n, h⟩ hc
    · rw [numeral_ge (by decide) (by omega)]
      obtain ⟨c, r, h1, h2⟩ := ih (n / 10) (by omega)
      rw [h1]
      refine ⟨c, r ++ [digit (n % 10)], rfl, fun hc => ?_⟩
      have := (h2 hc).1
      omega

theorem digitsNumber_numeral (n : Nat) : digitsNumber (numeral 10 n) = n := by
  induction n using Nat.strongRecOn with
  | ind n ih =>
    have hd : ∀ k : Fin 10, digitsNumber [digit k.val] = (k.val : Int) := by decide
    by_cases h : n < 10
    · rw [numeral_lt h]; exact hd ⟨n, h⟩
    · rw [numeral_ge (by decide) (by omega), digitsNumber_append, ih (n / 10) (by omega)]
      rw [hd ⟨n % 10, Nat.mod_lt _ (by decide)⟩]
      simp only [List.length_singleton, Int.pow_one]
      omega

theorem dropWhile_all {p : Char → Bool} {s : List Char} (h : ∀ c ∈ s, p c = true) (r : List Char) :
    (s ++ r).dropWhile p = r.dropWhile p := by
  induction s with
  | nil => rfl
  | cons c s ih =>
    rw [List.cons_append, List.dropWhile_cons_of_pos (h c List.mem_cons_self)]
    exact ih (fun d hd => h d (List.mem_cons_of_mem _ hd))

theorem takeWhile_all {p : Char → Bool} {s : List Char} (h : ∀ c ∈ s, p c = true) (r : List Char) :
    (s ++ r).takeWhile p = s ++ r.takeWhile p := by
  induction s with
  | nil => rfl
  | cons c s ih =>
    rw [List.cons_append, List.takeWhile_cons_of_pos (h c List.mem_cons_self),
      ih (fun d hd => h d (List.mem_cons_of_mem _ hd))]
    rfl

/-- What follows the integer part in `FloatText`. -/
def floatTail (frac : List Char) (sign : Char) (exp : List Char) : List Char :=
  (if frac = [] then [] else '.' :: frac) ++ (if exp = [] then [] else 'e' :: sign :: exp)

theorem digits_all {s : List Char} (h : DecDigits s) : ∀ c ∈ s, isDigit c = true :=
  fun c hc => (isDigit_iff c).mpr (h c hc)

theorem tailOk_exp {exp : List Char} {sign : Char} (h : DecDigits exp) (hs : sign = '+' ∨ sign = '-') :
    tailOk (if exp = [] then [] else 'e' :: sign :: exp) = true := by
  split
  · rfl
  · rename_i hne
    have h2 : exp.all isDigit = true := List.all_eq_true.mpr (digits_all h)
    have h3 : exp.isEmpty = false := by cases exp <;> simp_all
    rcases hs with hs | hs <;> subst hs <;> simp [tailOk, exponentOk, h2, h3]

theorem dropWhile_exp (exp : List Char) (sign : Char) :
    (if exp = [] then [] else 'e' :: sign :: exp).dropWhile isDigit =
      if exp = [] then [] else 'e' :: sign :: exp := by
  split
  · rfl
  · rw [List.dropWhile_cons_of_neg (by decide)]

theorem fractionOk_tail {frac exp : List Char} {sign : Char} (hf : DecDigits frac) (h : DecDigits exp)
    (hs : sign = '+' ∨ sign = '-') : fractionOk (floatTail frac sign exp) = true := by
  unfold floatTail
  by_cases hn : frac = []
  · rw [if_pos hn, List.nil_append]
    have := tailOk_exp h hs
    by_cases he : exp = []
    · rw [if_pos he]; rfl
    · rw [if_neg he] at this ⊢
      rw [fractionOk]
      · exact this
      · intro r hr
        simp at hr
  · rw [if_neg hn, List.cons_append, fractionOk, dropWhile_all (digits_all hf), dropWhile_exp,
      tailOk_exp h hs, Bool.and_true]
    cases frac with
    | nil => exact absurd rfl hn
    | cons c r => simpa using digits_all hf c List.mem_cons_self

theorem dropWhile_floatTail (frac : List Char) (sign : Char) (exp : List Char) :
    (floatTail frac sign exp).dropWhile isDigit = floatTail frac sign exp := by
  unfold floatTail
  by_cases hn : frac = []
  · rw [if_pos hn, List.nil_append, dropWhile_exp]
  · rw [if_neg hn, List.cons_append, List.dropWhile_cons_of_neg (by decide)]

theorem unsignedOk_text {n : Nat} {frac exp : List Char} {sign : Char} (hf : DecDigits frac)
    (h : DecDigits exp) (hs : sign = '+' ∨ sign = '-') :
    unsignedOk (numeral 10 n ++ floatTail frac sign exp) = true := by
  obtain ⟨c, r, h1, h2⟩ := numeral_head n
  have hd := numeral_digits n
  rw [h1] at hd ⊢
  by_cases hc : c = '0'
  · obtain ⟨_, rfl⟩ := h2 hc
    subst hc
    rw [List.cons_append, List.nil_append, unsignedOk]
    exact fractionOk_tail hf h hs
  · rw [List.cons_append, unsignedOk]
    · rw [dropWhile_all (fun d hd' => hd d (List.mem_cons_of_mem _ hd')), dropWhile_floatTail,
        fractionOk_tail hf h hs, hd c List.mem_cons_self]
      rfl
    · intro hc'; exact absurd hc' hc

theorem numChar_digit {c : Char} (h : isDigit c = true) : isNumChar c = true := by
  simp [isNumChar, h]

theorem floatTail_chars {frac exp : List Char} {sign : Char} (hf : DecDigits frac) (h : DecDigits exp)
    (hs : sign = '+' ∨ sign = '-') : ∀ c ∈ floatTail frac sign exp, isNumChar c = true := by
  intro c hc
  unfold floatTail at hc
  rw [List.mem_append] at hc
  rcases hc with hc | hc
  · split at hc
    · cases hc
    · rcases List.mem_cons.mp hc with hc | hc
      · subst hc; decide
      · exact numChar_digit (digits_all hf c hc)
  · split at hc
    · cases hc
    · rcases List.mem_cons.mp hc with hc | hc
      · subst hc; decide
      · rcases List.mem_cons.mp hc with hc | hc
        · subst hc; rcases hs with hs | hs <;> subst hs <;> decide
        · exact numChar_digit (digits_all h c hc)

theorem numberOk_unsigned {c : Char} (h : isDigit c = true) (r : List Char) :
    numberOk (c :: r) = unsignedOk (c :: r) := by
  rw [numberOk]
  intro _ hc
  injection hc with hc _
  subst hc
  simp [isDigit] at h

theorem digit_ne_minus {c : Char} (h : isDigit c = true) : c ≠ '-' := by
  intro hc; subst hc; simp [isDigit] at h

/-- The text of an integer is read as it. -/
theorem readNumber_int {n : Int} (h1 : -(2 ^ 63) ≤ n) (h2 : n < 2 ^ 64) :
    readNumber (intNumeral 10 n) = .ok (.int n) := by
  have hu := unsignedOk_text (n := n.natAbs) (frac := []) (exp := []) (sign := '+')
    (by intro c hc; cases hc) (by intro c hc; cases hc) (Or.inl rfl)
  rw [show floatTail [] '+' [] = [] from rfl, List.append_nil] at hu
  have hd := numeral_digits n.natAbs
  have hv := digitsNumber_numeral n.natAbs
  have ha : (numeral 10 n.natAbs).all isDigit = true := List.all_eq_true.mpr hd
  unfold intNumeral
  split
  · unfold readNumber
    simp only [numberOk, hu, ha, hv]
    simp only [Bool.not_true, Bool.false_eq_true, if_false, Bool.true_and]
    rw [if_pos (by simp; omega)]
    congr 2
    omega
  · obtain ⟨c, r, e, _⟩ := numeral_head n.natAbs
    rw [e] at hu hd hv ha ⊢
    have hc := hd c List.mem_cons_self
    unfold readNumber
    rw [numberOk_unsigned hc, hu]
    simp only [Bool.not_true, Bool.false_eq_true, if_false]
    split
    · rename_i h; exact absurd (List.cons.inj h).1 (digit_ne_minus hc)
    · rw [hv, ha, if_pos (by simp; omega)]
      congr 2
      omega

theorem floatTail_nil {frac exp : List Char} {sign : Char}
    (h : (floatTail frac sign exp).all isDigit = true) : frac = [] ∧ exp = [] := by
  rw [List.all_eq_true] at h
  unfold floatTail at h
  constructor
  · apply Classical.byContradiction
    intro hn
    have := h '.' (by simp [hn])
    simp [isDigit] at this
  · apply Classical.byContradiction
    intro hn
    have := h 'e' (by simp [hn])
    simp [isDigit] at this

/-- The text of another number is read as a float. -/
theorem readNumber_float {s : List Char} (h : FloatText s) : readNumber s = .ok (.float s) := by
  obtain ⟨neg, n, frac, sign, exp, rfl, hf, he, hs, hx⟩ := h
  change readNumber (_ ++ (numeral 10 n ++ floatTail frac sign exp)) = .ok (.float (_ ++ (numeral 10 n ++
    floatTail frac sign exp)))
  have hu := unsignedOk_text (n := n) hf he hs
  have hbig : (numeral 10 n ++ floatTail frac sign exp).all isDigit = true →
      digitsNumber (numeral 10 n ++ floatTail frac sign exp) = n ∧ (2 ^ 64 ≤ n ∨ (neg = true ∧ 2 ^ 63 < n)) := by
    intro ha
    rw [List.all_append, Bool.and_eq_true] at ha
    obtain ⟨rfl, rfl⟩ := floatTail_nil ha.2
    rw [show floatTail [] sign [] = [] from rfl, List.append_nil]
    refine ⟨digitsNumber_numeral n, ?_⟩
    simpa using hx
  obtain ⟨c, r, e, _⟩ := numeral_head n
  have hc := numeral_digits n c (by rw [e]; exact List.mem_cons_self)
  rw [e] at hu hbig ⊢
  cases neg with
  | true =>
    simp only [if_true, List.cons_append, List.nil_append] at hu hbig ⊢
    unfold readNumber
    simp only [numberOk, hu, Bool.not_true, Bool.false_eq_true, if_false]
    rw [if_neg]
    intro hh
    simp only [Bool.and_eq_true, decide_eq_true_eq] at hh
    obtain ⟨k1, k2⟩ := hbig hh.1.1
    omega
  | false =>
    simp only [Bool.false_eq_true, if_false, List.cons_append, List.nil_append] at hu hbig ⊢
    unfold readNumber
    rw [numberOk_unsigned hc, hu]
    simp only [Bool.not_true, Bool.false_eq_true, if_false]
    split
    · rename_i h; exact absurd (List.cons.inj h).1 (digit_ne_minus hc)
    · rw [if_neg]
      intro hh
      simp only [Bool.and_eq_true, decide_eq_true_eq] at hh
      obtain ⟨k1, k2⟩ := hbig hh.1
      simp only [false_and, or_false] at k2
      omega

theorem numText_ok {text : Rat → List Char} {num : Rat → JsonNum} (h : NumberText text num) (q : Rat) :
    readNumber (text q) = .ok (num q) ∧ (∀ c ∈ text q, isNumChar c = true) ∧
    ∃ c r, text q = c :: r ∧ (c = '-' ∨ isDigit c = true) := by
  have hsign : ∀ (b : Bool) (n : Nat) (t : List Char), ∃ c r,
      (if b then ['-'] else []) ++ (numeral 10 n ++ t) = c :: r ∧ (c = '-' ∨ isDigit c = true) := by
    intro b n t
    cases b with
    | true => exact ⟨_, _, rfl, Or.inl rfl⟩
    | false =>
      obtain ⟨c, r, e, _⟩ := numeral_head n
      have hc := numeral_digits n c (by rw [e]; exact List.mem_cons_self)
      rw [e]
      exact ⟨_, _, rfl, Or.inr hc⟩
  rcases h.2 q with ⟨n, h1, h2, h3, h4⟩ | ⟨h1, h2⟩
  · rw [h3, h4]
    have e : intNumeral 10 n = (if decide (n < 0) then ['-'] else []) ++ (numeral 10 n.natAbs ++ []) := by
      unfold intNumeral
      by_cases hn : n < 0 <;> simp [hn]
    refine ⟨readNumber_int h1 h2, ?_, by rw [e]; exact hsign _ _ _⟩
    intro c hc
    unfold intNumeral at hc
    split at hc
    · rcases List.mem_cons.mp hc with hc | hc
      · subst hc; decide
      · exact numChar_digit (numeral_digits _ c hc)
    · exact numChar_digit (numeral_digits _ c hc)
  · rw [readNumber_float h1, h2]
    refine ⟨rfl, ?_, ?_⟩
    · obtain ⟨neg, n, frac, sign, exp, e, hf, he, hs, hx⟩ := h1
      rw [e]
      intro c hc
      rcases List.mem_append.mp hc with hc | hc
      · cases neg with
        | true => simp at hc; subst hc; decide
        | false => simp at hc
      · rcases List.mem_append.mp hc with hc | hc
        · exact numChar_digit (numeral_digits _ c hc)
        · exact floatTail_chars hf he hs c hc
    · obtain ⟨neg, n, frac, sign, exp, e, _⟩ := h1
      rw [e]
      exact hsign _ _ _

end Verif
