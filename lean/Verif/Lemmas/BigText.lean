import Verif.Model.BigText
import Verif.Spec.BigText
import Verif.Lemmas.BigRead
import Verif.Lemmas.Rounding
/-! Lemmas on reading big integers from decimal texts. -/
namespace Verif.BigJs
open Spec

/-! ### Rounding -/

theorem maxInt_rat : (MAX_INT : Rat) = ((2 ^ 53 : Int) : Rat) := rfl

/-- Integers below `2^53` are not changed. -/
theorem toDouble_small {fl : Rat → Rat} (hfl : Rounding fl) {n : Int} (h : n.natAbs < 2 ^ 53) :
    toDouble fl n = n := by
  have hlarge : ((2 ^ 53 : Int) : Rat) ≤ 2 ^ 1023 := by decide +kernel
  have b1 : ((-(2 ^ 53) : Int) : Rat) ≤ n := cast_le (by omega)
  have b2 : (n : Rat) ≤ ((2 ^ 53 : Int) : Rat) := cast_le (by omega)
  rw [Rat.intCast_neg] at b1
  rw [toDouble, if_neg (by grind), fl_exact hfl (by omega)]

theorem isDouble_maxInt : IsDouble ((2 ^ 53 : Int) : Rat) := by
  have := isDouble_mul (m := 1) (e := 53) (by decide) (by decide)
  rwa [show ((1 : Int) : Rat) * 2 ^ 53 = ((2 ^ 53 : Int) : Rat) by decide +kernel] at this

/-- Numbers from `2^53` on stay so. -/
theorem toDouble_large {fl : Rat → Rat} (hfl : Rounding fl) {x : Rat} (h : ((2 ^ 53 : Int) : Rat) ≤ x) :
    ((2 ^ 53 : Int) : Rat) ≤ toDouble fl x := by
  rw [toDouble]
  split
  · exact h
  · rename_i hx
    have h0 : ((0 : Int) : Rat) ≤ ((2 ^ 53 : Int) : Rat) := by decide +kernel
    have hp : (0 : Rat) < 2 ^ 1023 := by decide +kernel
    have := (hfl x (by grind) (by grind)).2 _ isDouble_maxInt
    unfold ratDist at this
    split at this <;> (first | (split at this <;> grind) | grind)

theorem toDouble_large_neg {fl : Rat → Rat} (hfl : Rounding fl) {x : Rat} (h : x ≤ -((2 ^ 53 : Int) : Rat)) :
    toDouble fl x ≤ -((2 ^ 53 : Int) : Rat) := by
  have := toDouble_large (Rounding.opposite hfl) (x := -x) (by grind)
  have he : toDouble (fun x => -fl (-x)) (-x) = -toDouble fl x := by
    unfold toDouble
    split <;> split <;> grind
  rw [he] at this
  grind

theorem isPreciseRat_int (n : Int) : isPreciseRat n = decide (n.natAbs < 2 ^ 53) := by
  rw [isPreciseRat, maxInt_rat, ← Bool.decide_and]
  congr 1
  apply propext
  rw [← Rat.intCast_neg, Rat.intCast_lt_intCast, Rat.intCast_lt_intCast]
  omega

theorem toDouble_int {fl : Rat → Rat} (hfl : Rounding fl) (n : Int) :
    isPreciseRat (toDouble fl n) = decide (n.natAbs < 2 ^ 53) := by
  by_cases h : n.natAbs < 2 ^ 53
  · rw [toDouble_small hfl h, isPreciseRat_int]
  · rw [decide_eq_false h, isPreciseRat, maxInt_rat]
    by_cases hn : 0 ≤ n
    · have := toDouble_large hfl (x := (n : Rat)) (cast_le (by omega))
      have hf : ¬ toDouble fl n < ((2 ^ 53 : Int) : Rat) := by grind
      rw [decide_eq_false hf, Bool.and_false]
    · have := toDouble_large_neg hfl (x := (n : Rat)) (by rw [← Rat.intCast_neg]; exact cast_le (by omega))
      have hf : ¬ -((2 ^ 53 : Int) : Rat) < toDouble fl n := by grind
      rw [decide_eq_false hf, Bool.false_and]

/-! ### The number of a literal -/

theorem digit_decimal {d : Nat} (h : d < 10) : digitValue (digit d) = some d ∧ isDecimal (digit d) = true ∧
    isSpace (digit d) = false ∧ digit d ≠ '-' ∧ digit d ≠ '+' ∧ digit d ≠ '.' ∧ digit d ≠ 'e' ∧ digit d ≠ 'E' ∧
    digit d ∉ ['x', 'X', 'o', 'O', 'b', 'B'] := by
  have : ∀ d : Fin 10, digitValue (digit d.val) = some d.val ∧ isDecimal (digit d.val) = true ∧
    isSpace (digit d.val) = false ∧ digit d.val ≠ '-' ∧ digit d.val ≠ '+' ∧ digit d.val ≠ '.' ∧ digit d.val ≠ 'e' ∧
    digit d.val ≠ 'E' ∧ digit d.val ∉ ['x', 'X', 'o', 'O', 'b', 'B'] := by decide +kernel
  exact this ⟨d, h⟩

theorem leading_app {ds : List Nat} (hd : ∀ d ∈ ds, d < 10) {rest : List Char}
    (hr : ∀ c ∈ rest.head?, ∀ d, digitValue c = some d → 10 ≤ d) : leadingDigits 10 (ds.map digit ++ rest) = ds := by
  induction ds with
  | nil =>
    cases rest with
    | nil => rfl
    | cons c rest =>
      rw [List.map_nil, List.nil_append, leadingDigits]
      cases h : digitValue c with
      | none => rfl
      | some d =>
        have := hr c rfl d h
        simp only
        rw [if_neg (by omega)]
  | cons d ds ih =>
    have h := (digit_decimal (hd d (by simp))).1
    rw [List.map_cons, List.cons_append, leadingDigits, h]
    simp only
    rw [if_pos (hd d (by simp)), ih (fun d hd' => hd d (by simp [hd']))]

theorem natLiteral_digits {ds : List Nat} (hd : ∀ d ∈ ds, d < 10) (hne : ds ≠ []) :
    natLiteral 10 (ds.map digit) = some (positional 10 ds) := by
  have := leading_app hd (rest := []) (by simp)
  rw [List.append_nil] at this
  rw [natLiteral, this]
  simp only [hne, List.length_map, ne_eq, not_true_eq_false, or_self, if_false]
  rw [foldl_positional, Nat.zero_mul, Nat.zero_add]

/-- What may follow a sign. -/
def NoSign (s : List Char) : Prop := ∀ c ∈ s.head?, c ≠ '-' ∧ c ≠ '+'

theorem takeSign_eq (g : Sign) {s : List Char} (h : NoSign s) :
    takeSign (g.text ++ s) = (decide (g = .minus), s) := by
  cases g with
  | none =>
    cases s with
    | nil => rfl
    | cons c s =>
      obtain ⟨h1, h2⟩ := h c rfl
      show takeSign (c :: s) = _
      unfold takeSign
      split
      · rename_i h; cases h; exact absurd rfl h1
      · rename_i h; cases h; exact absurd rfl h2
      · rfl
  | plus => rfl
  | minus => rfl

theorem noSign_digits {ds : List Nat} (hd : ∀ d ∈ ds, d < 10) : NoSign (ds.map digit) := by
  cases ds with
  | nil => intro c hc; simp at hc
  | cons d ds =>
    intro c hc
    simp only [List.map_cons, List.head?_cons, Option.mem_def, Option.some.injEq] at hc
    subst hc
    have := digit_decimal (hd d (by simp))
    exact ⟨this.2.2.2.1, this.2.2.2.2.1⟩

theorem exponentPart_eq (e : Exponent) (hd : ∀ d ∈ e.digits, d < 10) (hne : e.digits ≠ []) :
    exponentPart e.text = some e.number := by
  rw [Exponent.text, exponentPart, if_pos (by cases e.capital <;> simp)]
  rw [takeSign_eq _ (noSign_digits hd)]
  simp only
  rw [natLiteral_digits hd hne, Exponent.number]
  simp

/-- The digits and the point. -/
def mantissa (l : Literal) : List Char :=
  l.whole.map digit ++ (if l.point then '.' :: l.frac.map digit else [])

/-- The exponent, if any. -/
def expText (l : Literal) : List Char :=
  match l.exp with
  | some e => e.text
  | none => []

theorem text_eq (l : Literal) : l.text = l.sign.text ++ (mantissa l ++ expText l) := by
  rw [Literal.text, mantissa, expText, List.append_assoc]
  rfl

theorem expText_head (l : Literal) : ∀ c ∈ (expText l).head?, c = 'e' ∨ c = 'E' := by
  intro c hc
  rw [expText] at hc
  cases he : l.exp with
  | none => rw [he] at hc; simp at hc
  | some e =>
    rw [he] at hc
    simp only [Exponent.text, List.head?_cons, Option.mem_def, Option.some.injEq] at hc
    cases hcap : e.capital <;> rw [hcap] at hc <;> simp at hc <;> simp [← hc]

theorem exponentPart_expText (l : Literal) (hv : l.Valid) : exponentPart (expText l) = some l.power := by
  rw [expText, Literal.power]
  cases he : l.exp with
  | none => rfl
  | some e =>
    obtain ⟨h1, h2⟩ := hv.2.2.2.2 e he
    exact exponentPart_eq e h1 h2

theorem scale_eq (n : Nat) (e : Int) : scale n e = n * (10 : Rat) ^ e := by
  rw [scale]
  split
  · rename_i h
    have : e = -(e.natAbs : Int) := by omega
    conv => rhs; rw [this]
    rw [Rat.zpow_neg, Rat.zpow_natCast, Rat.div_def]
  · rename_i h
    have : e = (e.natAbs : Int) := by omega
    conv => rhs; rw [this]
    rw [Rat.zpow_natCast]

theorem unsignedDecimal_eq (l : Literal) (hv : l.Valid) : unsignedDecimal (mantissa l ++ expText l) =
    some ((positional 10 (l.whole ++ l.frac) : Nat) * (10 : Rat) ^ (l.power - l.frac.length)) := by
  obtain ⟨h1, h2, h3, h4, h5⟩ := hv
  have he : ∀ c ∈ (expText l).head?, ∀ d, digitValue c = some d → 10 ≤ d := by
    intro c hc d hd
    have e1 : digitValue 'e' = some 14 := by decide
    have e2 : digitValue 'E' = some 14 := by decide
    rcases expText_head l c hc with rfl | rfl
    · rw [e1] at hd; cases hd; decide
    · rw [e2] at hd; cases hd; decide
  rw [unsignedDecimal, ← scale_eq]
  by_cases hp : l.point = true
  · have hm : mantissa l ++ expText l = l.whole.map digit ++ ('.' :: (l.frac.map digit ++ expText l)) := by
      rw [mantissa, if_pos hp, List.append_assoc]; rfl
    have hw : leadingDigits 10 (mantissa l ++ expText l) = l.whole := by
      rw [hm]
      exact leading_app h1 (by
        intro c hc d hd
        simp at hc
        subst hc
        have : digitValue '.' = none := by decide
        rw [this] at hd; cases hd)
    have hdrop : (mantissa l ++ expText l).drop l.whole.length = '.' :: (l.frac.map digit ++ expText l) := by
      rw [hm, List.drop_left' (by simp)]
    have hf : leadingDigits 10 (l.frac.map digit ++ expText l) = l.frac := leading_app h2 he
    have hdrop2 : (l.frac.map digit ++ expText l).drop l.frac.length = expText l := List.drop_left' (by simp)
    simp only [hw, hdrop, hf, hdrop2]
    rw [if_neg h4, exponentPart_expText l ⟨h1, h2, h3, h4, h5⟩]
    simp only [Option.map_some]
    rw [foldl_positional, Nat.zero_mul, Nat.zero_add]
  · have hp : l.point = false := by simpa using hp
    have hfr := h3 hp
    have hm : mantissa l ++ expText l = l.whole.map digit ++ expText l := by
      rw [mantissa, hp]; simp
    have hw : leadingDigits 10 (mantissa l ++ expText l) = l.whole := by
      rw [hm]
      exact leading_app h1 he
    have hdrop : (mantissa l ++ expText l).drop l.whole.length = expText l := by
      rw [hm, List.drop_left' (by simp)]
    have hnp : ∀ r, expText l ≠ '.' :: r := by
      intro r hr
      have := expText_head l '.' (by rw [hr]; rfl)
      revert this
      decide
    simp only [hw, hdrop]
    have hl0 : leadingDigits 10 [] = [] := rfl
    have hfin : (if l.whole = [] ∧ leadingDigits 10 [] = [] then none
        else (exponentPart (expText l)).map fun e =>
          scale ((l.whole ++ leadingDigits 10 []).foldl (fun n d => 10 * n + d) 0) (e - (leadingDigits 10 []).length)) =
        some (scale (positional 10 (l.whole ++ l.frac)) (l.power - l.frac.length)) := by
      rw [hl0, if_neg (by rw [hfr] at h4; exact h4), exponentPart_expText l ⟨h1, h2, h3, h4, h5⟩]
      simp only [Option.map_some, hfr, List.append_nil]
      rw [foldl_positional, Nat.zero_mul, Nat.zero_add]
    exact hfin

/-- The characters of literals. -/
def Plainly (c : Char) : Prop := isSpace c = false ∧ c ∉ ['x', 'X', 'o', 'O', 'b', 'B']

instance (c : Char) : Decidable (Plainly c) := by unfold Plainly; infer_instance

theorem plainly_digits {ds : List Nat} (hd : ∀ d ∈ ds, d < 10) : ∀ c ∈ ds.map digit, Plainly c := by
  intro c hc
  obtain ⟨d, h1, rfl⟩ := List.mem_map.mp hc
  have := digit_decimal (hd d h1)
  exact ⟨this.2.2.1, this.2.2.2.2.2.2.2.2⟩

theorem plainly_sign (g : Sign) : ∀ c ∈ g.text, Plainly c := by
  cases g <;> decide

theorem plainly_text (l : Literal) (hv : l.Valid) : ∀ c ∈ l.text, Plainly c := by
  obtain ⟨h1, h2, h3, h4, h5⟩ := hv
  intro c hc
  rw [text_eq, mantissa, expText] at hc
  simp only [List.mem_append] at hc
  rcases hc with hc | (hc | hc) | hc
  · exact plainly_sign _ c hc
  · exact plainly_digits h1 c hc
  · split at hc
    · rcases List.mem_cons.mp hc with rfl | hc
      · decide
      · exact plainly_digits h2 c hc
    · simp at hc
  · cases he : l.exp with
    | none => rw [he] at hc; simp at hc
    | some e =>
      rw [he] at hc
      simp only [Exponent.text, List.mem_cons, List.mem_append] at hc
      rcases hc with rfl | hc | hc
      · cases e.capital <;> decide
      · exact plainly_sign _ c hc
      · exact plainly_digits (h5 e he).1 c hc

theorem dropWhile_none {s : List Char} (h : ∀ c ∈ s, isSpace c = false) : s.dropWhile isSpace = s := by
  cases s with
  | nil => rfl
  | cons c s => rw [List.dropWhile_cons_of_neg (by simp [h c (by simp)])]

theorem trimSpace_none {s : List Char} (h : ∀ c ∈ s, isSpace c = false) : trimSpace s = s := by
  rw [trimSpace, dropWhile_none h, dropWhile_none (by simpa using h), List.reverse_reverse]

theorem stringToNumber_plain (fl : Rat → Rat) (g : Sign) {u : List Char} (hne : u ≠ []) (hs : NoSign u)
    (hp : ∀ c ∈ g.text ++ u, Plainly c) : stringToNumber fl (g.text ++ u) =
      (unsignedDecimal u).map fun x => toDouble fl (g.apply x) := by
  rw [stringToNumber]
  rw [trimSpace_none (fun c hc => (hp c hc).1)]
  have hsigned : ((unsignedDecimal (takeSign (g.text ++ u)).2).map fun x =>
      toDouble fl (if (takeSign (g.text ++ u)).1 then -x else x)) =
      (unsignedDecimal u).map fun x => toDouble fl (g.apply x) := by
    rw [takeSign_eq g hs]
    simp only [decide_eq_true_eq, Sign.apply]
  simp only
  split
  · rename_i h
    exact absurd (List.append_eq_nil_iff.mp h).2 hne
  · rename_i c ds h
    have := (hp c (by rw [h]; simp)).2
    simp only [List.mem_cons, List.not_mem_nil, or_false, not_or] at this
    obtain ⟨a1, a2, a3, a4, a5, a6⟩ := this
    rw [if_neg (by simp [a1, a2]), if_neg (by simp [a3, a4]), if_neg (by simp [a5, a6])]
    exact hsigned
  · exact hsigned

theorem mantissa_ne (l : Literal) (hv : l.Valid) : mantissa l ≠ [] := by
  obtain ⟨h1, h2, h3, h4, h5⟩ := hv
  intro h
  rw [mantissa] at h
  obtain ⟨a, b⟩ := List.append_eq_nil_iff.mp h
  have hw : l.whole = [] := by simpa using a
  split at b
  · cases b
  · rename_i hp
    exact h4 ⟨hw, h3 (by simpa using hp)⟩

theorem noSign_mantissa (l : Literal) (hv : l.Valid) (s : List Char) : NoSign (mantissa l ++ s) := by
  intro c hc
  cases hw : l.whole with
  | nil =>
    have hp : l.point = true := by
      by_cases hp : l.point = true
      · exact hp
      · exact absurd ⟨hw, hv.2.2.1 (by simpa using hp)⟩ hv.2.2.2.1
    rw [mantissa, hw, hp] at hc
    simp at hc
    subst hc
    decide
  | cons d ds =>
    rw [mantissa, hw] at hc
    simp at hc
    subst hc
    have := digit_decimal (hv.1 d (by rw [hw]; simp))
    exact ⟨this.2.2.2.1, this.2.2.2.2.1⟩

/-- Converting a literal to a number gives the double nearest to its value. -/
theorem stringToNumber_literal (fl : Rat → Rat) (l : Literal) (hv : l.Valid) :
    stringToNumber fl l.text = some (toDouble fl l.value) := by
  rw [text_eq, stringToNumber_plain fl _ _ (noSign_mantissa l hv _) (by rw [← text_eq]; exact plainly_text l hv),
    unsignedDecimal_eq l hv]
  · rfl
  · intro h
    exact mantissa_ne l hv (List.append_eq_nil_iff.mp h).1

/-! ### Long texts -/

theorem digitsAre_map {ds : List Nat} (hd : ∀ d ∈ ds, d < 10) : DigitsAre 10 (ds.map digit) ds := by
  induction ds with
  | nil => exact .nil
  | cons d ds ih =>
    exact .cons (digit_decimal (hd d (by simp))).1 (hd d (by simp)) (ih fun d hd' => hd d (by simp [hd']))

theorem parseDigits_digits {ds : List Nat} (hd : ∀ d ∈ ds, d < 10) (hbig : 2 ^ 53 ≤ positional 10 ds)
    (sign : Bool) : ∃ b, parseDigits (ds.map digit) sign = .ok b ∧ b.Ok ∧
      b.toInt = if sign then -(positional 10 ds : Int) else positional 10 ds := by
  obtain ⟨h1, h2⟩ := digitsNumber_positional (digitsAre_map hd)
  have hM : (MAX_INT : Int) = 9007199254740992 := rfl
  have hb := digitsNumber_bounds h1
  have hlen : ¬ (ds.map digit).length < 7 := by
    intro h
    have hle : (10 : Int) ^ (ds.map digit).length ≤ 10 ^ 7 := pow10_mono (by omega)
    have h10 : (10 : Int) ^ 7 = 10000000 := rfl
    omega
  have hne : (ds.map digit).isEmpty = false := by
    cases ds with
    | nil => simp at hlen
    | cons d ds => rfl
  have hall : (ds.map digit).all isDecimal = true := by
    rw [List.all_eq_true]
    intro c hc
    obtain ⟨d, h3, rfl⟩ := List.mem_map.mp hc
    exact (digit_decimal (hd d h3)).2.1
  obtain ⟨r, k1, k2, k3⟩ := pieces_eq h1 (ds.map digit).length (ds.map digit).length (Nat.le_refl _) (Nat.le_refl _)
  rw [if_neg hlen] at k1
  rw [List.take_length] at k3
  refine ⟨.big (trim r) sign, ?_, ⟨digits_trim k2, trimmed_trim r, by rw [val_trim, k3]; omega⟩, ?_⟩
  · rw [parseDigits, hne, hall]
    have : (((ds.map digit).length : Int) - (LOG_BASE : Nat)) = ((ds.map digit).length : Int) - 7 := rfl
    simp only [Bool.not_true, Bool.or_false, Bool.false_eq_true, if_false]
    rw [this, k1]
    rfl
  · simp only [Big.toInt, val_trim, k3, h2]

theorem parseDigits_bad {v : List Char} {c : Char} (hc : c ∈ v) (h : isDecimal c = false) (sign : Bool) :
    parseDigits v sign = .error (.expect "Invalid integer") := by
  have : v.all isDecimal = false := by
    rw [List.all_eq_false]
    exact ⟨c, hc, by simp [h]⟩
  rw [parseDigits, this]
  simp

/-- No exponent begins in a text. -/
def NoE (s : List Char) : Prop := ∀ c ∈ s, c ≠ 'e' ∧ c ≠ 'E'

theorem splitE_none {s : List Char} (h : NoE s) : splitE s = [s] := by
  induction s with
  | nil => rfl
  | cons c s ih =>
    have hc := h c (by simp)
    rw [splitE, if_neg (by simp [hc.1, hc.2]), ih (fun c hc => h c (by simp [hc]))]

theorem splitE_at {s t : List Char} (h : NoE s) {c : Char} (hc : c = 'e' ∨ c = 'E') :
    splitE (s ++ c :: t) = s :: splitE t := by
  induction s with
  | nil => rw [List.nil_append, splitE, if_pos hc]
  | cons d s ih =>
    have hd := h d (by simp)
    rw [List.cons_append, splitE, if_neg (by simp [hd.1, hd.2]), ih (fun c hc => h c (by simp [hc]))]

theorem noE_digits {ds : List Nat} (hd : ∀ d ∈ ds, d < 10) : NoE (ds.map digit) := by
  intro c hc
  obtain ⟨d, h1, rfl⟩ := List.mem_map.mp hc
  have := digit_decimal (hd d h1)
  exact ⟨this.2.2.2.2.2.2.1, this.2.2.2.2.2.2.2.1⟩

theorem noE_sign (g : Sign) : NoE g.text := by
  cases g <;> simp [NoE, Sign.text]

theorem noE_append {s t : List Char} (h1 : NoE s) (h2 : NoE t) : NoE (s ++ t) := by
  intro c hc
  rcases List.mem_append.mp hc with hc | hc
  · exact h1 c hc
  · exact h2 c hc

theorem noE_mantissa (l : Literal) (hv : l.Valid) : NoE (mantissa l) := by
  rw [mantissa]
  refine noE_append (noE_digits hv.1) ?_
  split
  · intro c hc
    rcases List.mem_cons.mp hc with rfl | hc
    · decide
    · exact noE_digits hv.2.1 c hc
  · simp [NoE]

theorem noPoint_digits {ds : List Nat} (hd : ∀ d ∈ ds, d < 10) : '.' ∉ ds.map digit := by
  intro hc
  obtain ⟨d, h1, h2⟩ := List.mem_map.mp hc
  exact (digit_decimal (hd d h1)).2.2.2.2.2.1 h2

theorem idxOf_point {s : List Char} (h : '.' ∉ s) (t : List Char) : (s ++ '.' :: t).idxOf? '.' = some s.length := by
  induction s with
  | nil => simp [List.idxOf?_cons]
  | cons c s ih =>
    have hc : c ≠ '.' := fun hc => h (by simp [hc])
    rw [List.cons_append, List.idxOf?_cons, ih (fun hs => h (by simp [hs]))]
    simp [hc]

/-- The number of an exponent, after its plus sign has been removed. -/
theorem exponent_number (fl : Rat → Rat) (e : Exponent) (hd : ∀ d ∈ e.digits, d < 10) (hne : e.digits ≠ []) :
    stringToNumber fl (dropPlus (e.sign.text ++ e.digits.map digit)) = some (toDouble fl (e.number : Rat)) := by
  have hgen : ∀ g : Sign, stringToNumber fl (g.text ++ e.digits.map digit) =
      some (toDouble fl (g.apply ((positional 10 e.digits : Nat) : Rat))) := by
    intro g
    have hv : (⟨.none, e.digits, false, [], none⟩ : Literal).Valid := by
      refine ⟨hd, by simp, by simp, by simpa using hne, by simp⟩
    have hm : mantissa ⟨.none, e.digits, false, [], none⟩ ++ expText ⟨.none, e.digits, false, [], none⟩ =
        e.digits.map digit := by simp [mantissa, expText]
    have hu := unsignedDecimal_eq _ hv
    rw [hm] at hu
    rw [stringToNumber_plain fl g (by simpa using hne) (noSign_digits hd) (by
      intro c hc
      rcases List.mem_append.mp hc with hc | hc
      · exact plainly_sign g c hc
      · exact plainly_digits hd c hc), hu]
    simp [Literal.power]
  have hnp : (e.digits.map digit).head? ≠ some '+' := by
    intro h
    exact (noSign_digits hd '+' h).2 rfl
  cases hs : e.sign with
  | none =>
    have := hgen .none
    simp only [Sign.text, List.nil_append] at this ⊢
    rw [dropPlus, if_neg hnp, this, Exponent.number, hs]
    simp [Sign.apply, Rat.intCast_natCast]
  | plus =>
    have := hgen .none
    simp only [Sign.text, List.nil_append] at this ⊢
    rw [dropPlus, if_pos (by simp)]
    simp only [List.singleton_append, List.drop_succ_cons, List.drop_zero]
    rw [this, Exponent.number, hs]
    simp [Sign.apply, Rat.intCast_natCast]
  | minus =>
    have := hgen .minus
    simp only [Sign.text] at this ⊢
    rw [dropPlus, if_neg (by simp), this, Exponent.number, hs]
    simp [Sign.apply, Rat.intCast_neg, Rat.intCast_natCast]

/-- The literals that are read although they are no doubles below `2^53`. -/
def Literal.Plain (l : Literal) : Prop :=
  l.sign ≠ .plus ∧ match l.exp with
    | none => l.point = false
    | some e => (l.frac.length : Int) ≤ e.number ∧ e.number < 2 ^ 53 ∧ e.number - l.frac.length + 1 < 2 ^ 32

instance (l : Literal) : Decidable (Literal.Plain l) := by unfold Literal.Plain; split <;> infer_instance

/-- Removing the point. -/
theorem strip_point (l : Literal) (hv : l.Valid) {p : List Char} (hp : '.' ∉ p) (n : Int) :
    removePoint (p ++ mantissa l) n = (p ++ (l.whole ++ l.frac).map digit, n - l.frac.length) := by
  have hw : '.' ∉ p ++ l.whole.map digit := by
    intro h
    rcases List.mem_append.mp h with h | h
    · exact hp h
    · exact noPoint_digits hv.1 h
  by_cases hpt : l.point = true
  · have hm : p ++ mantissa l = (p ++ l.whole.map digit) ++ '.' :: l.frac.map digit := by
      rw [mantissa, if_pos hpt, List.append_assoc]
    rw [hm, removePoint, idxOf_point hw]
    simp only [List.length_append, List.length_cons, List.length_map, List.map_append]
    congr 1
    · rw [List.take_left' (by simp), ← List.append_assoc]
      congr 1
      rw [show p.length + l.whole.length + 1 = (p ++ l.whole.map digit).length + 1 by simp, List.drop_append]
      simp
    · omega
  · have hf : l.frac = [] := hv.2.2.1 (by simpa using hpt)
    have hm : p ++ mantissa l = p ++ l.whole.map digit := by
      rw [mantissa, if_neg hpt, List.append_nil]
    rw [hm, removePoint, List.idxOf?_eq_none_iff.mpr hw]
    simp [hf]

theorem positional_append (base : Nat) (a b : List Nat) :
    positional base (a ++ b) = positional base a * base ^ b.length + positional base b := by
  have h1 := foldl_positional base (a ++ b) 0
  rw [List.foldl_append, foldl_positional, foldl_positional, Nat.zero_mul, Nat.zero_add, Nat.zero_mul, Nat.zero_add] at h1
  exact h1.symm

theorem positional_zeros (base k : Nat) : positional base (List.replicate k 0) = 0 := by
  induction k with
  | zero => rfl
  | succ k ih => rw [List.replicate_succ, positional, ih, Nat.zero_mul]

/-- The value of a literal with a power of ten that is not negative. -/
theorem value_nat (l : Literal) {k : Nat} (h : l.power - l.frac.length = k) :
    l.value = ((if l.sign = .minus then -((positional 10 (l.whole ++ l.frac) * 10 ^ k : Nat) : Int)
      else ((positional 10 (l.whole ++ l.frac) * 10 ^ k : Nat) : Int)) : Int) := by
  have h10 : ((10 ^ k : Nat) : Rat) = (10 : Rat) ^ k := Rat.natCast_pow 10 k
  rw [Literal.value, h, Rat.zpow_natCast, Sign.apply, ← h10, ← Rat.natCast_mul]
  split
  · rw [Rat.intCast_neg, Rat.intCast_natCast]
  · rw [Rat.intCast_natCast]

/-- What reading gives for a literal that is not precise as a number. -/
def LongResult (r : R Big) (l : Literal) : Prop :=
  if Literal.Plain l then ∃ b, r = .ok b ∧ b.Ok ∧ ((b.toInt : Int) : Rat) = l.value else ∃ msg, r = .error (.expect msg)

theorem isPlus (l : Literal) (h : l.sign ≠ .minus) : l.sign.text = if l.sign = .plus then ['+'] else [] := by
  cases hs : l.sign <;> simp_all [Sign.text]

/-- Digits and zeros that are read. -/
theorem long_digits {fl : Rat → Rat} (hfl : Rounding fl) (l : Literal) (hv : l.Valid)
    (hbig : isPreciseRat (toDouble fl l.value) = false) {k : Nat} (hk : l.power - l.frac.length = k) :
    ∃ b, parseDigits ((l.whole ++ l.frac).map digit ++ List.replicate k '0') (decide (l.sign = .minus)) = .ok b ∧
      b.Ok ∧ ((b.toInt : Int) : Rat) = l.value := by
  have hval := value_nat l hk
  rw [hval, toDouble_int hfl] at hbig
  have hd : ∀ d ∈ (l.whole ++ l.frac) ++ List.replicate k 0, d < 10 := by
    intro d hd
    rcases List.mem_append.mp hd with hd | hd
    · rcases List.mem_append.mp hd with hd | hd
      · exact hv.1 d hd
      · exact hv.2.1 d hd
    · have := (List.mem_replicate.mp hd).2
      omega
  have hpos : positional 10 ((l.whole ++ l.frac) ++ List.replicate k 0) = positional 10 (l.whole ++ l.frac) * 10 ^ k := by
    rw [positional_append, positional_zeros, List.length_replicate, Nat.add_zero]
  have hlarge : 2 ^ 53 ≤ positional 10 ((l.whole ++ l.frac) ++ List.replicate k 0) := by
    rw [hpos]
    have := of_decide_eq_false hbig
    split at this <;> omega
  obtain ⟨b, h1, h2, h3⟩ := parseDigits_digits hd hlarge (decide (l.sign = .minus))
  refine ⟨b, ?_, h2, ?_⟩
  · have hz : (List.replicate k 0).map digit = List.replicate k '0' := by
      rw [List.map_replicate]; rfl
    rw [← hz, ← List.map_append]
    exact h1
  · rw [h3, hpos, hval]
    simp only [decide_eq_true_eq]

/-- The long path, after the minus sign: `p` is a plus sign or nothing. -/
theorem parseLong_literal {fl : Rat → Rat} (hfl : Rounding fl) (l : Literal) (hv : l.Valid)
    (hbig : isPreciseRat (toDouble fl l.value) = false) : LongResult (parseLong fl l.text) l := by
  obtain ⟨p, hp, hpl⟩ : ∃ p : List Char, p = (if l.sign = .plus then ['+'] else []) ∧ (p = [] ∨ p = ['+']) := by
    refine ⟨_, rfl, ?_⟩
    split <;> simp
  have hpnoE : NoE p := by rcases hpl with rfl | rfl <;> simp [NoE]
  have hpnop : '.' ∉ p := by rcases hpl with rfl | rfl <;> simp
  have hsign : (l.text.head? = some '-') ↔ l.sign = .minus := by
    rw [text_eq]
    cases hs : l.sign with
    | none =>
      simp only [Sign.text, List.nil_append, reduceCtorEq, iff_false]
      intro h
      exact (noSign_mantissa l hv _ '-' h).1 rfl
    | plus => simp [Sign.text]
    | minus => simp [Sign.text]
  have hrest : (if l.text.head? = some '-' then l.text.drop 1 else l.text) = p ++ (mantissa l ++ expText l) := by
    by_cases hm : l.sign = .minus
    · rw [if_pos (hsign.mpr hm), text_eq, hm, hp, hm]
      rfl
    · rw [if_neg (fun h => hm (hsign.mp h)), text_eq, isPlus l hm, hp]
  have hdec : decide (l.text.head? = some '-') = decide (l.sign = .minus) := by
    by_cases hm : l.sign = .minus
    · rw [decide_eq_true (hsign.mpr hm), decide_eq_true hm]
    · rw [decide_eq_false (fun h => hm (hsign.mp h)), decide_eq_false hm]
  have hpnil : l.sign ≠ .plus → p = [] := by
    intro h
    rw [hp, if_neg h]
  rw [parseLong]
  rw [hrest, hdec]
  cases he : l.exp with
  | none =>
    have hx : expText l = [] := by rw [expText, he]
    have hpow : l.power = 0 := by rw [Literal.power, he]
    rw [hx, List.append_nil, splitE_none (noE_append hpnoE (noE_mantissa l hv))]
    simp only
    rw [LongResult]
    by_cases hpl' : Literal.Plain l
    · rw [if_pos hpl']
      obtain ⟨g1, g2⟩ := hpl'
      rw [he] at g2
      simp only at g2
      have hf := hv.2.2.1 g2
      obtain ⟨b, h1, h2, h3⟩ := long_digits hfl l hv hbig (k := 0) (by rw [hpow, hf]; rfl)
      refine ⟨b, ?_, h2, h3⟩
      rw [← h1, hpnil g1, mantissa, g2, hf]
      simp
    · rw [if_neg hpl']
      by_cases hsp : l.sign = .plus
      · refine ⟨_, parseDigits_bad (c := '+') ?_ (by decide) _⟩
        rw [hp, if_pos hsp]; simp
      · have hpt : l.point = true := by
          cases hpt : l.point with
          | true => rfl
          | false => exact absurd ⟨hsp, by rw [he]; exact hpt⟩ hpl'
        refine ⟨_, parseDigits_bad (c := '.') ?_ (by decide) _⟩
        rw [mantissa, hpt]; simp
  | some e =>
    obtain ⟨d1, d2⟩ := hv.2.2.2.2 e he
    have hx : expText l = (if e.capital then 'E' else 'e') :: (e.sign.text ++ e.digits.map digit) := by
      rw [expText, he]; rfl
    have hpow : l.power = e.number := by rw [Literal.power, he]
    rw [hx, ← List.append_assoc, splitE_at (noE_append hpnoE (noE_mantissa l hv)) (by cases e.capital <;> simp),
      splitE_none (noE_append (noE_sign _) (noE_digits d1))]
    simp only
    rw [parseExponent, exponent_number fl e d1 d2]
    simp only
    rw [toDouble_int hfl]
    by_cases hsmall : e.number.natAbs < 2 ^ 53
    · rw [toDouble_small hfl hsmall, decide_eq_true hsmall]
      simp only [Rat.den_intCast, ne_eq, not_true_eq_false, Bool.not_true, Bool.false_eq_true, or_self, if_false, Rat.num_intCast]
      have hst := strip_point l hv hpnop e.number
      simp only [hst]
      rw [LongResult]
      by_cases hneg : e.number - l.frac.length < 0
      · rw [if_pos hneg, if_neg]
        · exact ⟨_, rfl⟩
        · rintro ⟨_, g⟩
          rw [he] at g
          simp only at g
          omega
      · rw [if_neg hneg]
        by_cases hlong : e.number - l.frac.length + 1 ≥ 2 ^ 32
        · rw [if_pos hlong, if_neg]
          · exact ⟨_, rfl⟩
          · rintro ⟨_, g⟩
            rw [he] at g
            simp only at g
            omega
        · rw [if_neg hlong]
          by_cases hsp : l.sign = .plus
          · rw [if_neg (fun g => g.1 hsp)]
            refine ⟨_, parseDigits_bad (c := '+') ?_ (by decide) _⟩
            rw [hp, if_pos hsp]; simp
          · rw [if_pos ⟨hsp, by rw [he]; simp only; omega⟩, hpnil hsp, List.nil_append]
            exact long_digits hfl l hv hbig (by rw [hpow]; omega)
    · rw [decide_eq_false hsmall]
      simp only [Bool.not_false, or_true, if_true]
      rw [LongResult]
      by_cases hpl' : Literal.Plain l
      · obtain ⟨_, g⟩ := hpl'
        rw [he] at g
        simp only at g
        omega
      · rw [if_neg hpl']
        exact ⟨_, rfl⟩

end Verif.BigJs
