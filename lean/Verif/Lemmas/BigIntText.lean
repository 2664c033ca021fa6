import Verif.Lemmas.BigIntDiv
import Verif.Spec.BigInt
/-! Big integers from texts and as texts. -/
namespace Verif.BigJs
open Spec

/-! ### Numerals -/

theorem digit_eq_digitChar {d : Nat} (h : d < 10) : digit d = d.digitChar := by
  have : d = 0 ∨ d = 1 ∨ d = 2 ∨ d = 3 ∨ d = 4 ∨ d = 5 ∨ d = 6 ∨ d = 7 ∨ d = 8 ∨ d = 9 := by omega
  rcases this with h | h | h | h | h | h | h | h | h | h <;> subst h <;> decide

theorem numeral_lt {b n : Nat} (h : n < b) : numeral b n = [digit n] := by
  rw [numeral, dif_pos (Or.inr h)]

theorem numeral_ge {b n : Nat} (hb : 2 ≤ b) (h : b ≤ n) :
    numeral b n = numeral b (n / b) ++ [digit (n % b)] := by
  rw [numeral, dif_neg (by omega)]

theorem numeral_ten (n : Nat) : numeral 10 n = natText n := by
  induction n using Nat.strongRecOn with
  | ind n ih =>
    unfold natText
    by_cases h : n < 10
    · rw [numeral_lt h, Nat.toDigits_of_lt_base h, digit_eq_digitChar h]
    · rw [numeral_ge (by decide) (by omega), ih (n / 10) (by omega), natText,
        Nat.toDigits_of_base_le (n := n) (by decide) (by omega), digit_eq_digitChar (Nat.mod_lt n (by decide))]

theorem intNumeral_ten (n : Int) : intNumeral 10 n = intText n := by
  simp only [intNumeral, intText, numeral_ten]

/-- Digits with leading zeros. -/
def padTo (k n : Nat) : List Char := List.replicate (k - (natText n).length) '0' ++ natText n

theorem natText_ge {n : Nat} (h : 10 ≤ n) : natText n = natText (n / 10) ++ [digit (n % 10)] := by
  rw [← numeral_ten, numeral_ge (by decide) h, numeral_ten]

theorem natText_lt {n : Nat} (h : n < 10) : natText n = [digit n] := by
  rw [← numeral_ten, numeral_lt h]

theorem padTo_succ {k n : Nat} (hk : 1 ≤ k) : padTo (k + 1) n = padTo k (n / 10) ++ [digit (n % 10)] := by
  unfold padTo
  by_cases h : n < 10
  · rw [natText_lt h, Nat.div_eq_of_lt h, Nat.mod_eq_of_lt h, natText_lt (n := 0) (by decide)]
    obtain ⟨k, rfl⟩ : ∃ j, k = j + 1 := ⟨k - 1, by omega⟩
    simp [digit, List.replicate_succ']
  · rw [natText_ge (by omega), List.length_append, List.length_singleton, ← List.append_assoc]
    congr 2
    congr 1
    omega

theorem natText_append {n : Nat} (hn : 0 < n) (k : Nat) : ∀ x, x < 10 ^ (k + 1) →
    natText n ++ padTo (k + 1) x = natText (n * 10 ^ (k + 1) + x) := by
  induction k with
  | zero =>
    intro x hx
    have hx : x < 10 := by simpa using hx
    rw [natText_ge (n := n * 10 ^ (0 + 1) + x) (by simp; omega), padTo, natText_lt hx]
    simp
    constructor
    · congr 1; omega
    · congr 1; omega
  | succ k ih =>
    intro x hx
    rw [padTo_succ (by omega), ← List.append_assoc, ih (x / 10) (by rw [Nat.pow_succ] at hx; omega)]
    have h1 : n * 10 ^ (k + 1 + 1) = n * 10 ^ (k + 1) * 10 := by
      rw [Nat.pow_succ 10 (k + 1), Nat.mul_assoc]
    have h2 : 10 ≤ n * 10 ^ (k + 1 + 1) := by
      rw [h1]
      have : 0 < n * 10 ^ (k + 1) := Nat.mul_pos hn (Nat.pow_pos (by decide))
      omega
    rw [natText_ge (n := n * 10 ^ (k + 1 + 1) + x) (by omega), h1]
    congr 2
    · omega
    · congr 1; omega

theorem intText_digit {x : Int} (h : 0 ≤ x) : intText x = natText x.toNat := by
  rw [intText, if_neg (by omega)]
  congr 1
  omega

theorem padded_cons {x : Int} (h : 0 ≤ x) (xs : Arr) : padded (x :: xs) = padTo 7 x.toNat ++ padded xs := by
  simp only [padded, intText_digit h, padTo, LOG_BASE]

theorem toNat_pow (n : Nat) : ((10000000 : Int) ^ n).toNat = 10000000 ^ n := by
  rw [← Int.toNat_natCast (10000000 ^ n), Int.natCast_pow]
  rfl

theorem text_append {xs : Arr} (h : Digits xs) : ∀ n : Nat, 0 < n →
    natText n ++ padded xs = natText (n * 10000000 ^ xs.length + (val xs.reverse).toNat) := by
  induction xs with
  | nil => intro n _; simp [padded, val]
  | cons x xs ih =>
    intro n hn
    rw [digits_cons] at h
    have happ := natText_append hn 6 x.toNat (by
      have : (10 : Nat) ^ (6 + 1) = 10000000 := rfl
      omega)
    rw [show (10 : Nat) ^ (6 + 1) = 10000000 from rfl, show 6 + 1 = 7 from rfl] at happ
    rw [padded_cons h.1.1, ← List.append_assoc, happ, ih h.2 _ (by omega)]
    congr 1
    rw [List.reverse_cons, val_append, List.length_reverse, List.length_cons]
    simp only [val, Int.mul_zero, Int.add_zero]
    have h1 := val_nonneg (digits_reverse.mpr h.2)
    have h2 : (0 : Int) ≤ 10000000 ^ xs.length * x := Int.mul_nonneg (Int.le_of_lt (pow_pos' _)) h.1.1
    rw [Int.toNat_add h1 h2, Int.toNat_mul (Int.le_of_lt (pow_pos' _)) h.1.1]
    rw [toNat_pow, Nat.add_mul, Nat.pow_succ, Nat.mul_assoc,
      Nat.mul_comm 10000000 (10000000 ^ xs.length), Nat.mul_comm x.toNat]
    omega

theorem toText_ok {b : Big} (h : b.Ok) : b.toText = .ok (intNumeral 10 b.toInt) := by
  rw [intNumeral_ten]
  cases b with
  | small v s => rfl
  | big v s =>
    obtain ⟨hd, ht, hm⟩ := h
    have hM : (0 : Int) < MAX_INT := by decide
    have hdr := digits_reverse.mpr hd
    have hv : val v = val v.reverse.reverse := by rw [List.reverse_reverse]
    have hl : v.reverse.head? ≠ some 0 := by rw [List.head?_reverse]; exact ht
    unfold Big.toText
    simp only
    generalize v.reverse = w at hdr hv hl
    cases w with
    | nil => simp [val] at hv; omega
    | cons x xs =>
      rw [digits_cons] at hdr
      have hx : x ≠ 0 := by simpa using hl
      have key : intText x ++ padded xs = natText (val v).toNat := by
        rw [intText_digit hdr.1.1, text_append hdr.2 x.toNat (by omega), hv]
        congr 1
        rw [List.reverse_cons, val_append, List.length_reverse]
        simp only [val, Int.mul_zero, Int.add_zero]
        have h1 := val_nonneg (digits_reverse.mpr hdr.2)
        have h2 : (0 : Int) ≤ 10000000 ^ xs.length * x := Int.mul_nonneg (Int.le_of_lt (pow_pos' _)) hdr.1.1
        rw [Int.toNat_add h1 h2, Int.toNat_mul (Int.le_of_lt (pow_pos' _)) hdr.1.1]
        rw [toNat_pow, Nat.mul_comm]
        omega
      simp only [key, Big.toInt]
      cases s
      · simp only [Bool.false_eq_true, if_false, List.nil_append]
        rw [intText_digit (by omega)]
      · simp only [if_true]
        rw [intText, if_pos (by omega)]
        simp only [List.cons_append, List.nil_append]
        congr 3
        omega

/-! ### Parsing -/

/-- All characters are digits. -/
def AllDigits (s : List Char) : Prop := ∀ c ∈ s, '0' ≤ c ∧ c ≤ '9'

theorem digitsNumber_append (s t : List Char) :
    digitsNumber (s ++ t) = digitsNumber s * 10 ^ t.length + digitsNumber t := by
  have gen : ∀ (t : List Char) (n : Int), t.foldl (fun n c => 10 * n + ((c.toNat : Int) - 48)) n =
      n * 10 ^ t.length + digitsNumber t := by
    intro t
    induction t with
    | nil => intro n; simp [digitsNumber]
    | cons c t ih =>
      intro n
      simp only [List.foldl_cons, digitsNumber, List.length_cons]
      rw [ih, ih (10 * 0 + _), Int.pow_succ]
      grind
  rw [digitsNumber, List.foldl_append, gen]
  rfl

theorem digit_range {c : Char} (h : '0' ≤ c ∧ c ≤ '9') : 48 ≤ c.toNat ∧ c.toNat ≤ 57 := by
  obtain ⟨h1, h2⟩ := h
  rw [Char.le_def, UInt32.le_iff_toNat_le] at h1 h2
  exact ⟨h1, h2⟩

theorem digitsNumber_bounds {s : List Char} (h : AllDigits s) :
    0 ≤ digitsNumber s ∧ digitsNumber s < 10 ^ s.length := by
  induction s with
  | nil => decide
  | cons c s ih =>
    have hs : AllDigits s := fun d hd => h d (List.mem_cons_of_mem _ hd)
    obtain ⟨h1, h2⟩ := ih hs
    have hc := digit_range (h c List.mem_cons_self)
    have : c :: s = [c] ++ s := rfl
    rw [this, digitsNumber_append, List.length_append, List.length_singleton, Nat.add_comm 1, Int.pow_succ]
    have h3 : digitsNumber [c] = (c.toNat : Int) - 48 := by simp [digitsNumber]
    rw [h3]
    have hp : (0 : Int) < 10 ^ s.length := Int.pow_pos (by decide)
    generalize (10 : Int) ^ s.length = p at *
    have h4 : 0 ≤ ((c.toNat : Int) - 48) * p := Int.mul_nonneg (by omega) (by omega)
    have h5 : ((c.toNat : Int) - 48) * p ≤ 9 * p := Int.mul_le_mul_of_nonneg_right (by omega) (by omega)
    omega

theorem pow10_mono {m n : Nat} (h : m ≤ n) : (10 : Int) ^ m ≤ 10 ^ n := by
  have := Nat.pow_le_pow_right (show 10 > 0 by decide) h
  have h2 : ((10 ^ m : Nat) : Int) ≤ ((10 ^ n : Nat) : Int) := Int.ofNat_le.mpr this
  simpa [Int.natCast_pow] using h2

theorem pieces_eq {v : List Char} (hv : AllDigits v) (fuel : Nat) : ∀ (max : Nat), max ≤ fuel →
    max ≤ v.length → ∃ r, pieces v fuel max (if max < 7 then 0 else (max : Int) - 7) = .ok r ∧ Digits r ∧
      val r = digitsNumber (v.take max) := by
  induction fuel with
  | zero =>
    intro max h _
    have : max = 0 := by omega
    subst this
    exact ⟨[], by simp [pieces], digits_nil, by simp [val, digitsNumber]⟩
  | succ fuel ih =>
    intro max h hl
    rw [pieces]
    by_cases h0 : max = 0
    · subst h0
      exact ⟨[], by simp, digits_nil, by simp [val, digitsNumber]⟩
    rw [if_pos (by omega), slice, if_neg (show ¬ (if max < 7 then (0 : Int) else (max : Int) - 7) < 0 by split <;> omega)]
    have hall : ∀ n m, AllDigits ((v.take n).drop m) :=
      fun n m c hc => hv c (List.mem_of_mem_take (List.mem_of_mem_drop hc))
    by_cases h7 : max < 7
    · simp only [if_pos h7, Int.toNat_natCast, Int.toNat_zero, List.drop_zero, LOG_BASE]
      have hb := digitsNumber_bounds (hall max 0)
      have hle : (10 : Int) ^ ((v.take max).drop 0).length ≤ 10 ^ 7 :=
        pow10_mono (by simp; omega)
      rw [List.drop_zero] at hb hle
      have hrest : pieces v fuel ((max : Int) - (7 : Nat)) (if (0 : Int) - (7 : Nat) < 0 then 0 else 0 - (7 : Nat)) = .ok [] := by
        cases fuel with
        | zero => rw [pieces, if_neg (by omega)]
        | succ f => rw [pieces, if_neg (by omega)]
      rw [hrest]
      refine ⟨[digitsNumber (v.take max)], rfl, digits_cons.mpr ⟨⟨hb.1, ?_⟩, digits_nil⟩, by simp [val]⟩
      have h10 : (10 : Int) ^ 7 = 10000000 := rfl
      omega
    · obtain ⟨r, h1, h2, h3⟩ := ih (max - 7) (by omega) (by omega)
      have e1 : ((max - 7 : Nat) : Int) = (max : Int) - (LOG_BASE : Nat) := by simp only [LOG_BASE]; omega
      have e2 : (if max - 7 < 7 then (0 : Int) else ((max - 7 : Nat) : Int) - 7) =
          (if (max : Int) - 7 - (LOG_BASE : Nat) < 0 then 0 else (max : Int) - 7 - (LOG_BASE : Nat)) := by
        simp only [LOG_BASE]
        split <;> split <;> omega
      rw [e2, e1] at h1
      simp only [if_neg h7, h1]
      have hd : ((max : Int) - 7).toNat = max - 7 := by omega
      rw [Int.toNat_natCast, hd]
      have hlen : ((v.take max).drop (max - 7)).length = 7 := by
        rw [List.length_drop, List.length_take]; omega
      have hb := digitsNumber_bounds (hall max (max - 7))
      rw [hlen] at hb
      have h10 : (10 : Int) ^ 7 = 10000000 := rfl
      refine ⟨_, rfl, digits_cons.mpr ⟨⟨hb.1, by omega⟩, h2⟩, ?_⟩
      rw [val, h3]
      conv => rhs; rw [← List.take_append_drop (max - 7) (v.take max)]
      rw [digitsNumber_append, hlen, List.take_take, Nat.min_eq_left (by omega)]
      omega

theorem parse_ok {ds : List Char} (hne : ds ≠ []) (hd : AllDigits ds) (sign : Bool) :
    ∃ b, parseStringValue ((if sign then ['-'] else []) ++ ds) = some (.ok b) ∧ b.Ok ∧
      b.toInt = if sign then -digitsNumber ds else digitsNumber ds := by
  have hb := digitsNumber_bounds hd
  have hall : ds.all (fun c => decide ('0' ≤ c) && decide (c ≤ '9')) = true := by
    rw [List.all_eq_true]
    intro c hc
    simpa using hd c hc
  have hemp : ds.isEmpty = false := by cases ds <;> simp_all
  have hsign : (((if sign then ['-'] else []) ++ ds).head? = some '-') ↔ sign = true := by
    cases sign
    · simp only [Bool.false_eq_true, if_false, List.nil_append, iff_false]
      cases ds with
      | nil => simp
      | cons c ds =>
        intro h
        simp only [List.head?_cons, Option.some.injEq] at h
        subst h
        exact absurd (hd '-' List.mem_cons_self) (by decide)
    · simp
  have hds : (if (((if sign then ['-'] else []) ++ ds).head? = some '-') then
      ((if sign then ['-'] else []) ++ ds).drop 1 else ((if sign then ['-'] else []) ++ ds)) = ds := by
    cases sign
    · rw [if_neg (by simpa using hsign)]; rfl
    · rw [if_pos (by simpa using hsign)]; rfl
  have hx : (if (((if sign then ['-'] else []) ++ ds).head? = some '-') then -digitsNumber ds
      else digitsNumber ds) = if sign then -digitsNumber ds else digitsNumber ds := by
    cases sign
    · rw [if_neg (by simpa using hsign)]; rfl
    · rw [if_pos (by simpa using hsign)]; rfl
  have hsg : decide (((if sign then ['-'] else []) ++ ds).head? = some '-') = sign := by
    cases sign
    · exact decide_eq_false (by simpa using hsign)
    · exact decide_eq_true (by simpa using hsign)
  unfold parseStringValue
  simp only [decide_eq_true_eq, hds, hx, hsg, hall, hemp, Bool.not_true, Bool.or_false, Bool.false_eq_true,
    if_false]
  by_cases hp : isPrecise (if sign then -digitsNumber ds else digitsNumber ds)
  · rw [if_pos hp]
    refine ⟨_, rfl, ?_, rfl⟩
    simp only [isPrecise, Bool.and_eq_true, decide_eq_true_eq] at hp
    exact ofSmall_ok hp.1 hp.2
  · rw [if_neg hp]
    have hbig : MAX_INT ≤ digitsNumber ds := by
      simp only [isPrecise, Bool.and_eq_true, decide_eq_true_eq] at hp
      cases sign
      · simp only [Bool.false_eq_true, if_false] at hp
        have : (MAX_INT : Int) = 9007199254740992 := rfl
        omega
      · simp only [if_true] at hp
        omega
    have hlen : ¬ ds.length < 7 := by
      intro h
      have hle : (10 : Int) ^ ds.length ≤ 10 ^ 7 := pow10_mono (by omega)
      have h10 : (10 : Int) ^ 7 = 10000000 := rfl
      have : (MAX_INT : Int) = 9007199254740992 := rfl
      omega
    obtain ⟨r, h1, h2, h3⟩ := pieces_eq hd ds.length ds.length (Nat.le_refl _) (Nat.le_refl _)
    rw [if_neg hlen] at h1
    rw [List.take_length] at h3
    refine ⟨.big (trim r) sign, ?_, ⟨digits_trim h2, trimmed_trim r, by rw [val_trim, h3]; exact hbig⟩, ?_⟩
    · have : ((ds.length : Int) - (LOG_BASE : Nat)) = (ds.length : Int) - 7 := rfl
      rw [this, h1]
      rfl
    · simp only [Big.toInt, val_trim, h3]

theorem digit_bounds {d : Nat} (h : d < 10) : '0' ≤ digit d ∧ digit d ≤ '9' ∧ (digit d).toNat = 48 + d := by
  have : d = 0 ∨ d = 1 ∨ d = 2 ∨ d = 3 ∨ d = 4 ∨ d = 5 ∨ d = 6 ∨ d = 7 ∨ d = 8 ∨ d = 9 := by omega
  rcases this with h | h | h | h | h | h | h | h | h | h <;> subst h <;> decide

theorem numeral_number (n : Nat) : AllDigits (numeral 10 n) ∧ numeral 10 n ≠ [] ∧
    digitsNumber (numeral 10 n) = n := by
  induction n using Nat.strongRecOn with
  | ind n ih =>
    by_cases h : n < 10
    · obtain ⟨h1, h2, h3⟩ := digit_bounds h
      rw [numeral_lt h]
      refine ⟨?_, by simp, ?_⟩
      · intro c hc
        simp only [List.mem_singleton] at hc
        subst hc
        exact ⟨h1, h2⟩
      · simp only [digitsNumber, List.foldl_cons, List.foldl_nil, h3]
        omega
    · obtain ⟨i1, i2, i3⟩ := ih (n / 10) (by omega)
      obtain ⟨h1, h2, h3⟩ := digit_bounds (Nat.mod_lt n (show 10 > 0 by decide))
      rw [numeral_ge (by decide) (by omega)]
      refine ⟨?_, by simp, ?_⟩
      · intro c hc
        simp only [List.mem_append, List.mem_singleton] at hc
        rcases hc with hc | hc
        · exact i1 c hc
        · subst hc; exact ⟨h1, h2⟩
      · rw [digitsNumber_append, i3]
        simp only [digitsNumber, List.foldl_cons, List.foldl_nil, h3, List.length_singleton]
        omega

/-- The text of an integer is read as that integer. -/
theorem parse_numeral (n : Int) :
    ∃ b, parseStringValue (intNumeral 10 n) = some (.ok b) ∧ b.Ok ∧ b.toInt = n := by
  obtain ⟨h1, h2, h3⟩ := numeral_number n.natAbs
  unfold intNumeral
  by_cases h : n < 0
  · rw [if_pos h]
    obtain ⟨b, k1, k2, k3⟩ := parse_ok h2 h1 true
    refine ⟨b, k1, k2, ?_⟩
    rw [k3, h3]
    simp only [if_true]
    omega
  · rw [if_neg h]
    obtain ⟨b, k1, k2, k3⟩ := parse_ok h2 h1 false
    refine ⟨b, k1, k2, ?_⟩
    rw [k3, h3]
    simp only [Bool.false_eq_true, if_false]
    omega

/-! ### Division by a digit and other bases -/

theorem stringify_digit {d : Int} (h0 : 0 ≤ d) (h : d < 36) (s : Bool) :
    stringify (.small d s) = [digit d.toNat] := by
  obtain ⟨n, rfl⟩ := Int.eq_ofNat_of_zero_le h0
  have hn : n < 36 := by omega
  rw [stringify, if_pos (by omega), Int.toNat_natCast]
  have gen : ∀ n : Fin 36, ("0123456789abcdefghijklmnopqrstuvwxyz".toList[n.val]?).toList = [digit n.val] := by
    decide
  exact gen ⟨n, hn⟩

/-- For a small divisor no rounding occurs. -/
theorem divmod_small_ok (fl : Rat → Rat) {t : Big} (ht : t.Ok) (h0 : 0 ≤ t.toInt) {b : Int} (hb : 2 ≤ b)
    (hb' : b < 10000000) : ∃ q r, t.divmod fl (.ofSmall b) = .ok (q, .ofSmall r) ∧ q.Ok ∧
      q.toInt = t.toInt / b ∧ r = t.toInt % b := by
  have hM : (MAX_INT : Int) = 9007199254740992 := rfl
  cases t with
  | small a s =>
    obtain ⟨a1, a2, _, _⟩ := ht
    simp only [Big.toInt] at h0 ⊢
    obtain ⟨⟨b1, b2⟩, b3, b4⟩ := small_tdiv_bounds (b := b) a1 a2
    refine ⟨_, a.tmod b, by rw [Big.ofSmall, Big.divmod, if_neg (by omega)], ofSmall_ok b1 b2, ?_, ?_⟩
    · show a.tdiv b = a / b
      rw [Int.tdiv_eq_ediv_of_nonneg h0]
    · rw [Int.tmod_eq_emod_of_nonneg h0]
  | big a s =>
    obtain ⟨da, ta, ma⟩ := ht
    have ha0 := val_nonneg da
    have hs : s = false := by
      cases s
      · rfl
      · simp only [Big.toInt, if_true] at h0; omega
    subst hs
    have hbn : (b.natAbs : Int) = b := by omega
    obtain ⟨q, r, i1, i2, i3, i4, i5, i6⟩ := divModSmallLoop_eq (l := b) (by omega) hb'
      (digits_reverse.mpr da) 0 (Int.le_refl _) (by omega)
    rw [List.reverse_reverse, Int.zero_mul, Int.zero_add] at i6
    have hq : val q.reverse = val a / b ∧ r = val a % b := by
      rw [i6]
      constructor
      · rw [Int.add_comm, Int.add_mul_ediv_left _ _ (by omega), Int.ediv_eq_zero_of_lt i4 i5]; omega
      · rw [Int.add_comm, Int.add_mul_emod_self_left, Int.emod_eq_of_lt i4 i5]
    obtain ⟨s1, s2⟩ := signed_ok (digits_reverse.mpr i3) (decide (false ≠ decide (b < 0)))
    refine ⟨_, r, ?_, s1, ?_, ?_⟩
    · rw [Big.ofSmall, Big.divmod, if_neg (by omega), if_neg (by omega), if_neg (by omega), hbn,
        if_pos (by simp only [BASE]; omega), i1]
      rfl
    · rw [s2, if_neg (by simp; omega), hq.1]
      rfl
    · exact hq.2

theorem toBaseLoop_eq (fl : Rat → Rat) {b : Nat} (hb : 2 ≤ b) (hb' : b ≤ 36) (fuel : Nat) : ∀ {t : Big}, t.Ok → 0 ≤ t.toInt →
    t.toInt.toNat < fuel → ∃ out, toBaseLoop fl b fuel t = .ok out ∧
      out.reverse.flatten = numeral b t.toInt.toNat := by
  induction fuel with
  | zero => intro t _ _ h; omega
  | succ fuel ih =>
    intro t ht h0 hf
    rw [toBaseLoop.eq_def]
    simp only
    have hneg : t.isNegative = false := by
      cases t with
      | small v s => simp only [Big.isNegative]; simp only [Big.toInt] at h0; exact decide_eq_false (by omega)
      | big v s =>
        obtain ⟨hd, htr, hm⟩ := ht
        have hM : (0 : Int) < MAX_INT := by decide
        cases s
        · rfl
        · simp only [Big.toInt, if_true] at h0; omega
    have hmore : decide (t.compareAbsSmall b ≥ 0) = decide ((b : Int) ≤ t.toInt) := by
      cases t with
      | small v s =>
        simp only [Big.toInt, Big.compareAbsSmall] at *
        congr 1
        apply propext
        split
        · exact ⟨fun _ => by omega, fun _ => by omega⟩
        · split
          · exact ⟨fun _ => by omega, fun _ => by omega⟩
          · exact ⟨fun _ => by omega, fun _ => by omega⟩
      | big v s =>
        obtain ⟨hd, htr, hm⟩ := ht
        have hM : (MAX_INT : Int) = 9007199254740992 := rfl
        cases s
        · simp only [Big.toInt, Bool.false_eq_true, if_false, Big.compareAbsSmall]
          exact (decide_eq_true (by omega)).symm
        · simp only [Big.toInt, if_true] at h0; omega
    simp only [hneg, Bool.false_or]
    rw [hmore]
    by_cases hge : (b : Int) ≤ t.toInt
    · rw [decide_eq_true hge, if_pos rfl]
      obtain ⟨q, r, j1, j2, j3, j4⟩ := divmod_small_ok fl ht h0 (b := b) (by omega) (by omega)
      rw [j1]
      have hr0 : 0 ≤ r := by rw [j4]; exact Int.emod_nonneg _ (by omega)
      have hr1 : r < b := by rw [j4]; exact Int.emod_lt_of_pos _ (by omega)
      have hq0 : 0 ≤ q.toInt := by rw [j3]; exact Int.ediv_nonneg h0 (by omega)
      have hnat : q.toInt.toNat = t.toInt.toNat / b := by
        rw [j3]
        obtain ⟨n, hn⟩ := Int.eq_ofNat_of_zero_le h0
        rw [hn]
        rfl
      have hrnat : r.toNat = t.toInt.toNat % b := by
        rw [j4]
        obtain ⟨n, hn⟩ := Int.eq_ofNat_of_zero_le h0
        rw [hn]
        rfl
      have hlt : t.toInt.toNat / b < t.toInt.toNat := Nat.div_lt_self (by omega) (by omega)
      obtain ⟨out, k1, k2⟩ := ih j2 hq0 (by omega)
      refine ⟨stringify (.ofSmall r) :: out, ?_, ?_⟩
      · have : (Big.ofSmall r).isNegative = false := by simp [Big.ofSmall, Big.isNegative]; omega
        simp only [bind, Except.bind, this, Bool.false_eq_true, if_false, k1]
      · rw [numeral_ge hb (by omega), List.reverse_cons, List.flatten_append, k2, hnat,
          Big.ofSmall, stringify_digit hr0 (by omega), hrnat]
        simp
    · rw [decide_eq_false hge, if_neg (by simp)]
      refine ⟨_, rfl, ?_⟩
      rw [numeral_lt (by omega)]
      cases t with
      | small v s =>
        simp only [Big.toInt] at *
        rw [stringify_digit h0 (by omega)]
        rfl
      | big v s =>
        obtain ⟨hd, htr, hm⟩ := ht
        have hM : (MAX_INT : Int) = 9007199254740992 := rfl
        cases s
        · simp only [Big.toInt, Bool.false_eq_true, if_false] at hge; omega
        · simp only [Big.toInt, if_true] at h0; omega

theorem toBase_ok (fl : Rat → Rat) {t : Big} (ht : t.Ok) {b : Nat} (hb : 2 ≤ b) (hb' : b ≤ 36) {fuel : Nat}
    (hf : t.toInt.natAbs < fuel) : t.toBase fl fuel b = .ok (intNumeral b t.toInt) := by
  have hneg : t.isNegative = decide (t.toInt < 0) := by
    cases t with
    | small v s => rfl
    | big v s =>
      obtain ⟨hd, htr, hm⟩ := ht
      have hM : (0 : Int) < MAX_INT := by decide
      cases s
      · simp only [Big.isNegative, Big.toInt, Bool.false_eq_true, if_false]
        exact (decide_eq_false (by omega)).symm
      · simp only [Big.isNegative, Big.toInt, if_true]
        exact (decide_eq_true (by omega)).symm
  unfold Big.toBase
  simp only [hneg, intNumeral]
  by_cases h : t.toInt < 0
  · rw [decide_eq_true h, if_pos rfl, if_pos rfl, if_pos h]
    obtain ⟨h1, h2⟩ := abs_ok ht
    obtain ⟨out, k1, k2⟩ := toBaseLoop_eq fl hb hb' fuel h1 (by omega) (by omega)
    rw [k1, h2] at *
    simp only [bind, Except.bind, k2]
    simp
  · rw [decide_eq_false h, if_neg (by simp), if_neg (by simp), if_neg h]
    obtain ⟨out, k1, k2⟩ := toBaseLoop_eq fl hb hb' fuel ht (by omega) (by omega)
    rw [k1]
    simp only [bind, Except.bind, k2]
    have : t.toInt.toNat = t.toInt.natAbs := by omega
    simp [this]

end Verif.BigJs
