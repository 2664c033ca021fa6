import Verif.Props.BigText
/-!
# C82, C83: the two models of reading decimal digits agree
-/
namespace Verif.Props
open Spec BigJs

/-- The literal of a minus sign or none and decimal digits. -/
def plainLiteral (sign : Bool) (ds : List Nat) : Literal := ⟨if sign then .minus else .none, ds, false, [], none⟩

theorem plainLiteral_text (sign : Bool) (ds : List Nat) :
    (plainLiteral sign ds).text = (if sign then ['-'] else []) ++ ds.map digit := by
  cases sign <;> simp [plainLiteral, Literal.text, Sign.text]

theorem plainLiteral_valid (sign : Bool) {ds : List Nat} (hne : ds ≠ []) (hd : ∀ d ∈ ds, d < 10) :
    (plainLiteral sign ds).Valid :=
  ⟨hd, by simp [plainLiteral], by simp [plainLiteral], by simp [plainLiteral, hne], by simp [plainLiteral]⟩

theorem plainLiteral_value (sign : Bool) (ds : List Nat) :
    (plainLiteral sign ds).value = ((if sign then -(positional 10 ds : Int) else positional 10 ds : Int) : Rat) := by
  rw [value_nat (plainLiteral sign ds) (k := 0) rfl]
  cases sign <;> simp [plainLiteral]

theorem one_decimal {c : Char} (h : isDecimal c = true) : ∃ d, d < 10 ∧ digit d = c := by
  have key : ∀ k : Fin 128, isDecimal (Char.ofNat k.val) = true → ∃ d : Fin 10, digit d.val = Char.ofNat k.val := by
    decide +kernel
  simp only [isDecimal, Bool.and_eq_true, decide_eq_true_eq] at h
  have hk : c.toNat < 128 := by
    have := h.2
    have h2 : c.toNat ≤ '9'.toNat := this
    have : '9'.toNat = 57 := rfl
    omega
  have := key ⟨c.toNat, hk⟩
  simp only [Char.ofNat_toNat] at this
  obtain ⟨d, hd⟩ := this (by simp [isDecimal, h])
  exact ⟨d.val, d.isLt, hd⟩

theorem all_decimal (s : List Char) (h : s.all isDecimal = true) : ∃ ds : List Nat, (∀ d ∈ ds, d < 10) ∧
    s = ds.map digit := by
  induction s with
  | nil => exact ⟨[], by simp, rfl⟩
  | cons c s ih =>
    simp only [List.all_cons, Bool.and_eq_true] at h
    obtain ⟨d, hd, he⟩ := one_decimal h.1
    obtain ⟨ds, h1, h2⟩ := ih h.2
    exact ⟨d :: ds, by simpa [hd] using h1, by rw [List.map_cons, he, h2]⟩

theorem plain_agrees (fl : Rat → Rat) (hfl : Rounding fl) (sign : Bool) {ds : List Nat} (hne : ds ≠ [])
    (hd : ∀ d ∈ ds, d < 10) :
    parseStringValue ((if sign then ['-'] else []) ++ ds.map digit) =
      some (parseText fl ((if sign then ['-'] else []) ++ ds.map digit)) := by
  have hv := plainLiteral_valid sign hne hd
  have hnum := stringToNumber_literal fl _ hv
  rw [plainLiteral_text, plainLiteral_value] at hnum
  obtain ⟨_, hpos⟩ := digitsNumber_positional (digitsAre_map hd)
  have hnd : ∀ c ∈ ds.map digit, c ≠ '-' ∧ isDecimal c = true := by
    intro c hc
    obtain ⟨d, hd', rfl⟩ := List.mem_map.1 hc
    have := digit_decimal (hd d hd')
    refine ⟨?_, this.2.1⟩
    intro h
    rw [h] at this
    exact absurd this.2.1 (by decide)
  have hall : (ds.map digit).all isDecimal = true := List.all_eq_true.2 fun c hc => (hnd c hc).2
  have hemp : (ds.map digit).isEmpty = false := by cases ds <;> simp_all
  have hsign : (((if sign then ['-'] else []) ++ ds.map digit).head? = some '-') ↔ sign = true := by
    cases sign
    · simp only [Bool.false_eq_true, if_false, List.nil_append, iff_false]
      intro h
      exact (hnd '-' (List.mem_of_mem_head? h)).1 rfl
    · simp
  have hrest : (if (((if sign then ['-'] else []) ++ ds.map digit).head? = some '-') then
      ((if sign then ['-'] else []) ++ ds.map digit).drop 1 else ((if sign then ['-'] else []) ++ ds.map digit)) =
      ds.map digit := by
    cases sign
    · rw [if_neg (by simpa using hsign)]; rfl
    · rw [if_pos (by simpa using hsign)]; rfl
  have hsg : decide (((if sign then ['-'] else []) ++ ds.map digit).head? = some '-') = sign := by
    cases sign
    · exact decide_eq_false (by simpa using hsign)
    · exact decide_eq_true (by simpa using hsign)
  have hx : (if (((if sign then ['-'] else []) ++ ds.map digit).head? = some '-') then -digitsNumber (ds.map digit)
      else digitsNumber (ds.map digit)) = if sign then -(positional 10 ds : Int) else positional 10 ds := by
    rw [hpos]
    cases sign
    · rw [if_neg (by simpa using hsign)]; rfl
    · rw [if_pos (by simpa using hsign)]; rfl
  generalize hn : (if sign then -(positional 10 ds : Int) else positional 10 ds) = n at hx hnum
  have hlong : parseLong fl ((if sign then ['-'] else []) ++ ds.map digit) = parseDigits (ds.map digit) sign := by
    unfold parseLong
    simp only [decide_eq_true_eq, hrest, hsg]
    rw [splitE_none (noE_digits hd)]
  have hpr : isPrecise n = decide (n.natAbs < 2 ^ 53) := by
    have hM : (MAX_INT : Int) = 9007199254740992 := rfl
    rw [isPrecise, ← Bool.decide_and, decide_eq_decide]
    omega
  have hall' : (ds.map digit).all (fun c => decide ('0' ≤ c) && decide (c ≤ '9')) = true := hall
  unfold parseStringValue parseText
  rw [hnum]
  simp only [decide_eq_true_eq, hrest, hx, hsg, hall', hemp, Bool.not_true, Bool.or_false, Bool.false_eq_true,
    if_false]
  rw [toDouble_int hfl, hpr]
  by_cases hs : n.natAbs < 2 ^ 53
  · rw [decide_eq_true hs, if_pos rfl, if_pos rfl, toDouble_small hfl hs]
    simp
  · rw [decide_eq_false hs, hlong, parseDigits, hall, hemp]
    simp

/-- **C82, base 10.** What the model of reading to a base covers for base 10 are the texts of a minus sign or
none and decimal digits, and for these it is what reading a text without a base gives (C83). -/
theorem C82_base_ten (fl : Rat → Rat) (hfl : Rounding fl) (short : Nat → Nat) (text : List Char) (r : R Big) :
    bigOfText short text 10 = some r ↔
      (∃ (sign : Bool) (ds : List Nat), ds ≠ [] ∧ (∀ d ∈ ds, d < 10) ∧
        text = (if sign then ['-'] else []) ++ ds.map digit) ∧ r = parseText fl text := by
  rw [bigOfText, if_pos rfl]
  constructor
  · intro h
    have hshape : ∃ (sign : Bool) (ds : List Nat), ds ≠ [] ∧ (∀ d ∈ ds, d < 10) ∧
        text = (if sign then ['-'] else []) ++ ds.map digit := by
      have hg : ∀ ds : List Char, ¬ (ds.isEmpty || !ds.all (fun c => decide ('0' ≤ c) && decide (c ≤ '9'))) = true →
          ∃ ns : List Nat, ns ≠ [] ∧ (∀ d ∈ ns, d < 10) ∧ ds = ns.map digit := by
        intro ds hg
        simp only [Bool.or_eq_true, not_or, Bool.not_eq_true, Bool.not_eq_false'] at hg
        obtain ⟨ns, h1, h2⟩ := all_decimal ds hg.2
        refine ⟨ns, ?_, h1, h2⟩
        rintro rfl
        rw [h2] at hg
        exact absurd hg.1 (by simp)
      unfold parseStringValue at h
      by_cases hm : text.head? = some '-'
      · simp only [hm, decide_true, if_true] at h
        split at h
        · cases h
        · rename_i hc
          obtain ⟨ns, h1, h2, h3⟩ := hg _ hc
          refine ⟨true, ns, h1, h2, ?_⟩
          rw [← h3]
          cases text with
          | nil => cases hm
          | cons c s => simp only [List.head?_cons, Option.some.injEq] at hm; subst hm; rfl
      · simp only [hm, decide_false, Bool.false_eq_true, if_false] at h
        split at h
        · cases h
        · rename_i hc
          obtain ⟨ns, h1, h2, h3⟩ := hg _ hc
          exact ⟨false, ns, h1, h2, h3⟩
    refine ⟨hshape, ?_⟩
    obtain ⟨sign, ds, h1, h2, rfl⟩ := hshape
    rw [plain_agrees fl hfl sign h1 h2] at h
    exact (Option.some.inj h).symm
  · rintro ⟨⟨sign, ds, h1, h2, rfl⟩, rfl⟩
    exact plain_agrees fl hfl sign h1 h2

/-- A text with 20 digits is covered, and one with a point is not. -/
example : (∃ r, bigOfText (fun _ => 0) "-12345678901234567890".toList 10 = some r) ∧
    bigOfText (fun _ => 0) "1.5".toList 10 = none := ⟨⟨_, rfl⟩, rfl⟩

end Verif.Props
