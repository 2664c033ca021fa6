import Verif.Lemmas.BigText
import Verif.Props.BigRead
/-! C83: reading big integers from decimal texts. -/
namespace Verif.Props
open BigJs Spec

/-- The text is read as an integer: the object obeys the invariant of all big integers, and is written with
all digits. -/
def GivesInt (r : R Big) (n : Int) : Prop := ∃ b, r = .ok b ∧ b.Ok ∧ b.toInt = n ∧ b.toText = .ok (intNumeral 10 n)

/-- The text is rejected. -/
def Throws (r : R Big) : Prop := ∃ msg, r = .error (.expect msg)

/-- The literals that are read digit by digit: without plus sign, without point if there is no exponent, and
with an exponent that is at least the number of digits after the point and small enough for as many zeros. -/
def ByDigits (l : Literal) : Prop :=
  l.sign ≠ .plus ∧ match l.exp with
    | none => l.point = false
    | some e => (l.frac.length : Int) ≤ e.number ∧ e.number < 2 ^ 53 ∧ e.number - l.frac.length < 2 ^ 32 - 1

instance (l : Literal) : Decidable (ByDigits l) := by unfold ByDigits; split <;> infer_instance

theorem byDigits_iff (l : Literal) : ByDigits l ↔ BigJs.Literal.Plain l := by
  unfold ByDigits BigJs.Literal.Plain
  cases l.exp with
  | none => exact Iff.rfl
  | some e =>
    simp only
    constructor <;> rintro ⟨a, b, c, d⟩ <;> exact ⟨a, b, c, by omega⟩

theorem givesInt_of {r : R Big} {b : Big} {n : Int} (h1 : r = .ok b) (h2 : b.Ok) (h3 : b.toInt = n) : GivesInt r n :=
  ⟨b, h1, h2, h3, by rw [toText_ok h2, h3]⟩

/-- Literals that are read digit by digit denote integers. -/
theorem byDigits_int {l : Literal} (h : ByDigits l) (hv : l.Valid) : ∃ n : Int, l.value = n := by
  obtain ⟨h1, h2⟩ := h
  have hk : ∃ k : Nat, l.power - l.frac.length = k := by
    cases he : l.exp with
    | none =>
      rw [he] at h2
      have := hv.2.2.1 h2
      exact ⟨0, by rw [Literal.power, he, this]; rfl⟩
    | some e =>
      rw [he] at h2
      simp only at h2
      exact ⟨(e.number - l.frac.length).toNat, by rw [Literal.power, he]; simp only; omega⟩
  obtain ⟨k, hk⟩ := hk
  exact ⟨_, value_nat l hk⟩

theorem precise_int {x : Rat} {n : Int} (hx : x = n) (hp : isPreciseRat x = true) : n.natAbs < 2 ^ 53 := by
  rw [hx, isPreciseRat_int] at hp
  exact of_decide_eq_true hp

/-- **C83, exactly.** For every rounding and every decimal literal, `bigint(text)` gives the value if it is
an integer below `2^53` in size; the value if it is a larger integer and the literal is one of `ByDigits`, and
an error for the other larger integers. Where the value is no integer, the nearest double decides: it is
given if it is an integer below `2^53` in size. -/
theorem C83_exact (fl : Rat → Rat) (hfl : Rounding fl) (l : Literal) (hv : l.Valid) :
    (∀ n : Int, l.value = n → n.natAbs < 2 ^ 53 → GivesInt (parseText fl l.text) n) ∧
    (∀ n : Int, l.value = n → 2 ^ 53 ≤ n.natAbs → ByDigits l → GivesInt (parseText fl l.text) n) ∧
    (∀ n : Int, l.value = n → 2 ^ 53 ≤ n.natAbs → ¬ ByDigits l → Throws (parseText fl l.text)) ∧
    ((∀ n : Int, l.value ≠ n) → -(2 ^ 1023) ≤ l.value → l.value ≤ 2 ^ 1023 →
      (∀ m : Int, fl l.value = m → m.natAbs < 2 ^ 53 → GivesInt (parseText fl l.text) m) ∧
      ((∀ m : Int, fl l.value = m → 2 ^ 53 ≤ m.natAbs) → Throws (parseText fl l.text))) := by
  have hM : (MAX_INT : Int) = 9007199254740992 := rfl
  have hnum := stringToNumber_literal fl l hv
  have hsmall : ∀ m : Int, toDouble fl l.value = m → m.natAbs < 2 ^ 53 → GivesInt (parseText fl l.text) m := by
    intro m hm hlt
    refine givesInt_of (b := .ofSmall m) ?_ (ofSmall_ok (by omega) (by omega)) rfl
    rw [parseText, hnum, hm]
    simp only
    rw [isPreciseRat_int, decide_eq_true hlt]
    simp
  have hlong : isPreciseRat (toDouble fl l.value) = false → parseText fl l.text = parseLong fl l.text := by
    intro h
    rw [parseText, hnum]
    simp [h]
  refine ⟨?_, ?_, ?_, ?_⟩
  · intro n hn hlt
    exact hsmall n (by rw [hn, toDouble_small hfl hlt]) hlt
  · intro n hn hge hby
    have hbig : isPreciseRat (toDouble fl l.value) = false := by
      rw [hn, toDouble_int hfl, decide_eq_false (by omega)]
    have := parseLong_literal hfl l hv hbig
    rw [LongResult, if_pos ((byDigits_iff l).mp hby)] at this
    obtain ⟨b, h1, h2, h3⟩ := this
    rw [hlong hbig]
    exact givesInt_of h1 h2 (Rat.intCast_inj.mp (h3.trans hn))
  · intro n hn hge hby
    have hbig : isPreciseRat (toDouble fl l.value) = false := by
      rw [hn, toDouble_int hfl, decide_eq_false (by omega)]
    have := parseLong_literal hfl l hv hbig
    rw [LongResult, if_neg (fun h => hby ((byDigits_iff l).mpr h))] at this
    rw [hlong hbig]
    exact this
  · intro hni hlo hhi
    have hd : toDouble fl l.value = fl l.value := by
      rw [toDouble, if_neg (by grind)]
    refine ⟨fun m hm hlt => hsmall m (by rw [hd, hm]) hlt, fun hno => ?_⟩
    by_cases hp : isPreciseRat (toDouble fl l.value) = true
    · have hden : (toDouble fl l.value).den ≠ 1 := by
        intro h1
        have hint : toDouble fl l.value = ((toDouble fl l.value).num : Rat) := Rat.ext rfl h1
        have := hno _ (hd.symm.trans hint)
        have := precise_int hint hp
        omega
      refine ⟨"Invalid integer", ?_⟩
      rw [parseText, hnum]
      simp [hp, hden]
    · have hbig : isPreciseRat (toDouble fl l.value) = false := by simpa using hp
      have := parseLong_literal hfl l hv hbig
      rw [LongResult, if_neg] at this
      · rw [hlong hbig]; exact this
      · intro hpl
        obtain ⟨n, hn⟩ := byDigits_int ((byDigits_iff l).mpr hpl) hv
        exact hni n hn

/-- **C83, in part.** Decimal literals that denote an integer are read as that integer, if it is below `2^53`
in size or the literal is one of `ByDigits`. Missing: larger integers written with a plus sign, with a point
and no exponent, or with more digits after the point than the exponent (`C83_refuted`). -/
theorem C83_reads_partial (fl : Rat → Rat) (hfl : Rounding fl) (l : Literal) (hv : l.Valid) (n : Int)
    (hn : l.value = n) (h : n.natAbs < 2 ^ 53 ∨ ByDigits l) : GivesInt (parseText fl l.text) n := by
  obtain ⟨h1, h2, _⟩ := C83_exact fl hfl l hv
  by_cases hlt : n.natAbs < 2 ^ 53
  · exact h1 n hn hlt
  · exact h2 n hn (by omega) (h.resolve_left hlt)

/-- The decimal digits of an integer are a literal. -/
theorem numeral_literal (n : Int) : ∃ l : Literal, l.Valid ∧ l.text = intNumeral 10 n ∧ l.value = n ∧ ByDigits l := by
  obtain ⟨hne, l, hl, hpos⟩ := numeral_digits (base := 10) (by decide) (by decide) n.natAbs
  have hlt := hl.lt
  have hmap : l.map digit = numeral 10 n.natAbs := by
    clear hpos hne
    have hdec : ∀ d, d < 10 → ∀ c, digitValue c = some d → digit d = c := by
      intro d hd c hc
      have : ∀ k : Fin 128, ∀ d : Fin 10, digitValue (Char.ofNat k.val) = some d.val → digit d.val = Char.ofNat k.val := by
        decide +kernel
      by_cases hk : c.toNat < 128
      · have := this ⟨c.toNat, hk⟩ ⟨d, hd⟩
        simp only [Char.ofNat_toNat] at this
        exact this hc
      · rw [digitValue_none (by omega)] at hc; cases hc
    revert hl
    generalize numeral 10 n.natAbs = cs
    intro hl
    induction hl with
    | nil => rfl
    | cons hc hd _ ih => rw [List.map_cons, hdec _ hd _ hc, ih (fun d hd => hlt d (by simp [hd]))]
  have hl0 : l ≠ [] := by
    intro h
    rw [h] at hmap
    exact hne hmap.symm
  let lit : Literal := ⟨if n < 0 then .minus else .none, l, false, [], none⟩
  have hv : lit.Valid := ⟨hlt, by simp [lit], by simp [lit], by simp [lit, hl0], by simp [lit]⟩
  have ht : lit.text = intNumeral 10 n := by
    simp only [Literal.text, lit, intNumeral, ← hmap]
    split <;> simp [Sign.text]
  have hval : lit.value = n := by
    rw [value_nat lit (k := 0) rfl]
    simp only [lit, List.append_nil, hpos, Nat.pow_zero, Nat.mul_one]
    congr 1
    split
    · rw [if_pos rfl]; omega
    · rw [if_neg (by simp)]; omega
  exact ⟨lit, hv, ht, hval, by simp only [lit]; split <;> simp, rfl⟩

/-- **C83.** The decimal digits of every integer are read as that integer. -/
theorem C83_numerals (fl : Rat → Rat) (hfl : Rounding fl) (n : Int) : GivesInt (parseText fl (intNumeral 10 n)) n := by
  obtain ⟨lit, hv, ht, hval, hb⟩ := numeral_literal n
  rw [← ht]
  exact C83_reads_partial fl hfl lit hv n hval (.inr hb)

/-- `9007199254740993.0` -/
def longPoint : Literal := ⟨.none, [9,0,0,7,1,9,9,2,5,4,7,4,0,9,9,3], true, [0], none⟩

/-- **C83 fails** for integers from `2^53` on: `9007199254740993.0` denotes an integer, and is rejected. -/
theorem C83_refuted : ¬ ∀ fl, Rounding fl → ∀ l : Literal, l.Valid → ∀ n : Int, l.value = n →
    GivesInt (parseText fl l.text) n := by
  intro h
  obtain ⟨fl, hfl⟩ := rounding_exists
  have hv : longPoint.Valid := by decide
  have hval : longPoint.value = (9007199254740993 : Int) := by decide +kernel
  obtain ⟨b, h1, _⟩ := h fl hfl longPoint hv _ hval
  obtain ⟨msg, h2⟩ := (C83_exact fl hfl longPoint hv).2.2.1 _ hval (by decide) (by decide)
  rw [h2] at h1
  cases h1

/-- `0.99999999999999999999` -/
def nearOne : Literal := ⟨.none, [0], true, List.replicate 20 9, none⟩

/-- The double nearest to it is one, whatever the rounding. -/
theorem nearOne_rounds {fl : Rat → Rat} (hfl : Rounding fl) : fl nearOne.value = (1 : Int) := by
  have hval : nearOne.value = 99999999999999999999 / 100000000000000000000 := by decide +kernel
  rw [hval]
  have hr1 : -((2 : Rat) ^ 1023) ≤ 99999999999999999999 / 100000000000000000000 := by decide +kernel
  have hr2 : (99999999999999999999 / 100000000000000000000 : Rat) ≤ 2 ^ 1023 := by decide +kernel
  obtain ⟨⟨m, e, hm, he, hx⟩, hnear⟩ := hfl _ hr1 hr2
  have h1 : IsDouble 1 := ⟨1, 1074, by decide, by decide, by decide +kernel⟩
  have hdist := hnear 1 h1
  generalize hy : fl (99999999999999999999 / 100000000000000000000) = y at *
  have hd1 : ratDist 1 (99999999999999999999 / 100000000000000000000) = 1 / 100000000000000000000 := by decide +kernel
  rw [hd1] at hdist
  have hlo : (1 : Rat) - 2 / 100000000000000000000 ≤ y := by
    unfold ratDist at hdist
    split at hdist <;> grind
  have hhi : y ≤ 1 := by
    unfold ratDist at hdist
    split at hdist <;> grind
  have hP : (0 : Rat) < 2 ^ 1074 := by decide +kernel
  -- the integer `m * 2 ^ e` lies between two multiples of `2 ^ 1021`
  have hK : y * 2 ^ 1074 = ((m * 2 ^ e : Int) : Rat) := by
    rw [hx, Rat.intCast_mul, cast_pow]
    grind
  have hup : m * 2 ^ e ≤ 2 ^ 1074 := by
    rw [← Rat.intCast_le_intCast, ← hK, cast_pow]
    have := Rat.mul_le_mul_of_nonneg_right hhi (Rat.le_of_lt hP)
    rwa [Rat.one_mul] at this
  have hdown : (2 : Int) ^ 1074 - 2 ^ 1021 < m * 2 ^ e := by
    rw [← Rat.intCast_lt_intCast, ← hK, Rat.intCast_sub, cast_pow, cast_pow]
    have h2 : ((2 : Rat) ^ 1074 - 2 ^ 1021) < (1 - 2 / 100000000000000000000) * 2 ^ 1074 := by decide +kernel
    have h3 := Rat.mul_le_mul_of_nonneg_right hlo (Rat.le_of_lt hP)
    grind
  have he' : 1021 ≤ e := by
    refine Nat.le_of_not_lt fun hlt => ?_
    have hp : (2 : Int) ^ e ≤ 2 ^ 1020 := by
      have h3 := Nat.pow_le_pow_right (show 2 > 0 by decide) (show e ≤ 1020 by omega)
      exact_mod_cast h3
    have hp0 : (0 : Int) < 2 ^ e := Int.pow_pos (by decide)
    have h5 : m * 2 ^ e ≤ 2 ^ 53 * 2 ^ 1020 :=
      Int.mul_le_mul (by omega) hp (Int.le_of_lt hp0) (by decide)
    have h6 : (2 : Int) ^ 53 * 2 ^ 1020 < 2 ^ 1074 - 2 ^ 1021 := by decide +kernel
    omega
  have hfac : m * 2 ^ e = (m * 2 ^ (e - 1021)) * 2 ^ 1021 := by
    rw [Int.mul_assoc, ← Int.pow_add]
    rw [Nat.sub_add_cancel he']
  have hQ : (0 : Int) < 2 ^ 1021 := Int.pow_pos (by decide)
  have h53 : (2 : Int) ^ 1074 = 2 ^ 53 * 2 ^ 1021 := by rw [← Int.pow_add]
  rw [hfac, h53] at hup
  rw [hfac, h53] at hdown
  have hle : m * 2 ^ (e - 1021) ≤ 2 ^ 53 := Int.le_of_mul_le_mul_right hup hQ
  have hge : 2 ^ 53 - 1 < m * 2 ^ (e - 1021) := by
    refine Int.lt_of_mul_lt_mul_right ?_ (Int.le_of_lt hQ)
    rw [Int.sub_mul, Int.one_mul]
    exact hdown
  have heq : m * 2 ^ (e - 1021) = 2 ^ 53 := by omega
  rw [heq, ← h53] at hfac
  rw [hfac, cast_pow] at hK
  have : y = 1 := by grind
  rw [this]
  rfl

/-- **C83 fails** for fractions: `0.99999999999999999999` is no integer, and is read as 1. -/
theorem C83_fraction_refuted : ¬ ∀ fl, Rounding fl → ∀ l : Literal, l.Valid → (∀ n : Int, l.value ≠ n) →
    Throws (parseText fl l.text) := by
  intro h
  obtain ⟨fl, hfl⟩ := rounding_exists
  have hv : nearOne.Valid := by decide
  have hni : ∀ n : Int, nearOne.value ≠ n := by
    intro n hn
    have h1 : nearOne.value.den = 100000000000000000000 := by decide +kernel
    rw [hn] at h1
    simp at h1
  have hex := (C83_exact fl hfl nearOne hv).2.2.2 hni (by decide +kernel) (by decide +kernel)
  obtain ⟨b, h1, _⟩ := hex.1 1 (nearOne_rounds hfl) (by decide)
  obtain ⟨msg, h2⟩ := h fl hfl nearOne hv hni
  rw [h2] at h1
  cases h1

/-- **C83 fails** for texts that are no numbers: `1e` is read as an object that is written `1` but is not
equal to 1 (it is large in form), `12345e` as 45, and `e5` as an object without digits, which cannot be written (the code reads a digit out of
range and prints `undefined`). -/
theorem C83_objects (fl : Rat → Rat) (hfl : Rounding fl) :
    parseText fl "1e".toList = .ok (.big [1] false) ∧ (Big.big [1] false).toText = .ok "1".toList ∧
      (Big.big [1] false).equals (.ofSmall 1) = false ∧
    parseText fl "12345e".toList = .ok (.big [45] false) ∧
    parseText fl "e5".toList = .ok (.big [] false) ∧ (Big.big [] false).toText = .error .index := by
  refine ⟨rfl, rfl, by decide, rfl, ?_, rfl⟩
  have h5 : stringToNumber fl ['5'] = some ((5 : Int) : Rat) := by
    have h := stringToNumber_literal fl ⟨.none, [5], false, [], none⟩ (by decide)
    have hval : (⟨.none, [5], false, [], none⟩ : Literal).value = (5 : Int) := by decide +kernel
    rwa [hval, toDouble_small hfl (by decide)] at h
  show parseExponent fl [] ['5'] false = _
  rw [parseExponent, show dropPlus ['5'] = ['5'] from rfl, h5]
  rfl

/-- Literals that are read: `-12.5e1`, `1.5e30`. -/
example : (⟨.minus, [1,2], true, [5], some ⟨false, .none, [1]⟩⟩ : Literal).text = "-12.5e1".toList ∧
    (⟨.minus, [1,2], true, [5], some ⟨false, .none, [1]⟩⟩ : Literal).Valid ∧
    (⟨.minus, [1,2], true, [5], some ⟨false, .none, [1]⟩⟩ : Literal).value = (-125 : Int) := by decide +kernel

example : let l : Literal := ⟨.none, [1], true, [5], some ⟨true, .plus, [3, 0]⟩⟩
    l.text = "1.5E+30".toList ∧ l.Valid ∧ l.value = (1500000000000000000000000000000 : Int) ∧ ByDigits l := by
  decide +kernel

end Verif.Props
