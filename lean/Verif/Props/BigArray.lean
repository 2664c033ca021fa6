import Verif.Model.BigArray
import Verif.Spec.BigArray
import Verif.Props.BigNumber
import Verif.Lemmas.BigBase
/-!
# C117: big integers are made of their digits
-/
namespace Verif.Props
open Spec BigJs

theorem weigh_append (base : Int) (a b : List Int) :
    weigh base (a ++ b) = weigh base a * base ^ b.length + weigh base b := by
  induction a with
  | nil => simp [weigh]
  | cons d a ih =>
    rw [List.cons_append, weigh, weigh, ih, List.length_append, Int.pow_add]
    grind

theorem little_weigh (base : Int) (ds : List Int) : little base ds.reverse = weigh base ds := by
  have h : ∀ l, little base l = weigh base l.reverse := by
    intro l
    induction l with
    | nil => rfl
    | cons d l ih =>
      rw [List.reverse_cons, weigh_append, little, ih]
      simp [weigh]
      grind
  rw [h, List.reverse_reverse]

/-- A value stands for an integer: a number or a text that the library reads as it (C84, C83, C116), or an
object of the library whose value it is. -/
inductive StandsFor (fl : Rat → Rat) : BigArg → Int → Prop
  | num {x : JsNum} {text : List Char} {n : Int} : GivesInt (parseNumberValue fl x text) n →
      StandsFor fl (.num x text) n
  | str {text : List Char} {n : Int} : GivesInt (parseText fl text) n → StandsFor fl (.str text) n
  | big {b : Big} : b.Ok → StandsFor fl (.big b) b.toInt

theorem parseValue_ok {fl : Rat → Rat} {a : BigArg} {n : Int} (h : StandsFor fl a n) :
    ∃ b, parseValue fl a = .ok b ∧ b.Ok ∧ b.toInt = n := by
  cases h with
  | num h => obtain ⟨b, h1, h2, h3, _⟩ := h; exact ⟨b, h1, h2, h3⟩
  | str h => obtain ⟨b, h1, h2, h3, _⟩ := h; exact ⟨b, h1, h2, h3⟩
  | big h => exact ⟨_, rfl, h, rfl⟩

/-- A value that the library does not read as an integer. -/
inductive Unread (fl : Rat → Rat) : BigArg → Prop
  | num {x : JsNum} {text : List Char} : Throws (parseNumberValue fl x text) → Unread fl (.num x text)
  | str {text : List Char} : Throws (parseText fl text) → Unread fl (.str text)

theorem parseValue_throws {fl : Rat → Rat} {a : BigArg} (h : Unread fl a) : Throws (parseValue fl a) := by
  cases h with
  | num h => exact h
  | str h => exact h

/-- The values that JavaScript takes for false. -/
inductive TakenForFalse : BigArg → Prop
  | zero (text : List Char) : TakenForFalse (.num (.fin 0) text)
  | nan (text : List Char) : TakenForFalse (.num .nan text)
  | empty : TakenForFalse (.str [])

theorem truthy_false {a : BigArg} (h : TakenForFalse a) : a.truthy = false := by
  cases h <;> rfl

theorem truthy_true {a : BigArg} (h : ¬ TakenForFalse a) : a.truthy = true := by
  cases a with
  | num x text =>
    cases x with
    | fin q =>
      by_cases hq : q = 0
      · subst hq; exact absurd (.zero text) h
      · simp [BigArg.truthy, hq]
    | nan => exact absurd (.nan text) h
    | inf => rfl
  | str text =>
    cases text with
    | nil => exact absurd .empty h
    | cons => rfl
  | big => rfl

/-- The values stand for the integers, one by one. -/
inductive Stand (fl : Rat → Rat) : List BigArg → List Int → Prop
  | nil : Stand fl [] []
  | cons {a : BigArg} {n : Int} {as : List BigArg} {ns : List Int} :
      StandsFor fl a n → Stand fl as ns → Stand fl (a :: as) (n :: ns)

theorem parseValues_ok {fl : Rat → Rat} {as : List BigArg} {ns : List Int} (h : Stand fl as ns) :
    ∃ bs, parseValues fl as = .ok bs ∧ (∀ b ∈ bs, b.Ok) ∧ bs.map Big.toInt = ns := by
  induction h with
  | nil => exact ⟨[], rfl, by simp, rfl⟩
  | cons hg _ ih =>
    obtain ⟨b, h1, h2, h3⟩ := parseValue_ok hg
    obtain ⟨bs, k1, k2, k3⟩ := ih
    refine ⟨b :: bs, ?_, by simpa [h2] using k2, by simp [h3, k3]⟩
    rw [parseValues, h1]
    simp only [bind, Except.bind, k1]

theorem fromArray_ints {fl : Rat → Rat} {digits : List BigArg} {ns : List Int} (h : Stand fl digits ns)
    {base : Option BigArg} {b : Int} (hb : StandsFor fl (baseOrTen base) b) (neg : Bool) :
    GivesInt (fromArray fl digits base neg) (if neg then -weigh b ns else weigh b ns) := by
  obtain ⟨bs, k1, k2, k3⟩ := parseValues_ok h
  obtain ⟨c, c1, c2, c3⟩ := parseValue_ok hb
  obtain ⟨r, h1, h2, h3⟩ := fromAnyLoop_ok c2 bs.reverse (fun b hb => k2 b (by simpa using hb))
    (v := .ofSmall 0) (pow := .ofSmall 1) (ofSmall_ok (by decide) (by decide)) (ofSmall_ok (by decide) (by decide))
  rw [List.map_reverse, k3, c3, little_weigh] at h3
  have hv : r.toInt = weigh b ns := by rw [h3]; simp [toInt_ofSmall]
  rw [fromArray, k1]
  simp only [bind, Except.bind, c1, parseBaseFromArray, h1]
  cases neg with
  | false => exact givesInt_of rfl h2 (by simp [hv])
  | true =>
    obtain ⟨n1, n2⟩ := negate_ok h2
    exact givesInt_of (b := r.negate) rfl n1 (by rw [n2, hv]; rfl)

theorem ten_ok (fl : Rat → Rat) : StandsFor fl (.num (.fin 10) "10".toList) 10 :=
  .num (givesInt_of (b := .ofSmall 10) rfl (ofSmall_ok (by decide) (by decide)) rfl)

/-- **C117** (partial: missing are bases that JavaScript takes for false, see `C117_refuted`). For digits and a base that stand for
any integers, given as numbers, texts or big integers, `fromArray` gives the sum of the digits times the
powers of the base, or what is opposite to it; without a base, the base is ten. -/
theorem C117_digits_partial (fl : Rat → Rat) (digits : List BigArg) (ns : List Int) (h : Stand fl digits ns)
    (neg : Bool) :
    GivesInt (fromArray fl digits none neg) (if neg then -weigh 10 ns else weigh 10 ns) ∧
    ∀ (base : BigArg) (b : Int), ¬ TakenForFalse base → StandsFor fl base b →
      GivesInt (fromArray fl digits (some base) neg) (if neg then -weigh b ns else weigh b ns) := by
  refine ⟨fromArray_ints (base := none) h (ten_ok fl) neg, fun base b ht hb => fromArray_ints h ?_ neg⟩
  rw [baseOrTen, if_pos (truthy_true ht)]
  exact hb

/-- **C117, exactly.** A base that JavaScript takes for false (the number zero, `NaN`, the empty text) is taken for
ten; every other base that stands for an integer is taken as it is. If a digit or the base is rejected, so is
the whole. -/
theorem C117_exact (fl : Rat → Rat) (digits : List BigArg) (base : BigArg) (neg : Bool) :
    (∀ ns, Stand fl digits ns → TakenForFalse base →
      GivesInt (fromArray fl digits (some base) neg) (if neg then -weigh 10 ns else weigh 10 ns)) ∧
    (∀ ns, Stand fl digits ns → ¬ TakenForFalse base → Unread fl base →
      Throws (fromArray fl digits (some base) neg)) ∧
    (∀ pre bad post ns, digits = pre ++ bad :: post → Stand fl pre ns → Unread fl bad →
      Throws (fromArray fl digits (some base) neg)) := by
  refine ⟨fun ns h hf => ?_, ?_, ?_⟩
  · apply fromArray_ints h
    rw [baseOrTen, if_neg (by simp [truthy_false hf])]
    exact ten_ok fl
  · intro ns h ht hu
    obtain ⟨msg, hm⟩ := parseValue_throws hu
    obtain ⟨bs, k1, _, _⟩ := parseValues_ok h
    refine ⟨msg, ?_⟩
    rw [fromArray, k1, baseOrTen, if_pos (truthy_true ht)]
    simp only [bind, Except.bind, hm]
  · rintro pre bad post ns rfl h hu
    obtain ⟨msg, hm⟩ := parseValue_throws hu
    refine ⟨msg, ?_⟩
    have : parseValues fl (pre ++ bad :: post) = .error (.expect msg) := by
      induction h with
      | nil =>
        rw [List.nil_append, parseValues, hm]
        rfl
      | cons hg _ ih =>
        obtain ⟨b, h1, _⟩ := parseValue_ok hg
        rw [List.cons_append, parseValues, h1]
        simp only [bind, Except.bind, ih]
    rw [fromArray, this]
    rfl

theorem weigh_digits {base : Nat} (hb : 2 ≤ base) : ∀ (fuel n : Nat), n < fuel →
    weigh base (digitsTo base fuel n) = n ∧ ∀ d ∈ digitsTo base fuel n, 0 ≤ d ∧ d < base := by
  intro fuel
  induction fuel with
  | zero => intro n h; omega
  | succ fuel ih =>
    intro n h
    rw [digitsTo]
    by_cases h0 : n = 0
    · rw [if_pos h0, h0]; exact ⟨rfl, by simp⟩
    · rw [if_neg h0]
      have hlt : n / base < n := Nat.div_lt_self (by omega) (by omega)
      obtain ⟨h1, h2⟩ := ih (n / base) (by omega)
      constructor
      · rw [weigh_append, h1]
        simp only [weigh, List.length_cons, List.length_nil, Nat.zero_add, Int.pow_one, Int.pow_zero, Int.mul_one,
          Int.add_zero]
        have := Nat.div_add_mod n base
        rw [← Int.natCast_mul, ← Int.natCast_add, Nat.mul_comm]
        exact_mod_cast this
      · intro d hd
        rcases List.mem_append.1 hd with hd | hd
        · exact h2 d hd
        · rw [List.mem_singleton] at hd
          subst hd
          have := Nat.mod_lt n (show 0 < base by omega)
          omega

/-- A small integer as a number. -/
def numberArg (text : Int → List Char) (n : Int) : BigArg := .num (.fin n) (text n)

theorem number_ok (fl : Rat → Rat) (text : Int → List Char) {n : Int} (h : n.natAbs < 2 ^ 53) :
    StandsFor fl (numberArg text n) n := by
  have hM : (MAX_INT : Int) = 9007199254740992 := rfl
  refine .num (givesInt_of (b := .ofSmall n) ?_ (ofSmall_ok (by omega) (by omega)) rfl)
  simp only [parseNumberValue, parseNumber]
  rw [isPreciseRat_int, decide_eq_true h, if_pos rfl]
  simp

/-- **C117.** `fromArray` of the digits of an integer, given as numbers, is that integer, for every integer and
every base from 2 to `2^53`. -/
theorem C117_roundtrip (fl : Rat → Rat) (text : Int → List Char) (base : Nat) (hb : 2 ≤ base)
    (hb' : base < 2 ^ 53) (n : Int) :
    GivesInt (fromArray fl ((digitsTo base (n.natAbs + 1) n.natAbs).map (numberArg text))
      (some (numberArg text base)) (decide (n < 0))) n := by
  obtain ⟨h1, h2⟩ := weigh_digits hb (n.natAbs + 1) n.natAbs (by omega)
  have hst : ∀ ds : List Int, (∀ d ∈ ds, 0 ≤ d ∧ d < base) → Stand fl (ds.map (numberArg text)) ds := by
    intro ds
    induction ds with
    | nil => intro _; exact .nil
    | cons d ds ih =>
      intro h
      have := h d (by simp)
      exact .cons (number_ok fl text (by omega)) (ih fun d hd => h d (by simp [hd]))
  have := (C117_digits_partial fl _ _ (hst _ h2) (decide (n < 0))).2 (numberArg text base) base
    (by
      intro h
      have h := truthy_false h
      simp only [numberArg, BigArg.truthy, bne_eq_false_iff_eq] at h
      have : ((base : Int) : Rat) = ((0 : Int) : Rat) := h
      rw [Rat.intCast_inj] at this
      omega)
    (number_ok fl text (by omega))
  rw [h1] at this
  have he : (if decide (n < 0) = true then -((n.natAbs : Nat) : Int) else (n.natAbs : Nat)) = n := by
    by_cases hn : n < 0
    · rw [if_pos (by simpa using hn)]; omega
    · rw [if_neg (by simpa using hn)]; omega
  rw [he] at this
  exact this

/-- **C117 fails** for the base zero as a number: `fromArray([1, 2], 0)` is 12, and not 2. -/
theorem C117_refuted (fl : Rat → Rat) (text : Int → List Char) :
    Stand fl [numberArg text 1, numberArg text 2] [1, 2] ∧ StandsFor fl (numberArg text 0) 0 ∧
    weigh 0 [1, 2] = 2 ∧
    GivesInt (fromArray fl [numberArg text 1, numberArg text 2] (some (numberArg text 0)) false) 12 ∧
    GivesInt (fromArray fl [numberArg text 1, numberArg text 2] (some (.big (.ofSmall 0))) false) 2 := by
  have hst : Stand fl [numberArg text 1, numberArg text 2] [1, 2] :=
    .cons (number_ok fl text (by decide)) (.cons (number_ok fl text (by decide)) .nil)
  refine ⟨hst, number_ok fl text (by decide), by decide, ?_, ?_⟩
  · exact (C117_exact fl _ (numberArg text 0) false).1 _ hst (.zero _)
  · exact (C117_digits_partial fl _ _ hst false).2 (.big (.ofSmall 0)) 0 nofun
      (.big (b := .ofSmall 0) (ofSmall_ok (by decide) (by decide)))

/-- The hypotheses are met by digits of all three kinds, and by digits that are negative or larger than the
base. -/
example (fl : Rat → Rat) (hfl : Rounding fl) (text : Int → List Char) :
    Stand fl [numberArg text (-3), .str (intNumeral 10 1234567890123456789), .big (.ofSmall (-7))]
      [-3, 1234567890123456789, -7] ∧ weigh 10 [-3, 1234567890123456789, -7] = 12345678901234567583 :=
  ⟨.cons (number_ok fl text (by decide)) (.cons (.str (C83_numerals fl hfl _))
    (.cons (.big (b := .ofSmall (-7)) (ofSmall_ok (by decide) (by decide))) .nil)), by decide⟩

end Verif.Props
