import Verif.Lemmas.BigBase
import Verif.Props.BigMath
/-! C101: writing big integers to any base and reading them back. -/
namespace Verif.Props
open BigJs Spec

/-- The sign in front of the digits: only to a positive base. -/
def signOf (base n : Int) : List Char := if n < 0 ∧ 0 < base then ['-'] else []

/-- Digits to a base are unique, also if the base is negative. So what is said of the digits that are written
says which text it is. -/
theorem digits_unique {base n : Int} {a b : List Nat} (ha : AreDigits base n a) (hb : AreDigits base n b) : a = b := by
  obtain ⟨a1, a2, a3, a4⟩ := ha
  obtain ⟨b1, b2, b3, b4⟩ := hb
  by_cases za : a.head? = some 0
  · rw [a3 za] at a4 ⊢
    by_cases zb : b.head? = some 0
    · exact (b3 zb).symm
    · cases b with
      | nil => exact absurd rfl b1
      | cons x b =>
        exact absurd (denotes_zero _ b2 (by rw [b4, ← a4]; simp [denotes]) x (by simp)) (by simpa using zb)
  · by_cases zb : b.head? = some 0
    · rw [b3 zb] at b4
      cases a with
      | nil => exact absurd rfl a1
      | cons x a =>
        exact absurd (denotes_zero _ a2 (by rw [a4, ← b4]; simp [denotes]) x (by simp)) (by simpa using za)
    · exact digits_unique_aux a b a2 b2 za zb (by rw [a4, b4])

theorem toAnyBase_any {fl : Rat → Rat} (hfl : Rounding fl) {x base : Big} (hx : x.Ok) (hb : base.Ok)
    (h2 : 2 ≤ base.toInt.natAbs) :
    ∃ ds, x.toAnyBase fl base = .ok (signOf base.toInt x.toInt ++ (ds.map placeAny).flatten) ∧
      AreDigits base.toInt (if 0 < base.toInt then (x.toInt.natAbs : Int) else x.toInt) ds := by
  have hm1 : (Big.ofSmall (-1)).Ok := ofSmall_ok (by decide) (by decide)
  have h1 : (Big.ofSmall 1).Ok := ofSmall_ok (by decide) (by decide)
  have e1 : base.isZero = false := by rw [isZero_eq hb]; exact decide_eq_false (by omega)
  have e2 : base.equals (.ofSmall (-1)) = false := by
    rw [equals_eq hb hm1, toInt_ofSmall]; exact decide_eq_false (by omega)
  have e3 : base.equals (.ofSmall 1) = false := by
    rw [equals_eq hb h1, toInt_ofSmall]; exact decide_eq_false (by omega)
  have e4 : (x.isNegative && base.isPositive) = decide (x.toInt < 0 ∧ 0 < base.toInt) := by
    rw [isNegative_eq hx, isPositive_eq hb, Bool.decide_and]
  rw [Big.toAnyBase]
  dsimp only
  rw [e1, e2, e3, e4, if_neg (by simp), if_neg (by simp), if_neg (by simp), signOf]
  by_cases hs : x.toInt < 0 ∧ 0 < base.toInt
  · rw [decide_eq_true hs, if_pos rfl, if_pos rfl, if_pos hs, if_pos hs.2]
    obtain ⟨a1, a2⟩ := abs_ok hx
    obtain ⟨ds, d1, d2⟩ := anyBaseLoop_any hfl hb h2 (2 * x.abs.magnitude + 2) a1 (by omega)
      (by rw [magnitude_eq, if_neg (by omega)]; omega)
    rw [d1, a2] at *
    exact ⟨ds.reverse, by rw [List.map_reverse]; rfl, d2⟩
  · rw [decide_eq_false hs, if_neg (by simp), if_neg (by simp), if_neg hs]
    obtain ⟨ds, d1, d2⟩ := anyBaseLoop_any hfl hb h2 (2 * x.magnitude + 2) hx (by omega)
      (by rw [magnitude_eq]; split <;> omega)
    rw [d1]
    refine ⟨ds.reverse, by rw [List.map_reverse]; rfl, ?_⟩
    have : (if 0 < base.toInt then (x.toInt.natAbs : Int) else x.toInt) = x.toInt := by split <;> omega
    rw [this]
    exact d2

theorem toAnyBase_ok {fl : Rat → Rat} (hfl : Rounding fl) {x base : Big} (hx : x.Ok) (hb : base.Ok)
    (h2 : 2 ≤ base.toInt.natAbs) (h3 : base.toInt.natAbs ≤ 2 ^ 53) :
    ∃ ds, x.toAnyBase fl base = .ok (signOf base.toInt x.toInt ++ (ds.map place).flatten) ∧
      AreDigits base.toInt (if 0 < base.toInt then (x.toInt.natAbs : Int) else x.toInt) ds := by
  obtain ⟨ds, d1, d2⟩ := toAnyBase_any hfl hx hb h2
  have : ds.map placeAny = ds.map place := List.map_congr_left fun d hd => by
    have := d2.2.1 d hd
    rw [placeAny, if_pos (by omega)]
  rw [this] at d1
  exact ⟨ds, d1, d2⟩

theorem bigOfAny_ok {fl : Rat → Rat} (hfl : Rounding fl) {base : Big} (hb : base.Ok) (ds : List Nat)
    (hd : ∀ d ∈ ds, d < base.toInt.natAbs ∨ (d = 1 ∧ base.toInt.natAbs = 1)) (neg : Bool) :
    GivesInt (bigOfAnyText fl ((if neg then ['-'] else []) ++ (ds.map place).flatten) base)
      (if neg then -denotes base.toInt ds else denotes base.toInt ds) := by
  have hbind : ∀ {α β : Type} (a : α) (f : α → R β), (Except.ok a >>= f) = f a := fun _ _ => rfl
  have fin : ∀ {r : R Big} {n : Int}, (∃ b, r = .ok b ∧ b.Ok ∧ b.toInt = n) → GivesInt r n := by
    rintro r n ⟨b, h1, h2, h3⟩
    exact ⟨b, h1, h2, h3, by rw [toText_ok h2, h3]⟩
  apply fin
  rw [bigOfAnyText, magnitude_eq]
  have hc := check_places (n := base.toInt.natAbs) ds hd
  cases neg with
  | true =>
    have h1 : checkAnyDigits base.toInt.natAbs ['-'] = .ok () := rfl
    rw [if_pos rfl, checkAny_append h1, hc, hbind]
    dsimp only
    obtain ⟨bs, c1, c2, c3⟩ := collectAny_ok hfl ds (fuel := (['-'] ++ (ds.map place).flatten).length) (by simp)
    have hh : (['-'] ++ (ds.map place).flatten).head? = some '-' := by simp
    rw [if_pos hh, decide_eq_true hh,
      show (['-'] ++ (ds.map place).flatten).drop 1 = (ds.map place).flatten from rfl, c1, hbind]
    obtain ⟨r, r1, r2, r3⟩ := fromAny_ok hb bs c2 ds c3 true
    exact ⟨r, r1, r2, r3⟩
  | false =>
    rw [if_neg (by simp), List.nil_append, hc, hbind]
    dsimp only
    obtain ⟨bs, c1, c2, c3⟩ := collectAny_ok hfl ds (fuel := (ds.map place).flatten.length) (Nat.le_refl _)
    have hh : ¬ (ds.map place).flatten.head? = some '-' := by
      intro h
      cases ds with
      | nil => cases h
      | cons d ds => exact place_head d _ (by simpa using h)
    rw [if_neg hh, decide_eq_false hh, c1, hbind]
    obtain ⟨r, r1, r2, r3⟩ := fromAny_ok hb bs c2 ds c3 false
    exact ⟨r, r1, r2, r3⟩

/-- **C101, what is written.** Every integer is written to every base from 2 to `2^53` and from -2 to `-2^53`
with the digits that it has to that base: digits from 36 on are decimal numbers in angle brackets, and to a
positive base the digits of a negative integer follow a minus sign. -/
theorem C101_writes (fl : Rat → Rat) (hfl : Rounding fl) (e f : Expr) (n base : Int) (he : e.value actual = some n)
    (hf : f.value actual = some base) (h2 : 2 ≤ base.natAbs) (h3 : base.natAbs ≤ 2 ^ 53) :
    ∃ x b ds, runExpr fl e = .ok x ∧ runExpr fl f = .ok b ∧
      x.toAnyBase fl b = .ok (signOf base n ++ (ds.map place).flatten) ∧
      AreDigits base (if 0 < base then (n.natAbs : Int) else n) ds := by
  have h := runExpr_ok hfl e
  have k := runExpr_ok hfl f
  rw [he] at h
  rw [hf] at k
  obtain ⟨x, x1, x2, rfl⟩ := h
  obtain ⟨b, b1, b2, rfl⟩ := k
  obtain ⟨ds, d1, d2⟩ := toAnyBase_ok hfl x2 b2 h2 h3
  exact ⟨x, b, ds, x1, b1, d1, d2⟩

/-- **C101, what is read.** To every base but 0 and those from 2 to 36 (for which see C82), every text of
digits below the absolute value of the base, with a minus sign or not, is read as the integer that it denotes;
to base 1 and to base -1 the digits are 0 and 1. -/
theorem C101_reads (fl : Rat → Rat) (hfl : Rounding fl) (f : Expr) (base : Int) (hf : f.value actual = some base)
    (ds : List Nat) (hd : ∀ d ∈ ds, d < base.natAbs ∨ (d = 1 ∧ base.natAbs = 1)) (neg : Bool) :
    ∃ b, runExpr fl f = .ok b ∧
      GivesInt (bigOfAnyText fl ((if neg then ['-'] else []) ++ (ds.map place).flatten) b)
        (if neg then -denotes base ds else denotes base ds) := by
  have k := runExpr_ok hfl f
  rw [hf] at k
  obtain ⟨b, b1, b2, rfl⟩ := k
  exact ⟨b, b1, bigOfAny_ok hfl b2 ds hd neg⟩

/-- **C101, in part.** What is written to a base from 37 to `2^53`, or to a negative base from `-2^53` to -2,
is read back to the same base as the same integer. Missing: to larger bases it is not (`C101_refuted`); for
bases 1 and -1 see `C101_unary`. Base 0 has no digits at all. -/
theorem C101_roundtrip_partial (fl : Rat → Rat) (hfl : Rounding fl) (e f : Expr) (n base : Int)
    (he : e.value actual = some n) (hf : f.value actual = some base) (h2 : 36 < base ∨ base ≤ -2)
    (h3 : base.natAbs ≤ 2 ^ 53) :
    ∃ x b text, runExpr fl e = .ok x ∧ runExpr fl f = .ok b ∧ x.toAnyBase fl b = .ok text ∧
      GivesInt (bigOfAnyText fl text b) n := by
  have h := runExpr_ok hfl e
  have k := runExpr_ok hfl f
  rw [he] at h
  rw [hf] at k
  obtain ⟨x, x1, x2, rfl⟩ := h
  obtain ⟨b, b1, b2, rfl⟩ := k
  obtain ⟨ds, d1, _, d2, _, d3⟩ := toAnyBase_ok hfl x2 b2 (by omega) h3
  refine ⟨x, b, _, x1, b1, d1, ?_⟩
  have hr := bigOfAny_ok hfl b2 ds (fun d hd => .inl (d2 d hd)) (decide (x.toInt < 0 ∧ 0 < b.toInt))
  have hs : signOf b.toInt x.toInt = if decide (x.toInt < 0 ∧ 0 < b.toInt) = true then ['-'] else [] := by
    simp [signOf]
  rw [hs]
  have hv : (if decide (x.toInt < 0 ∧ 0 < b.toInt) = true then -denotes b.toInt ds else denotes b.toInt ds) = x.toInt := by
    rw [d3]
    by_cases hp : x.toInt < 0 ∧ 0 < b.toInt
    · rw [if_pos (decide_eq_true hp), if_pos hp.2]; omega
    · rw [if_neg (by simpa using hp)]
      split <;> omega
  rw [hv] at hr
  exact hr

theorem bigOfAny_bad {fl : Rat → Rat} (hfl : Rounding fl) {base : Big} (ds : List Nat)
    (hd : ∀ d ∈ ds, d < base.toInt.natAbs) (he : ∃ d ∈ ds, 2 ^ 53 ≤ d) (neg : Bool) :
    Throws (bigOfAnyText fl ((if neg then ['-'] else []) ++ (ds.map placeAny).flatten) base) := by
  have hbind : ∀ {α β : Type} (a : α) (f : α → R β), (Except.ok a >>= f) = f a := fun _ _ => rfl
  refine ⟨"Invalid integer", ?_⟩
  have hn : 10 ≤ base.toInt.natAbs := by
    obtain ⟨d, h1, h2⟩ := he
    have := hd d h1
    omega
  rw [bigOfAnyText, magnitude_eq]
  have hc := check_placesAny hn ds hd
  cases neg with
  | true =>
    have h1 : checkAnyDigits base.toInt.natAbs ['-'] = .ok () := rfl
    rw [if_pos rfl, checkAny_append h1, hc, hbind]
    dsimp only
    have hh : (['-'] ++ (ds.map placeAny).flatten).head? = some '-' := by simp
    rw [if_pos hh, show (['-'] ++ (ds.map placeAny).flatten).drop 1 = (ds.map placeAny).flatten from rfl,
      collectAny_bad hfl ds (by simp) he]
    rfl
  | false =>
    rw [if_neg (by simp), List.nil_append, hc, hbind]
    dsimp only
    have hh : ¬ (ds.map placeAny).flatten.head? = some '-' := by
      intro h
      cases ds with
      | nil => cases h
      | cons d ds =>
        rw [List.map_cons, List.flatten_cons, placeAny] at h
        by_cases h53 : d < 2 ^ 53
        · rw [if_pos h53] at h
          exact place_head d _ h
        · rw [if_neg h53] at h
          simp at h
    rw [if_neg hh, collectAny_bad hfl ds (Nat.le_refl _) he]
    rfl

/-- **C101, exactly,** for all bases but those from -1 to 36. The integer is written with its digits to the base:
those below `2^53` as they should be, larger ones as arrays. If there are only such below, the text is read back as
the integer; otherwise it is rejected. -/
theorem C101_exact (fl : Rat → Rat) (hfl : Rounding fl) (e f : Expr) (n base : Int)
    (he : e.value actual = some n) (hf : f.value actual = some base) (h2 : 36 < base ∨ base ≤ -2) :
    ∃ x b ds text, runExpr fl e = .ok x ∧ runExpr fl f = .ok b ∧ x.toAnyBase fl b = .ok text ∧
      text = signOf base n ++ (ds.map placeAny).flatten ∧
      AreDigits base (if 0 < base then (n.natAbs : Int) else n) ds ∧
      ((∀ d ∈ ds, d < 2 ^ 53) → GivesInt (bigOfAnyText fl text b) n) ∧
      ((∃ d ∈ ds, 2 ^ 53 ≤ d) → Throws (bigOfAnyText fl text b)) := by
  have h := runExpr_ok hfl e
  have k := runExpr_ok hfl f
  rw [he] at h
  rw [hf] at k
  obtain ⟨x, x1, x2, rfl⟩ := h
  obtain ⟨b, b1, b2, rfl⟩ := k
  obtain ⟨ds, d1, hd⟩ := toAnyBase_any hfl x2 b2 (by omega)
  obtain ⟨_, d2, _, d3⟩ := id hd
  have hs : signOf b.toInt x.toInt = if decide (x.toInt < 0 ∧ 0 < b.toInt) = true then ['-'] else [] := by
    simp [signOf]
  refine ⟨x, b, ds, _, x1, b1, d1, rfl, hd, fun hsmall => ?_, fun hbig => ?_⟩
  · have hmap : ds.map placeAny = ds.map place := List.map_congr_left fun d hd => by
      rw [placeAny, if_pos (hsmall d hd)]
    rw [hmap]
    have hr := bigOfAny_ok hfl b2 ds (fun d hd => .inl (d2 d hd)) (decide (x.toInt < 0 ∧ 0 < b.toInt))
    rw [hs]
    have hv : (if decide (x.toInt < 0 ∧ 0 < b.toInt) = true then -denotes b.toInt ds else denotes b.toInt ds) =
        x.toInt := by
      rw [d3]
      by_cases hp : x.toInt < 0 ∧ 0 < b.toInt
      · rw [if_pos (decide_eq_true hp), if_pos hp.2]; omega
      · rw [if_neg (by simpa using hp)]
        split <;> omega
    rw [hv] at hr
    exact hr
  · rw [hs]
    exact bigOfAny_bad hfl ds d2 hbig _

/-- To base `2^60` the number `2^53 * 2^60 + 5` has a digit that is written as an array, and `7 * 2^60 + 5` has none. -/
example : AreDigits (2 ^ 60) (2 ^ 113 + 5) [2 ^ 53, 5] ∧ placeAny (2 ^ 53) = "<4740992,719925,90>".toList ∧
    AreDigits (2 ^ 60) (7 * 2 ^ 60 + 5) [7, 5] := by
  refine ⟨⟨by decide, by decide, by decide, by decide⟩, ?_, ⟨by decide, by decide, by decide, by decide⟩⟩
  decide +kernel

theorem denotes_ones (k : Nat) : denotes 1 (List.replicate k 1) = k := by
  induction k with
  | zero => rfl
  | succ k ih => rw [List.replicate_succ, denotes, ih, Int.one_pow]; push_cast; omega

theorem neg_one_even (k : Nat) : (-1 : Int) ^ (2 * k) = 1 := by
  induction k with
  | zero => rfl
  | succ k ih => rw [Nat.mul_succ, Int.pow_add, ih]; rfl

theorem pairs_length (a b k : Nat) : ((List.replicate k [a, b]).flatten).length = 2 * k := by
  induction k with
  | zero => rfl
  | succ k ih => rw [List.replicate_succ, List.flatten_cons, List.length_append, ih]; simp; omega

theorem denotes_pairs (a b k : Nat) : denotes (-1) (List.replicate k [a, b]).flatten = k * ((b : Int) - a) := by
  induction k with
  | zero => simp [denotes]
  | succ k ih =>
    rw [List.replicate_succ, List.flatten_cons]
    rw [show [a, b] ++ (List.replicate k [a, b]).flatten = a :: b :: (List.replicate k [a, b]).flatten from rfl,
      denotes, denotes, ih, List.length_cons, pairs_length, Int.pow_succ, neg_one_even]
    push_cast
    grind

theorem places_pairs (a b : Nat) (ha : a < 36) (hb : b < 36) (k : Nat) :
    (List.replicate k [digit a, digit b]).flatten = (((List.replicate k [a, b]).flatten).map place).flatten := by
  induction k with
  | zero => rfl
  | succ k ih =>
    rw [List.replicate_succ, List.flatten_cons, ih, List.replicate_succ, List.flatten_cons, List.map_append,
      List.flatten_append]
    simp [place, ha, hb]

theorem places_ones (k : Nat) : (List.replicate k ['1']).flatten = ((List.replicate k 1).map place).flatten := by
  rw [List.map_replicate]; rfl

/-- **C101, bases 1 and -1.** To base 1 an integer is written with as many ones as its absolute value; to base
-1 with pairs of digits. The text is read back as the integer. From about `2^32` on there is no text, and an
error is thrown. -/
theorem C101_unary (fl : Rat → Rat) (hfl : Rounding fl) (e f : Expr) (n base : Int) (he : e.value actual = some n)
    (hf : f.value actual = some base) (hb : base = 1 ∨ base = -1) :
    ∃ x b, runExpr fl e = .ok x ∧ runExpr fl f = .ok b ∧
      if n.natAbs + 1 < 2 ^ 32 ∨ (base = -1 ∧ n + 1 = 2 ^ 32) then
        ∃ ds, x.toAnyBase fl b = .ok (signOf base n ++ (ds.map place).flatten) ∧
          (∀ d ∈ ds, d ≤ 1) ∧ denotes base ds = (if 0 < base then (n.natAbs : Int) else n) ∧
          GivesInt (bigOfAnyText fl (signOf base n ++ (ds.map place).flatten) b) n
      else ∃ msg, x.toAnyBase fl b = .error (.expect msg) := by
  have hbind : ∀ {α β : Type} (a : α) (f : α → R β), (Except.ok a >>= f) = f a := fun _ _ => rfl
  have hM : (MAX_INT : Int) = 9007199254740992 := rfl
  have h := runExpr_ok hfl e
  have k := runExpr_ok hfl f
  rw [he] at h
  rw [hf] at k
  obtain ⟨x, x1, x2, rfl⟩ := h
  obtain ⟨b, b1, b2, rfl⟩ := k
  refine ⟨x, b, x1, b1, ?_⟩
  have hm1 : (Big.ofSmall (-1)).Ok := ofSmall_ok (by decide) (by decide)
  have h1 : (Big.ofSmall 1).Ok := ofSmall_ok (by decide) (by decide)
  have fin : ∀ ds : List Nat, (∀ d ∈ ds, d ≤ 1) →
      x.toAnyBase fl b = .ok (signOf b.toInt x.toInt ++ (ds.map place).flatten) →
      denotes b.toInt ds = (if 0 < b.toInt then (x.toInt.natAbs : Int) else x.toInt) →
      ∃ ds, x.toAnyBase fl b = .ok (signOf b.toInt x.toInt ++ (ds.map place).flatten) ∧
          (∀ d ∈ ds, d ≤ 1) ∧ denotes b.toInt ds = (if 0 < b.toInt then (x.toInt.natAbs : Int) else x.toInt) ∧
          GivesInt (bigOfAnyText fl (signOf b.toInt x.toInt ++ (ds.map place).flatten) b) x.toInt := by
    intro ds hd ht hv
    refine ⟨ds, ht, hd, hv, ?_⟩
    have hr := bigOfAny_ok hfl b2 ds (fun d h => by have := hd d h; omega) (decide (x.toInt < 0 ∧ 0 < b.toInt))
    have hs : signOf b.toInt x.toInt = if decide (x.toInt < 0 ∧ 0 < b.toInt) = true then ['-'] else [] := by
      simp [signOf]
    rw [hs]
    have hw : (if decide (x.toInt < 0 ∧ 0 < b.toInt) = true then -denotes b.toInt ds else denotes b.toInt ds) = x.toInt := by
      rw [hv]
      by_cases hp : x.toInt < 0 ∧ 0 < b.toInt
      · rw [if_pos (decide_eq_true hp), if_pos hp.2]; omega
      · rw [if_neg (by simpa using hp)]
        split <;> omega
    rw [hw] at hr
    exact hr
  have e1 : b.isZero = false := by rw [isZero_eq b2]; exact decide_eq_false (by omega)
  have e2 : b.equals (.ofSmall (-1)) = decide (b.toInt = -1) := by rw [equals_eq b2 hm1, toInt_ofSmall]
  have e3 : b.equals (.ofSmall 1) = decide (b.toInt = 1) := by rw [equals_eq b2 h1, toInt_ofSmall]
  have e4 : (x.isNegative && b.isPositive) = decide (x.toInt < 0 ∧ 0 < b.toInt) := by
    rw [isNegative_eq x2, isPositive_eq b2, Bool.decide_and]
  have joinOk : ∀ {y : Big} {g : Int → Int} {s : List Char}, y.Ok → y.toInt.natAbs < 2 ^ 53 → 0 ≤ g y.toInt → g y.toInt < 2 ^ 32 →
      y.arrayJoin g s = .ok ((List.replicate ((g y.toInt).toNat - 1) s).flatten) := by
    intro y g s hy hlt h0 h1
    obtain ⟨v, t, rfl⟩ := small_of hy hlt
    rw [Big.arrayJoin, BigJs.arrayJoin, if_pos ⟨h0, h1⟩]
    rfl
  have joinErr : ∀ {y : Big} {g : Int → Int} {s : List Char}, ¬ g y.toInt < 2 ^ 32 →
      y.arrayJoin g s = .error (.expect "Invalid array length") := by
    intro y g s h
    cases y with
    | small v t => rw [Big.arrayJoin, BigJs.arrayJoin, if_neg (fun hc => h hc.2)]
    | big v t => rfl
  have hx := Eq.refl (x.toAnyBase fl b)
  conv at hx =>
    rhs
    unfold Big.toAnyBase
  dsimp only at hx
  rw [e1, e2, e3, e4, if_neg (by simp), isZero_eq x2, isNegative_eq x2] at hx
  rcases hb with hb | hb
  · rw [decide_eq_false (show ¬ b.toInt = -1 by omega), if_neg (by simp), decide_eq_true hb, if_pos rfl] at hx
    by_cases hz : x.toInt = 0
    · rw [if_pos (by omega)]
      refine fin [0] (by simp) ?_ (by simp [denotes, hz])
      have hs : ¬ (x.toInt < 0 ∧ 0 < b.toInt) := by omega
      have hy : (if decide (x.toInt < 0 ∧ 0 < b.toInt) = true then x.abs else x) = x := if_neg (by simpa using hs)
      rw [hx, hy, isZero_eq x2, decide_eq_true hz, if_pos rfl, signOf, if_neg hs]
      rfl
    · have hy : ∃ y : Big, y.Ok ∧ y.toInt = x.toInt.natAbs ∧
          (if decide (x.toInt < 0 ∧ 0 < b.toInt) = true then x.abs else x) = y := by
        by_cases hn : x.toInt < 0 ∧ 0 < b.toInt
        · rw [if_pos (decide_eq_true hn)]
          exact ⟨_, (abs_ok x2).1, (abs_ok x2).2, rfl⟩
        · rw [if_neg (by simpa using hn)]
          exact ⟨x, x2, by omega, rfl⟩
      obtain ⟨y, y1, y2, y3⟩ := hy
      rw [y3, isZero_eq y1, decide_eq_false (show ¬ y.toInt = 0 by omega), if_neg (by simp)] at hx
      by_cases hlt : x.toInt.natAbs + 1 < 2 ^ 32
      · rw [if_pos (.inl hlt)]
        refine fin (List.replicate x.toInt.natAbs 1) (by simp) ?_ (by rw [hb, denotes_ones, if_pos (by omega)])
        rw [hx, joinOk y1 (by omega) (by omega) (by omega), hbind, ← places_ones,
          show (y.toInt + 1).toNat - 1 = x.toInt.natAbs by omega, signOf]
        simp only [decide_eq_true_eq]
      · rw [if_neg (by omega)]
        refine ⟨"Invalid array length", ?_⟩
        rw [hx, joinErr (by omega)]
        rfl
  · rw [decide_eq_true hb, if_pos rfl] at hx
    have hsg : signOf b.toInt x.toInt = [] := by rw [signOf, if_neg (by omega)]
    rw [hsg] at fin ⊢
    by_cases hz : x.toInt = 0
    · rw [if_pos (by omega)]
      refine fin [0] (by simp) ?_ (by simp [denotes, hz])
      rw [hx, decide_eq_true hz, if_pos rfl]
      rfl
    · rw [decide_eq_false hz, if_neg (by simp)] at hx
      by_cases hn : x.toInt < 0
      · rw [decide_eq_true hn, if_pos rfl] at hx
        by_cases hlt : x.toInt.natAbs + 1 < 2 ^ 32
        · rw [if_pos (.inl hlt)]
          refine fin (List.replicate x.toInt.natAbs [1, 0]).flatten ?_ ?_ ?_
          · intro d hd
            simp only [List.mem_flatten, List.mem_replicate] at hd
            obtain ⟨l, ⟨_, rfl⟩, hd⟩ := hd
            simp at hd; omega
          · rw [hx, joinOk x2 (by omega) (by omega) (by omega), ← places_pairs 1 0 (by decide) (by decide),
              show (1 - x.toInt).toNat - 1 = x.toInt.natAbs by omega]
            rfl
          · rw [hb, denotes_pairs, if_neg (by omega)]
            omega
        · rw [if_neg (by omega)]
          exact ⟨_, by rw [hx, joinErr (by omega)]⟩
      · rw [decide_eq_false hn, if_neg (by simp)] at hx
        by_cases hlt : x.toInt < 2 ^ 32
        · rw [if_pos (by omega)]
          refine fin (1 :: (List.replicate (x.toInt.toNat - 1) [0, 1]).flatten) ?_ ?_ ?_
          · intro d hd
            simp only [List.mem_cons, List.mem_flatten, List.mem_replicate] at hd
            rcases hd with rfl | ⟨l, ⟨_, rfl⟩, hd⟩
            · omega
            · simp at hd; omega
          · rw [hx, joinOk x2 (by omega) (by omega) (by omega), hbind, List.map_cons, List.flatten_cons,
              ← places_pairs 0 1 (by decide) (by decide)]
            rfl
          · rw [hb, denotes, denotes_pairs, pairs_length, neg_one_even, if_neg (by omega)]
            omega
        · rw [if_neg (by omega)]
          exact ⟨"Invalid array length", by rw [hx, joinErr (by omega)]; rfl⟩

theorem check_rejects {n d : Nat} {c : Char} (hc : digitValue c = some d) (hd : n ≤ d) (h1 : ¬ (d = 1 ∧ n = 1)) :
    ∀ {text : List Char}, c ∈ text → checkAnyDigits n text = .error (.expect "is not a valid digit") := by
  obtain ⟨_, _, _, _, h2, h3⟩ := digit_seen _ _ hc
  intro text
  induction text with
  | nil => intro h; cases h
  | cons t text ih =>
    intro hm
    rw [checkAnyDigits]
    rcases List.mem_cons.mp hm with rfl | hm
    · rw [if_neg h2]
      rcases h3 with ⟨h3, h4, _⟩ | ⟨h3, h4, h5, _⟩
      · rw [if_pos h3, if_pos (by omega), if_neg]
        rintro ⟨hl, hn⟩
        rw [hl] at h4
        exact h1 ⟨h4.symm, hn⟩
      · rw [if_neg (by simp [h3]), if_pos h4, if_pos (by omega)]
    · rw [ih hm]
      repeat' split
      all_goals rfl

/-- **C101, what is not read.** A text with a digit, small or capital, that is not below the absolute value of
the base is rejected, the digit 1 to bases 1 and -1 excepted. -/
theorem C101_rejects (fl : Rat → Rat) (hfl : Rounding fl) (f : Expr) (base : Int) (hf : f.value actual = some base)
    (text : List Char) (c : Char) (hc : c ∈ text) (d : Nat) (hd : ofDigit c = some d) (hle : base.natAbs ≤ d)
    (h1 : ¬ (d = 1 ∧ base.natAbs = 1)) : ∃ b, runExpr fl f = .ok b ∧ Throws (bigOfAnyText fl text b) := by
  have k := runExpr_ok hfl f
  rw [hf] at k
  obtain ⟨b, b1, b2, rfl⟩ := k
  refine ⟨b, b1, "is not a valid digit", ?_⟩
  rw [ofDigit_eq] at hd
  rw [bigOfAnyText, magnitude_eq, check_rejects hd hle h1 hc]
  rfl

example : 'Z' ∈ "1Z".toList ∧ ofDigit 'Z' = some 35 ∧ (-35 : Int).natAbs ≤ 35 ∧ ¬ (35 = 1 ∧ (-35 : Int).natAbs = 1) := by
  decide +kernel

/-- A character that stands for no digit in lower case either: not even the two outside of ASCII whose lower case
is `k` and `i`. -/
theorem foreign_char {c : Char} (hc : digitValue c = none) (hk : c ≠ Char.ofNat 0x212A) (hi : c ≠ Char.ofNat 0x130) :
    lower c = c ∧ isDecimal c = false ∧ isLetter c = false := by
  unfold digitValue at hc
  split at hc
  · cases hc
  · split at hc
    · cases hc
    · split at hc
      · cases hc
      · rename_i h1 h2 h3
        exact ⟨by rw [lower, if_neg h3, if_neg hk, if_neg hi], by simpa [isDecimal] using h1,
          by simpa [isLetter] using h2⟩

theorem check_or (n : Nat) (text : List Char) : checkAnyDigits n text = .ok () ∨
    checkAnyDigits n text = .error (.expect "is not a valid digit") := by
  induction text with
  | nil => exact .inl rfl
  | cons t text ih =>
    rw [checkAnyDigits]
    repeat' split
    all_goals first | exact ih | exact .inr rfl

theorem collect_foreign (fl : Rat → Rat) {c : Char} (hc : digitValue c = none) (hk : c ≠ Char.ofNat 0x212A)
    (hi : c ≠ Char.ofNat 0x130) (hb : c ≠ '<') (post : List Char) (pre : List Char) : ∀ fuel : Nat,
    (∀ p ∈ pre, digitValue p ≠ none) → pre.length < fuel →
    collectAnyDigits fl fuel (pre ++ c :: post) = .error (.expect "is not a valid character") := by
  obtain ⟨h1, h2, h3⟩ := foreign_char hc hk hi
  induction pre with
  | nil =>
    intro fuel _ hf
    cases fuel with
    | zero => simp at hf
    | succ fuel =>
      rw [List.nil_append, collectAnyDigits.eq_def]
      simp only [h1, h2, h3, hb, Bool.false_eq_true, if_false]
  | cons p pre ih =>
    intro fuel hp hf
    cases fuel with
    | zero => simp at hf
    | succ fuel =>
      have hr := ih fuel (fun q hq => hp q (by simp [hq])) (by simpa using hf)
      cases hd : digitValue p with
      | none => exact absurd hd (hp p (by simp))
      | some d =>
        obtain ⟨_, _, _, _, _, h6⟩ := digit_seen _ _ hd
        rw [List.cons_append, collectAnyDigits.eq_def]
        simp only [hr]
        rcases h6 with ⟨h6, _⟩ | ⟨h6, h7, _⟩
        · simp only [h6, if_true]; rfl
        · simp only [h6, h7, Bool.false_eq_true, if_false, if_true]; rfl

/-- **C101, what is not read either.** A text in which a character that is neither a digit nor an opening angle
bracket follows the sign and any digits throws; so does a second sign. (The Kelvin sign and the dotted capital I
are left out: their lower case is a letter.) -/
theorem C101_other_characters (fl : Rat → Rat) (hfl : Rounding fl) (f : Expr) (base : Int)
    (hf : f.value actual = some base) (neg : Bool) (pre post : List Char) (c : Char)
    (hpre : ∀ p ∈ pre, ofDigit p ≠ none) (hc : ofDigit c = none) (hk : c ≠ Char.ofNat 0x212A)
    (hi : c ≠ Char.ofNat 0x130) (hb : c ≠ '<') (hm : c = '-' → neg = true ∨ pre ≠ []) :
    ∃ b, runExpr fl f = .ok b ∧
      Throws (bigOfAnyText fl ((if neg then ['-'] else []) ++ (pre ++ c :: post)) b) := by
  have k := runExpr_ok hfl f
  rw [hf] at k
  obtain ⟨b, b1, -, -⟩ := k
  refine ⟨b, b1, ?_⟩
  rw [ofDigit_eq] at hc
  have hpre' : ∀ p ∈ pre, digitValue p ≠ none := fun p hp => by rw [← ofDigit_eq]; exact hpre p hp
  rcases check_or b.magnitude ((if neg then ['-'] else []) ++ (pre ++ c :: post)) with h | h
  · refine ⟨"is not a valid character", ?_⟩
    rw [bigOfAnyText, h]
    cases neg with
    | true =>
      simp only [if_true, List.singleton_append, List.head?_cons, decide_true, List.drop_succ_cons, List.drop_zero]
      show (do let ds ← collectAnyDigits fl _ (pre ++ c :: post); _) = _
      rw [collect_foreign fl hc hk hi hb post pre _ hpre' (by simp; omega)]
      rfl
    | false =>
      have hh : ¬ ((pre ++ c :: post).head? = some '-') := by
        cases pre with
        | nil =>
          intro h0
          simp only [List.nil_append, List.head?_cons, Option.some.injEq] at h0
          rcases hm h0 with h0 | h0
          · cases h0
          · exact h0 rfl
        | cons p pre =>
          intro h0
          simp only [List.cons_append, List.head?_cons, Option.some.injEq] at h0
          exact hpre' p (by simp) (by rw [h0]; rfl)
      simp only [Bool.false_eq_true, if_false, List.nil_append, hh, decide_false]
      show (do let ds ← collectAnyDigits fl _ (pre ++ c :: post); _) = _
      rw [collect_foreign fl hc hk hi hb post pre _ hpre' (by simp)]
      rfl
  · exact ⟨"is not a valid digit", by rw [bigOfAnyText, h]; rfl⟩

example : (∀ p ∈ "1z".toList, ofDigit p ≠ none) ∧ ofDigit '*' = none ∧ '*' ≠ Char.ofNat 0x212A ∧
    '*' ≠ Char.ofNat 0x130 ∧ '*' ≠ '<' ∧ ('*' = '-' → false = true ∨ "1z".toList ≠ []) := by
  decide +kernel

/-- **C101, base 0.** To base 0 only zero is written, as `0`; all others throw. No text with a digit is read,
not even that. -/
theorem C101_zero (fl : Rat → Rat) (hfl : Rounding fl) (e : Expr) (n : Int) (he : e.value actual = some n) :
    (∃ x, runExpr fl e = .ok x ∧ if n = 0 then x.toAnyBase fl (.ofSmall 0) = .ok ['0'] else
      ∃ msg, x.toAnyBase fl (.ofSmall 0) = .error (.expect msg)) ∧
    ∀ d : Nat, d < 36 → ∀ s, Throws (bigOfAnyText fl (digit d :: s) (.ofSmall 0)) := by
  have h := runExpr_ok hfl e
  rw [he] at h
  obtain ⟨x, x1, x2, rfl⟩ := h
  refine ⟨⟨x, x1, ?_⟩, ?_⟩
  · have : x.toAnyBase fl (.ofSmall 0) =
        if x.isZero then .ok ['0'] else .error (.expect "Cannot convert nonzero numbers to base 0.") := rfl
    rw [this, isZero_eq x2]
    by_cases hz : x.toInt = 0
    · rw [if_pos hz, decide_eq_true hz, if_pos rfl]
    · rw [if_neg hz, decide_eq_false hz, if_neg (by simp)]
      exact ⟨_, rfl⟩
  · intro d hd s
    refine ⟨"is not a valid digit", ?_⟩
    rw [bigOfAnyText, show (Big.ofSmall 0).magnitude = 0 from rfl,
      check_rejects (digitValue_digit hd) (Nat.zero_le _) (by omega) (List.mem_cons_self ..)]
    rfl

/-- `2^60`. -/
def bigBase : Expr := .lit (2 ^ 60)
/-- The number before `2^60`. -/
def bigDigit : Expr := .lit (2 ^ 60 - 1)

/-- **C101, refuted.** To base `2^60`, the number before it has one digit. That is written as three numbers
with commas between them, the array in which the library keeps it, and cannot be read back. -/
theorem C101_refuted (fl : Rat → Rat) :
    ∃ x b, runExpr fl bigDigit = .ok x ∧ runExpr fl bigBase = .ok b ∧
      x.toAnyBase fl b = .ok "<6846975,2150460,11529>".toList ∧
      Throws (bigOfAnyText fl "<6846975,2150460,11529>".toList b) := by
  have e1 : parseStringValue (intNumeral 10 (2 ^ 60)) = some (.ok (.big [6846976, 2150460, 11529] false)) := by
    rw [show intNumeral 10 (2 ^ 60) = "1152921504606846976".toList by decide +kernel]; rfl
  have e2 : parseStringValue (intNumeral 10 (2 ^ 60 - 1)) = some (.ok (.big [6846975, 2150460, 11529] false)) := by
    rw [show intNumeral 10 (2 ^ 60 - 1) = "1152921504606846975".toList by decide +kernel]; rfl
  refine ⟨_, _, by rw [bigDigit, runExpr, e2]; rfl, by rw [bigBase, runExpr, e1]; rfl, rfl, "Invalid integer", rfl⟩

/-- The bases of these theorems: 100, -10 and `2^53`, with the integers `2^200` and its negative. -/
example : (Expr.shift true (.lit 1) 200).value actual = some (2 ^ 200) ∧
    (Expr.lit 100).value actual = some 100 ∧ (Expr.lit (-10)).value actual = some (-10) ∧
    (Expr.shift true (.lit 1) 53).value actual = some (2 ^ 53) ∧
    (36 < (100 : Int) ∨ (100 : Int) ≤ -2) ∧ (36 < (-10 : Int) ∨ (-10 : Int) ≤ -2) ∧ (2 ^ 53 : Int).natAbs ≤ 2 ^ 53 :=
  ⟨rfl, rfl, rfl, rfl, by decide, by decide, by decide⟩

/-- -3 to base -2 has the digits 1101; 3725 to base 100 the digits 37 and 25. -/
example : AreDigits (-2) (-3) [1, 1, 0, 1] ∧ ([1, 1, 0, 1].map place).flatten = "1101".toList ∧
    AreDigits 100 3725 [37, 25] ∧ ([37, 25].map place).flatten = "<37>p".toList := by
  refine ⟨⟨by decide, by decide, by decide, by decide⟩, by decide +kernel, ⟨by decide, by decide, by decide, by decide⟩,
    by decide +kernel⟩

end Verif.Props
