import Verif.Lemmas.BigRandom
import Verif.Lemmas.Miller
import Verif.Props.BigMath
/-! C99, C100: random big integers, and the primality test that uses them. -/
namespace Verif.Props
open BigJs Spec

/-- **C99, in part.** Whatever the random numbers, the integer drawn is one of those from the smaller to the
larger of the bounds. Missing: not all of them can be drawn (`C99_top`, `C99_reach_many`, `C99_refuted`). -/
theorem C99_between_partial (fl : Rat → Rat) (hfl : Rounding fl) (rand : Nat → Rat) (hr : ∀ k, IsRandom (rand k))
    (a b : Expr) (x y : Int) (ha : a.value actual = some x) (hb : b.value actual = some y) :
    ∃ ba bb z n, runExpr fl a = .ok ba ∧ runExpr fl b = .ok bb ∧ randBetween fl rand ba bb = .ok z ∧
      z.toText = .ok (intNumeral 10 n) ∧ (x ≤ n ∧ n ≤ y ∨ y ≤ n ∧ n ≤ x) := by
  have h := runExpr_ok hfl a
  have k := runExpr_ok hfl b
  rw [ha] at h
  rw [hb] at k
  obtain ⟨ba, h1, h2, rfl⟩ := h
  obtain ⟨bb, k1, k2, rfl⟩ := k
  obtain ⟨z, z1, z2, z3, z4, _⟩ := randBetween_ok hfl (fun k => random_unit (hr k)) h2 k2
  exact ⟨ba, bb, z, z.toInt, h1, k1, z1, toText_ok z2, by omega⟩

/-- **C99, what is drawn from many numbers.** Where there are `n` numbers from `x` to `y`, and `n` is at least
`2^53`, the integer drawn is below `x` plus `n` rounded down to the first of its digits to the base of ten
millions. -/
theorem C99_top (fl : Rat → Rat) (hfl : Rounding fl) (rand : Nat → Rat) (hr : ∀ k, IsRandom (rand k))
    (a b : Expr) (x y : Int) (ha : a.value actual = some x) (hb : b.value actual = some y) (hn : x + 2 ^ 53 ≤ y + 1) :
    ∃ ba bb z n, ∃ k : Nat, runExpr fl a = .ok ba ∧ runExpr fl b = .ok bb ∧ randBetween fl rand ba bb = .ok z ∧
      z.toText = .ok (intNumeral 10 n) ∧ 10000000 ^ k ≤ y - x + 1 ∧ y - x + 1 < 10000000 ^ (k + 1) ∧
      x ≤ n ∧ n < x + (y - x + 1) / 10000000 ^ k * 10000000 ^ k := by
  have h := runExpr_ok hfl a
  have k := runExpr_ok hfl b
  rw [ha] at h
  rw [hb] at k
  obtain ⟨ba, h1, h2, rfl⟩ := h
  obtain ⟨bb, k1, k2, rfl⟩ := k
  obtain ⟨z, z1, z2, z3, z4, z5⟩ := randBetween_ok hfl (fun k => random_unit (hr k)) h2 k2
  have hmin : min ba.toInt bb.toInt = ba.toInt := by omega
  have hmax : max ba.toInt bb.toInt = bb.toInt := by omega
  rw [hmin, hmax] at z5
  obtain ⟨j, j1, j2, j3⟩ := z5 _ rfl (by omega)
  exact ⟨ba, bb, z, z.toInt, j, h1, k1, z1, toText_ok z2, j1, j2, by omega, j3⟩

/-- **C99, what fails.** Of the numbers from 0 to `2^60`, those from `11529 * 10^14` on are never drawn, `2^60`
itself among them, whatever the random numbers. -/
theorem C99_refuted (fl : Rat → Rat) (hfl : Rounding fl) (rand : Nat → Rat) (hr : ∀ k, IsRandom (rand k)) :
    ∃ ba bb z n, runExpr fl (.lit 0) = .ok ba ∧ runExpr fl (.lit (2 ^ 60)) = .ok bb ∧
      randBetween fl rand ba bb = .ok z ∧ z.toText = .ok (intNumeral 10 n) ∧ n < 11529 * 10 ^ 14 ∧ n < 2 ^ 60 := by
  obtain ⟨ba, bb, z, n, k, h1, h2, h3, h4, h5, h6, h7, h8⟩ :=
    C99_top fl hfl rand hr (.lit 0) (.lit (2 ^ 60)) 0 (2 ^ 60) rfl rfl (by decide)
  have hk : k = 2 := by
    have u : k < 3 := by
      refine Nat.lt_of_not_le fun h => ?_
      have : (10000000 : Int) ^ 3 ≤ 10000000 ^ k := by
        have := Nat.pow_le_pow_right (show 10000000 > 0 by decide) h
        exact_mod_cast this
      omega
    have l : 1 < k := by
      refine Nat.lt_of_not_le fun h => ?_
      have : (10000000 : Int) ^ (k + 1) ≤ 10000000 ^ 2 := by
        have := Nat.pow_le_pow_right (show 10000000 > 0 by decide) (show k + 1 ≤ 2 by omega)
        exact_mod_cast this
      omega
    omega
  subst hk
  refine ⟨ba, bb, z, n, h1, h2, h3, h4, ?_, ?_⟩ <;> omega

/-- **C99, from at most `2^52` numbers.** Every integer from the smaller to the larger of the bounds, if these
are less than `2^52` apart, is drawn with some random number. -/
theorem C99_reach_partial (fl : Rat → Rat) (hfl : Rounding fl) (a b : Expr) (x y : Int)
    (ha : a.value actual = some x) (hb : b.value actual = some y) (k : Int) (h1 : min x y ≤ k) (h2 : k ≤ max x y)
    (hn : max x y - min x y < 2 ^ 52) :
    ∃ r, IsRandom r ∧ ∀ rand : Nat → Rat, rand 0 = r →
      ∃ ba bb z, runExpr fl a = .ok ba ∧ runExpr fl b = .ok bb ∧ randBetween fl rand ba bb = .ok z ∧
        z.toText = .ok (intNumeral 10 k) := by
  have h := runExpr_ok hfl a
  have j := runExpr_ok hfl b
  rw [ha] at h
  rw [hb] at j
  obtain ⟨ba, e1, e2, rfl⟩ := h
  obtain ⟨bb, j1, j2, rfl⟩ := j
  obtain ⟨r, r1, r2⟩ := randBetween_reach hfl e2 j2 h1 h2 hn
  refine ⟨r, r1, fun rand hr => ?_⟩
  obtain ⟨z, z1, z2, rfl⟩ := r2 rand hr
  exact ⟨ba, bb, z, e1, j1, z1, toText_ok z2⟩

/-- **C99, from many numbers.** Where there are `n` numbers from `x` to `y`, and `n` is at least `2^53`, every integer
from `x` on that is below `x` plus `n` rounded down to the first of its digits to the base of ten millions is drawn
with some random numbers. By `C99_top` no other integer is. -/
theorem C99_reach_many (fl : Rat → Rat) (hfl : Rounding fl) (a b : Expr) (x y : Int)
    (ha : a.value actual = some x) (hb : b.value actual = some y) (hn : x + 2 ^ 53 ≤ y + 1)
    (k : Nat) (hk : 10000000 ^ k ≤ y - x + 1 ∧ y - x + 1 < 10000000 ^ (k + 1))
    (m : Int) (h1 : x ≤ m) (h2 : m < x + (y - x + 1) / 10000000 ^ k * 10000000 ^ k) :
    ∃ rand : Nat → Rat, (∀ i, IsRandom (rand i)) ∧ ∃ ba bb z, runExpr fl a = .ok ba ∧ runExpr fl b = .ok bb ∧
      randBetween fl rand ba bb = .ok z ∧ z.toText = .ok (intNumeral 10 m) := by
  have h := runExpr_ok hfl a
  have j := runExpr_ok hfl b
  rw [ha] at h
  rw [hb] at j
  obtain ⟨ba, e1, e2, rfl⟩ := h
  obtain ⟨bb, j1, j2, rfl⟩ := j
  have hmin : min ba.toInt bb.toInt = ba.toInt := by omega
  have hmax : max ba.toInt bb.toInt = bb.toInt := by omega
  obtain ⟨rand, r1, z, z1, z2, rfl⟩ := randBetween_reach_top hfl e2 j2 (m := m) (j := k)
    (n := bb.toInt - ba.toInt + 1) (by rw [hmin, hmax]) (by omega) hk (by rw [hmin]; exact h1)
    (by rw [hmin]; exact h2)
  exact ⟨rand, r1, ba, bb, z, e1, j1, z1, toText_ok z2⟩

/-- Bounds and a number for `C99_reach_many`. -/
example : (Expr.lit (-5)).value actual = some (-5) ∧ (Expr.lit (2 ^ 60)).value actual = some (2 ^ 60) ∧
    (-5 : Int) + 2 ^ 53 ≤ 2 ^ 60 + 1 ∧
    ((10000000 : Int) ^ 2 ≤ 2 ^ 60 - -5 + 1 ∧ 2 ^ 60 - -5 + 1 < (10000000 : Int) ^ (2 + 1)) ∧
    (-5 : Int) ≤ 2 ^ 59 ∧ (2 : Int) ^ 59 < -5 + (2 ^ 60 - -5 + 1) / 10000000 ^ 2 * 10000000 ^ 2 :=
  ⟨rfl, rfl, by decide +kernel, by decide +kernel, by decide +kernel, by decide +kernel⟩

/-- **C99, what fails for less than `2^53` numbers.** Of the numbers from 0 to `2^53 - 2^26 - 3` the number
`2^52` is never drawn, whatever the random numbers. -/
theorem C99_refuted_gap (fl : Rat → Rat) (hfl : Rounding fl) (rand : Nat → Rat) (hr : ∀ k, IsRandom (rand k)) :
    ∃ ba bb z n, runExpr fl (.lit 0) = .ok ba ∧ runExpr fl (.lit (2 ^ 53 - 2 ^ 26 - 3)) = .ok bb ∧
      randBetween fl rand ba bb = .ok z ∧ z.toText = .ok (intNumeral 10 n) ∧ n ≠ 2 ^ 52 := by
  have h := runExpr_ok hfl (.lit 0)
  have k := runExpr_ok hfl (.lit (2 ^ 53 - 2 ^ 26 - 3))
  rw [show (Expr.lit 0).value actual = some 0 from rfl] at h
  rw [show (Expr.lit (2 ^ 53 - 2 ^ 26 - 3)).value actual = some (2 ^ 53 - 2 ^ 26 - 3) from rfl] at k
  obtain ⟨ba, h1, h2, h3⟩ := h
  obtain ⟨bb, k1, k2, k3⟩ := k
  obtain ⟨z, z1, z2, z3⟩ := randBetween_gap hfl hr h2 k2 h3 k3
  exact ⟨ba, bb, z, z.toInt, h1, k1, z1, toText_ok z2, z3⟩

/-- Expressions and a number for `C99_reach_partial`. -/
example : (Expr.lit (-5)).value actual = some (-5) ∧ (Expr.lit (2 ^ 51)).value actual = some (2 ^ 51) ∧
    min (-5) (2 ^ 51) ≤ (1000 : Int) ∧ (1000 : Int) ≤ max (-5) (2 ^ 51) ∧
    max (-5 : Int) (2 ^ 51) - min (-5) (2 ^ 51) < 2 ^ 52 :=
  ⟨rfl, rfl, by decide +kernel, by decide +kernel, by decide +kernel⟩

/-- There are random numbers: zero, a half, the largest double below one. -/
example : IsRandom 0 ∧ IsRandom (1 / 2) ∧ IsRandom (1 - 1 / 2 ^ 53) :=
  ⟨⟨⟨0, 0, by decide, by decide, by decide +kernel⟩, by decide +kernel, by decide +kernel⟩,
   ⟨⟨1, 1073, by decide, by decide, by decide +kernel⟩, by decide +kernel, by decide +kernel⟩,
   ⟨⟨2 ^ 53 - 1, 1021, by decide, by decide, by decide +kernel⟩, by decide +kernel, by decide +kernel⟩⟩

/-- Expressions for both theorems. -/
example : (Expr.lit (-5)).value actual = some (-5) ∧
    (Expr.shift true (.lit 1) 200).value actual = some (2 ^ 200) ∧ (-5 : Int) + 2 ^ 53 ≤ 2 ^ 200 + 1 :=
  ⟨rfl, rfl, by decide +kernel⟩

/-- **C100, exactly.** Whatever the random numbers and however many rounds are asked for, `isProbablePrime` is
Fermat's test for numbers from 2 to the number less 2. -/
theorem C100_exact (fl : Rat → Rat) (hfl : Rounding fl) (rand : Nat → Nat → Rat) (hr : ∀ i k, IsRandom (rand i k))
    (e : Expr) (n : Int) (he : e.value actual = some n) (iterations : Option Nat) :
    ∃ b t, ∃ draws : List Nat, runExpr fl e = .ok b ∧ b.isProbablePrime fl rand iterations = .ok t ∧
      (∀ a ∈ draws, 2 ≤ a ∧ a ≤ n.natAbs - 2) ∧ draws.length ≤ iterations.getD 5 ∧
      (t = true ↔ PassesFermat n.natAbs draws) := by
  have h := runExpr_ok hfl e
  rw [he] at h
  obtain ⟨b, h1, h2, rfl⟩ := h
  obtain ⟨N, hN⟩ : ∃ N, b.toInt.natAbs = N := ⟨_, rfl⟩
  rw [hN]
  have hb := isBasicPrime_eq hfl h2 hN
  have hsome : ∀ p, isBasicPrime fl b = .ok (some p) → b.isProbablePrime fl rand iterations = .ok p := by
    intro p hp
    rw [Big.isProbablePrime, hp]
    rfl
  have hall : ∀ a ∈ ([] : List Nat), 2 ≤ a ∧ a ≤ N - 2 := nofun
  have hlen : ([] : List Nat).length ≤ iterations.getD 5 := Nat.zero_le _
  by_cases c1 : N = 1
  · rw [if_pos c1] at hb
    exact ⟨b, false, [], h1, hsome _ hb, hall, hlen, nofun, fun h => by unfold PassesFermat at h; omega⟩
  by_cases c2 : N = 2 ∨ N = 3 ∨ N = 5
  · rw [if_neg c1, if_pos c2] at hb
    exact ⟨b, true, [], h1, hsome _ hb, hall, hlen, fun _ => by unfold PassesFermat; omega, fun _ => rfl⟩
  rw [if_neg c1, if_neg c2] at hb
  by_cases c3 : N % 2 = 0
  · rw [if_pos c3] at hb
    exact ⟨b, false, [], h1, hsome _ hb, hall, hlen, nofun, fun h => by unfold PassesFermat at h; omega⟩
  by_cases c4 : N % 3 = 0
  · rw [if_neg c3, if_pos c4] at hb
    exact ⟨b, false, [], h1, hsome _ hb, hall, hlen, nofun, fun h => by unfold PassesFermat at h; omega⟩
  by_cases c5 : N % 5 = 0
  · rw [if_neg c3, if_neg c4, if_pos c5] at hb
    exact ⟨b, false, [], h1, hsome _ hb, hall, hlen, nofun, fun h => by unfold PassesFermat at h; omega⟩
  rw [if_neg c3, if_neg c4, if_neg c5] at hb
  have hnot : N ≠ 1 ∧ ¬ 2 ∣ N ∧ ¬ 3 ∣ N ∧ ¬ 5 ∣ N := by omega
  by_cases c6 : N < 25
  · rw [if_pos c6] at hb
    exact ⟨b, true, [], h1, hsome _ hb, hall, hlen,
      fun _ => .inr (.inr (.inr ⟨hnot.1, hnot.2.1, hnot.2.2.1, hnot.2.2.2, .inl c6⟩)), fun _ => rfl⟩
  · rw [if_neg c6] at hb
    obtain ⟨a1, a2⟩ := abs_ok h2
    rw [hN] at a2
    obtain ⟨t, t1, draws, t2, t3, t4, t5⟩ := probableLoop_ok hfl (fun i k => random_unit (hr i k)) a1 a2 (by omega)
      (iterations.getD 5) 0
    refine ⟨b, t, draws, h1, ?_, t3, t2, t5.trans ⟨fun h => ?_, fun h => ?_⟩⟩
    · rw [Big.isProbablePrime, hb]
      exact t1
    · exact .inr (.inr (.inr ⟨hnot.1, hnot.2.1, hnot.2.2.1, hnot.2.2.2, .inr h⟩))
    · rcases h with h | h | h | ⟨_, _, _, _, h | h⟩
      · omega
      · omega
      · omega
      · omega
      · exact h

/-- **C100.** Every prime, and its negative, is a probable prime, whatever the random numbers and however many
rounds are asked for. -/
theorem C100_primes (fl : Rat → Rat) (hfl : Rounding fl) (rand : Nat → Nat → Rat) (hr : ∀ i k, IsRandom (rand i k))
    (e : Expr) (n : Int) (he : e.value actual = some n) (hp : IsPrime n.natAbs) (iterations : Option Nat) :
    ∃ b, runExpr fl e = .ok b ∧ b.isProbablePrime fl rand iterations = .ok true := by
  obtain ⟨b, t, draws, h1, h2, hdr, _, h5⟩ := C100_exact fl hfl rand hr e n he iterations
  have ht : t = true := h5.mpr ?_
  · subst ht
    exact ⟨b, h1, h2⟩
  · generalize n.natAbs = p at *
    have hd : ∀ m, m ∣ p → m ≠ 1 → p = m := fun m h1 h2 => (hp.2 m h1).resolve_left h2 |>.symm
    unfold PassesFermat
    by_cases h2 : 2 ∣ p
    · exact .inl (hd 2 h2 (by decide))
    by_cases h3 : 3 ∣ p
    · exact .inr (.inl (hd 3 h3 (by decide)))
    by_cases h5 : 5 ∣ p
    · exact .inr (.inr (.inl (hd 5 h5 (by decide))))
    refine .inr (.inr (.inr ⟨by have := hp.1; omega, h2, h3, h5, .inr fun a ha => fermat hp fun hdvd => ?_⟩))
    have hb := hdr a ha
    have := Nat.le_of_dvd (by omega) hdvd
    omega

/-- **C100, what fails.** 341 is the product of 11 and 31, and a probable prime if all the random numbers are
zero, however many rounds are asked for. -/
theorem C100_refuted (fl : Rat → Rat) (hfl : Rounding fl) (iterations : Option Nat) :
    ¬ IsPrime 341 ∧ ∃ b, runExpr fl (.lit 341) = .ok b ∧
      b.isProbablePrime fl (fun _ _ => 0) iterations = .ok true := by
  have ok341 : (Big.ofSmall 341).Ok := ofSmall_ok (by decide) (by decide)
  have ok2 : (Big.ofSmall 2).Ok := ofSmall_ok (by decide) (by decide)
  have hz : fl (0 * ((338 : Int) : Rat)) = 0 := by
    rw [Rat.zero_mul]
    exact fl_int hfl (m := 0) (by decide) (by decide)
  have hdraw : randBetween fl (fun _ => 0) (.ofSmall 2) (.ofSmall 339) = .ok (.ofSmall 2) := by
    show (Big.ofSmall 2).add (.ofSmall (fl (0 * ((338 : Int) : Rat))).floor) = _
    rw [hz]
    rfl
  have hloop : ∀ left i, probableLoop fl (fun _ _ => 0) (.ofSmall 341) left i = .ok true := by
    intro left
    induction left with
    | zero => intro i; rfl
    | succ left ih =>
      intro i
      have hm := modPow_ok hfl ok2 (e := .ofSmall 340) (ofSmall_ok (by decide) (by decide)) ok341
      obtain ⟨x, x1, x2, x3⟩ : ∃ x, (Big.ofSmall 2).modPow fl (.ofSmall 340) (.ofSmall 341) = .ok x ∧ x.Ok ∧
          x.toInt = 1 := by
        have hv : modPowValue (Big.ofSmall 2).toInt (Big.ofSmall 340).toInt (Big.ofSmall 341).toInt = some 1 := by
          decide +kernel
        rw [hv] at hm
        exact hm
      rw [probableLoop]
      have hb : ∀ {α β : Type} (a : α) (f : α → R β), (Except.ok a >>= f) = f a := fun _ _ => rfl
      rw [show (Big.ofSmall 341).subtract (.ofSmall 2) = .ok (.ofSmall 339) by decide +kernel, hb, hdraw, hb,
        show (Big.ofSmall 341).prev = .ok (.ofSmall 340) by decide +kernel, hb, x1, hb]
      rw [isUnit_eq x2, x3]
      exact ih (i + 1)
  have hlit : runExpr fl (.lit 341) = .ok (.ofSmall 341) := by
    show (parseStringValue (intNumeral 10 341)).getD (.error .todo) = _
    decide +kernel
  refine ⟨fun h => ?_, .ofSmall 341, hlit, ?_⟩
  · rcases h.2 11 ⟨31, by decide⟩ with h | h <;> omega
  · rw [Big.isProbablePrime, isBasicPrime_eq hfl ok341 (n := 341) rfl]
    exact hloop _ _

/-- Random numbers and a prime that is tested. -/
example : (∀ i k : Nat, IsRandom ((fun _ _ => 1 / 2 : Nat → Nat → Rat) i k)) ∧ IsPrime 97 ∧
    (Expr.lit (-97)).value actual = some (-97) := by
  have half : IsRandom (1 / 2) :=
    ⟨⟨1, 1073, by decide, by decide, by decide +kernel⟩, by decide +kernel, by decide +kernel⟩
  refine ⟨fun _ _ => half,
    ⟨by decide, fun m hm => ?_⟩, rfl⟩
  have hle := Nat.le_of_dvd (by decide) hm
  have : ∀ m : Fin 98, m.val ∣ 97 → m.val = 1 ∨ m.val = 97 := by decide +kernel
  exact this ⟨m, by omega⟩ hm

end Verif.Props
