import Verif.Lemmas.BigPrime
import Verif.Lemmas.Miller
import Verif.Props.BigMath
/-! C98: the primality test of the big integers of JavaScript tracers. -/
namespace Verif.Props
open BigJs Spec

/-- **C98, exactly.** `isPrime` of any integer, with its sign left away, is the test of Miller and Rabin with
eight bases; it never throws and always ends. -/
theorem C98_exact (fl : Rat → Rat) (hfl : Rounding fl) (e : Expr) (n : Int) (he : e.value actual = some n) :
    ∃ b t, runExpr fl e = .ok b ∧ b.isPrime fl = .ok t ∧ (t = true ↔ Passes n.natAbs) := by
  have h := runExpr_ok hfl e
  rw [he] at h
  obtain ⟨b, h1, h2, rfl⟩ := h
  obtain ⟨t, t1, t2⟩ := isPrime_ok hfl h2
  exact ⟨b, t, h1, t1, t2⟩

/-- **C98, in part.** `isPrime` is true for every prime and its negative; so what is said not to be prime is
not. Missing: some numbers that are not prime are said to be (`C98_refuted`). -/
theorem C98_primes_partial (fl : Rat → Rat) (hfl : Rounding fl) (e : Expr) (n : Int) (he : e.value actual = some n)
    (hp : IsPrime n.natAbs) : ∃ b, runExpr fl e = .ok b ∧ b.isPrime fl = .ok true := by
  obtain ⟨b, t, h1, h2, h3⟩ := C98_exact fl hfl e n he
  have ht : t = true := h3.mpr ?_
  · subst ht
    exact ⟨b, h1, h2⟩
  · generalize n.natAbs = p at hp
    have hd : ∀ m, m ∣ p → m ≠ 1 → p = m := fun m h1 h2 => (hp.2 m h1).resolve_left h2 |>.symm
    unfold Passes
    by_cases h2 : 2 ∣ p
    · exact .inl (hd 2 h2 (by decide))
    by_cases h3 : 3 ∣ p
    · exact .inr (.inl (hd 3 h3 (by decide)))
    by_cases h5 : 5 ∣ p
    · exact .inr (.inr (.inl (hd 5 h5 (by decide))))
    refine .inr (.inr (.inr ⟨by have := hp.1; omega, h2, h3, h5, ?_⟩))
    by_cases hlt : p < 25
    · exact .inl hlt
    · refine .inr fun a ha => prime_passes hp fun hdvd => ?_
      have hb : ∀ a ∈ bases, 0 < a ∧ a < 25 := by decide
      obtain ⟨b1, b2⟩ := hb a ha
      have := Nat.le_of_dvd b1 hdvd
      omega

/-- Powers modulo a number, by squaring; one unit of fuel for each bit. -/
def powMod (n : Nat) : Nat → Nat → Nat → Nat
  | 0, _, _ => 1 % n
  | fuel + 1, a, b =>
    if b % 2 = 1 then a * powMod n fuel (a * a % n) (b / 2) % n else powMod n fuel (a * a % n) (b / 2)

theorem powMod_eq (n : Nat) : ∀ fuel a b, b < 2 ^ fuel → powMod n fuel a b = a ^ b % n
  | 0, a, b, h => by
    have : b = 0 := by simpa using h
    subst this
    rfl
  | fuel + 1, a, b, h => by
    have ih := powMod_eq n fuel (a * a % n) (b / 2) (by rw [Nat.pow_succ] at h; omega)
    rw [← Nat.pow_mod, ← Nat.pow_two, ← Nat.pow_mul] at ih
    rw [powMod]
    split
    · rw [← Nat.pow_two, ih, Nat.mul_mod_mod, ← Nat.pow_succ', show (2 * (b / 2)).succ = b by omega]
    · rw [← Nat.pow_two, ih, show 2 * (b / 2) = b by omega]

/-- **C98, what fails.** 341550071728321 is a product of two numbers, and is said to be prime. -/
theorem C98_refuted (fl : Rat → Rat) (hfl : Rounding fl) :
    ¬ IsPrime 341550071728321 ∧
      ∃ b, runExpr fl (.lit 341550071728321) = .ok b ∧ b.isPrime fl = .ok true := by
  constructor
  · intro h
    rcases h.2 10670053 ⟨32010157, by decide⟩ with h | h <;> omega
  · obtain ⟨b, t, h1, h2, h3⟩ := C98_exact fl hfl (.lit 341550071728321) _ rfl
    have ht : t = true := h3.mpr ?_
    · subst ht
      exact ⟨b, h1, h2⟩
    · refine .inr (.inr (.inr ⟨by decide, by decide, by decide, by decide, .inr fun a ha => ?_⟩))
      refine ⟨6, 5336719870755, by decide, by decide, ?_⟩
      have hp := fun a b => powMod_eq 341550071728321 60 a b
      have hc : ∀ a ∈ bases, powMod 341550071728321 60 a 5336719870755 = 1 ∨
          powMod 341550071728321 60 a (2 ^ 1 * 5336719870755) = 341550071728320 := by decide +kernel
      rcases hc a ha with h | h
      · left
        rw [hp a _ (by decide)] at h
        exact h
      · right
        refine ⟨1, by decide, ?_⟩
        rw [hp a _ (by decide)] at h
        exact h

/-- A prime that is tested with all the bases. -/
example : IsPrime 97 ∧ (Expr.lit (-97)).value actual = some (-97) := by
  refine ⟨⟨by decide, fun m hm => ?_⟩, rfl⟩
  have hle := Nat.le_of_dvd (by decide) hm
  have : ∀ m : Fin 98, m.val ∣ 97 → m.val = 1 ∨ m.val = 97 := by decide +kernel
  exact this ⟨m, by omega⟩ hm

/-- A product that is found not to be prime by the first base. -/
example (fl : Rat → Rat) (hfl : Rounding fl) :
    ∃ b, runExpr fl (.lit 91) = .ok b ∧ b.isPrime fl = .ok false := by
  obtain ⟨b, t, h1, h2, h3⟩ := C98_exact fl hfl (.lit 91) 91 rfl
  cases t with
  | false => exact ⟨b, h1, h2⟩
  | true =>
    have h := h3.mp rfl
    rcases h with h | h | h | ⟨_, _, _, _, h | h⟩
    · omega
    · omega
    · omega
    · omega
    · have := (passesTest_iff (n := 91) (s := 1) (b := 45) (by decide) (by decide)).mp (h 2 (by decide))
      rcases this with h | ⟨r, hr, h⟩
      · exact absurd h (by decide +kernel)
      · have : r = 0 ∨ r = 1 := by omega
        rcases this with rfl | rfl
        · exact absurd h (by decide +kernel)
        · exact absurd h (by decide +kernel)

end Verif.Props
