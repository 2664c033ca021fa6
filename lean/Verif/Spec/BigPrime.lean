/-! Primes, and the test of Miller and Rabin. -/
namespace Verif.Spec

/-- A prime number. -/
def IsPrime (n : Nat) : Prop := 2 ≤ n ∧ ∀ m, m ∣ n → m = 1 ∨ m = n

/-- The test of Miller and Rabin with the base `a`: with `n - 1` a power of two times an odd number `b`, the
power `a ^ b` leaves one, or one of its repeated squares leaves `n - 1`. -/
def PassesTest (n a : Nat) : Prop :=
  ∃ s b, n - 1 = 2 ^ s * b ∧ b % 2 = 1 ∧ (a ^ b % n = 1 ∨ ∃ r, r ≤ s ∧ a ^ (2 ^ r * b) % n = n - 1)

/-- The bases the library takes. -/
def bases : List Nat := [2, 3, 5, 7, 11, 13, 17, 19]

/-- The numbers that pass: those below 25 are looked at one by one. -/
def Passes (n : Nat) : Prop :=
  n = 2 ∨ n = 3 ∨ n = 5 ∨
    (n ≠ 1 ∧ ¬ 2 ∣ n ∧ ¬ 3 ∣ n ∧ ¬ 5 ∣ n ∧ (n < 25 ∨ ∀ a ∈ bases, PassesTest n a))

/-- Numbers that pass when these bases are drawn: those below 25 are looked at one by one. -/
def PassesFermat (n : Nat) (draws : List Nat) : Prop :=
  n = 2 ∨ n = 3 ∨ n = 5 ∨
    (n ≠ 1 ∧ ¬ 2 ∣ n ∧ ¬ 3 ∣ n ∧ ¬ 5 ∣ n ∧ (n < 25 ∨ ∀ a ∈ draws, a ^ (n - 1) % n = 1))

end Verif.Spec
