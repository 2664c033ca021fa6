import Mathlib.FieldTheory.Finite.Basic
import Mathlib.Tactic.Ring
import Verif.Spec.BigPrime
/-! Every prime passes the test of Miller and Rabin. -/
namespace Verif.BigJs
open Spec

theorem prime_iff {p : Nat} : IsPrime p ↔ Nat.Prime p := by
  rw [Nat.prime_def]
  exact Iff.rfl

/-- Fermat's theorem. -/
theorem fermat {p a : Nat} (hp : IsPrime p) (h : ¬ p ∣ a) : a ^ (p - 1) % p = 1 := by
  have hp' := prime_iff.mp hp
  have := Nat.ModEq.pow_totient ((Nat.Prime.coprime_iff_not_dvd hp').mpr h).symm
  rw [Nat.totient_prime hp'] at this
  rw [this, Nat.mod_eq_of_lt (by have := hp.1; omega)]

/-- The square roots of one modulo a prime. -/
theorem root_of_one {p y : Nat} (hp : IsPrime p) (h : y * y % p = 1) : y % p = 1 ∨ y % p = p - 1 := by
  have h2 := hp.1
  have hy : (y % p) * (y % p) % p = 1 := by rw [← Nat.mul_mod, h]
  have hlt : y % p < p := Nat.mod_lt _ (by omega)
  generalize y % p = z at *
  have hz : 0 < z := Nat.pos_of_ne_zero fun h0 => by subst h0; simp at hy
  obtain ⟨w, rfl⟩ : ∃ w, z = w + 1 := ⟨z - 1, by omega⟩
  have hdvd : p ∣ w * (w + 2) := by
    have h3 : (w + 1) * (w + 1) = w * (w + 2) + 1 := by
      ring
    rw [h3] at hy
    have h1 := Nat.div_add_mod (w * (w + 2) + 1) p
    exact ⟨(w * (w + 2) + 1) / p, by omega⟩
  rcases (Nat.Prime.dvd_mul (prime_iff.mp hp)).mp hdvd with h | h
  · left
    rcases Nat.eq_zero_or_pos w with h0 | h0
    · omega
    · have := Nat.le_of_dvd h0 h
      omega
  · right
    have := Nat.le_of_dvd (by omega) h
    obtain ⟨c, hc⟩ := h
    rcases c with _ | _ | c
    · omega
    · omega
    · rw [Nat.mul_add] at hc
      have : p * 2 ≤ p * (c + 1) + p * 1 := by
        rw [Nat.mul_add]
        omega
      omega

theorem odd_part : ∀ n : Nat, 0 < n → ∃ s b, n = 2 ^ s * b ∧ b % 2 = 1 := by
  intro n
  induction n using Nat.strongRecOn with
  | ind n ih =>
    intro h
    by_cases hn : n % 2 = 1
    · exact ⟨0, n, by simp, hn⟩
    · obtain ⟨s, b, h1, h2⟩ := ih (n / 2) (by omega) (by omega)
      refine ⟨s + 1, b, ?_, h2⟩
      rw [Nat.pow_succ, Nat.mul_right_comm, ← h1]
      omega

/-- Every prime passes, with every base it does not divide. -/
theorem prime_passes {p a : Nat} (hp : IsPrime p) (h : ¬ p ∣ a) : PassesTest p a := by
  have h2 := hp.1
  obtain ⟨s, b, h3, h4⟩ := odd_part (p - 1) (by omega)
  refine ⟨s, b, h3, h4, ?_⟩
  have hf := fermat hp h
  rw [h3] at hf
  have key : ∀ k, k ≤ s → a ^ (2 ^ k * b) % p = 1 →
      (a ^ b % p = 1 ∨ ∃ r, r ≤ s ∧ a ^ (2 ^ r * b) % p = p - 1) := by
    intro k
    induction k with
    | zero =>
      intro _ h
      left
      simpa using h
    | succ k ih =>
      intro hk h
      have hsq : a ^ (2 ^ k * b) * a ^ (2 ^ k * b) % p = 1 := by
        rw [← Nat.pow_add, show 2 ^ k * b + 2 ^ k * b = 2 ^ (k + 1) * b by
          rw [Nat.pow_succ, Nat.mul_right_comm]; omega]
        exact h
      rcases root_of_one hp hsq with h | h
      · exact ih (by omega) h
      · exact .inr ⟨k, by omega, h⟩
  exact key s (Nat.le_refl s) hf

end Verif.BigJs
