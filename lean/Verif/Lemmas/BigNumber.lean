import Verif.Spec.BigNumber
import Verif.Lemmas.BigText
/-! Lemmas about the texts of numbers. -/
namespace Verif.BigJs
open Spec

/-- The decimal digits of a number. -/
theorem decimal_digits (n : Nat) : ∃ l : List Nat, l ≠ [] ∧ (∀ d ∈ l, d < 10) ∧ positional 10 l = n ∧
    l.map digit = numeral 10 n ∧ (1 ≤ n → 10 ^ (l.length - 1) ≤ n) := by
  induction n using Nat.strongRecOn with
  | ind n ih =>
    by_cases h : n < 10
    · refine ⟨[n], by simp, by simpa using h, by simp [positional], by rw [numeral_lt h]; rfl, fun h => by simpa using h⟩
    · obtain ⟨l, h1, h2, h3, h4, h5⟩ := ih (n / 10) (by omega)
      refine ⟨l ++ [n % 10], by simp, ?_, ?_, ?_, fun _ => ?_⟩
      · intro d hd
        rcases List.mem_append.mp hd with hd | hd
        · exact h2 d hd
        · have := List.mem_singleton.mp hd
          omega
      · rw [positional_append, h3]
        simp [positional]
        omega
      · rw [numeral_ge (by decide) (by omega), List.map_append, h4]
        rfl
      · have h6 := h5 (by omega)
        have hl : 1 ≤ l.length := List.length_pos_iff.mpr h1
        rw [List.length_append, List.length_singleton]
        have : 10 ^ (l.length + 1 - 1) = 10 ^ (l.length - 1) * 10 := by rw [← Nat.pow_succ]; congr 1; omega
        omega

theorem rounds_exact {fl : Rat → Rat} (hfl : Rounding fl) {x : Rat} (h0 : 0 ≤ x) (h1 : x ≤ 2 ^ 1023)
    (hd : IsDouble x) : fl x = x := by
  have hn := pow_nonneg' 1023
  have := (hfl x (by grind) h1).2 x hd
  unfold ratDist at this
  split at this <;> split at this <;> grind

theorem rounds_mono {fl : Rat → Rat} (hfl : Rounding fl) {x y : Rat} (h0 : 0 ≤ x) (hy : y ≤ 2 ^ 1023)
    (h : x ≤ y) : fl x ≤ fl y := by
  have hn := pow_nonneg' 1023
  obtain ⟨dx, nx⟩ := hfl x (by grind) (by grind)
  obtain ⟨dy, ny⟩ := hfl y (by grind) hy
  have h1 := nx _ dy
  have h2 := ny _ dx
  by_cases he : x = y
  · rw [he]
    exact Rat.le_refl
  unfold ratDist at h1 h2
  refine Rat.not_lt.mp fun hlt => ?_
  split at h1 <;> split at h1 <;> split at h2 <;> split at h2 <;> grind

theorem shown_nat {ds : List Nat} {n : Int} {j : Nat} (h : n - ds.length = j) :
    shown ds n = ((positional 10 ds * 10 ^ j : Nat) : Rat) := by
  rw [shown, h, Rat.zpow_natCast, Rat.natCast_mul, Rat.natCast_pow]
  rfl

theorem shown_nonneg (ds : List Nat) (n : Int) : 0 ≤ shown ds n :=
  Rat.mul_nonneg (by exact_mod_cast Nat.zero_le _) (Rat.le_of_lt (Rat.zpow_pos (by decide)))

/-- A property of numbers that holds for some has a least one. -/
theorem exists_min {p : Nat → Prop} (h : ∃ k, p k) : ∃ k, p k ∧ ∀ m, p m → k ≤ m := by
  obtain ⟨k, hk⟩ := h
  induction k using Nat.strongRecOn with
  | ind k ih =>
    by_cases hm : ∃ m, m < k ∧ p m
    · obtain ⟨m, h1, h2⟩ := hm
      exact ih m h1 h2
    · exact ⟨k, hk, fun m h => Nat.le_of_not_lt fun hlt => hm ⟨m, hlt, h⟩⟩

theorem abs_cast (n : Int) : (if (n : Rat) < 0 then -(n : Rat) else n) = (n.natAbs : Nat) := by
  rw [← Rat.intCast_natCast]
  split
  · rename_i h
    have : n < 0 := by exact_mod_cast h
    rw [← Rat.intCast_neg, Rat.intCast_inj]
    omega
  · rename_i h
    have : ¬ n < 0 := fun h' => h (by exact_mod_cast h')
    rw [Rat.intCast_inj]
    omega

theorem isDouble_one : IsDouble 1 := ⟨1, 1074, by decide, by decide, by decide +kernel⟩

theorem natCast_le {a b : Nat} (h : a ≤ b) : (a : Rat) ≤ b := by exact_mod_cast h

/-- Doubles from `2^53` on are integers. -/
theorem isDouble_int {x : Rat} (hd : IsDouble x) (h : (2 : Rat) ^ 53 ≤ x) : ∃ n : Nat, x = n := by
  obtain ⟨m, e, hm, he, hx⟩ := hd
  have hP : (0 : Rat) < 2 ^ 1074 := by decide +kernel
  have hK : x * 2 ^ 1074 = ((m * 2 ^ e : Int) : Rat) := by
    rw [hx, Rat.intCast_mul, cast_pow]
    grind
  have hge : (2 : Int) ^ 53 * 2 ^ 1074 ≤ m * 2 ^ e := by
    rw [← Rat.intCast_le_intCast, ← hK, Rat.intCast_mul, cast_pow, cast_pow]
    exact Rat.mul_le_mul_of_nonneg_right h (Rat.le_of_lt hP)
  have hm0 : 0 ≤ m := by
    refine Int.not_lt.mp fun hlt => ?_
    have h1 : m * 2 ^ e ≤ 0 := Int.mul_nonpos_of_nonpos_of_nonneg (by omega) (Int.pow_nonneg (by decide))
    have h2 : (0 : Int) < 2 ^ 53 * 2 ^ 1074 := by decide +kernel
    omega
  have he' : 1074 ≤ e := by
    refine Nat.le_of_not_lt fun hlt => ?_
    have hp : (2 : Int) ^ e ≤ 2 ^ 1074 := by
      have h3 := Nat.pow_le_pow_right (show 2 > 0 by decide) (show e ≤ 1074 by omega)
      exact_mod_cast h3
    have hp1 : (0 : Int) < 2 ^ 1074 := Int.pow_pos (by decide)
    have h5 : m * 2 ^ e ≤ m * 2 ^ 1074 := Int.mul_le_mul_of_nonneg_left hp hm0
    have h6 : m * 2 ^ 1074 < 2 ^ 53 * 2 ^ 1074 := Int.mul_lt_mul_of_pos_right (by omega) hp1
    omega
  refine ⟨(m * 2 ^ (e - 1074)).toNat, ?_⟩
  have hfac : m * 2 ^ e = (m * 2 ^ (e - 1074)) * 2 ^ 1074 := by
    rw [Int.mul_assoc, ← Int.pow_add, Nat.sub_add_cancel he']
  have hn : ((m * 2 ^ (e - 1074)).toNat : Int) = m * 2 ^ (e - 1074) :=
    Int.toNat_of_nonneg (Int.mul_nonneg hm0 (Int.pow_nonneg (by decide)))
  rw [hfac, Rat.intCast_mul, ← hn, cast_pow, Rat.intCast_natCast] at hK
  grind

/-- An integer is shown by its digits. -/
theorem standsFor_self {fl : Rat → Rat} (hfl : Rounding fl) {X : Nat} (h1 : 1 ≤ X) (hd : IsDouble (X : Rat))
    (hs : (X : Rat) ≤ 2 ^ 1023) : ∃ l, l ≠ [] ∧ StandsFor fl X l l.length ∧ 10 ^ (l.length - 1) ≤ X := by
  obtain ⟨l, k1, k2, k3, k4, k5⟩ := decimal_digits X
  have hsh : shown l l.length = X := by
    rw [shown_nat (j := 0) (by omega), k3, Nat.pow_zero, Nat.mul_one]
  exact ⟨l, k1, ⟨k2, by rw [k3]; exact k5 h1, by rw [hsh]; exact hs,
    by rw [hsh]; exact rounds_exact hfl (natCast_le (Nat.zero_le X)) hs hd⟩, k5 h1⟩

/-- Numbers from `2^53` on are shown with the point after all digits. -/
theorem point_after {fl : Rat → Rat} (hfl : Rounding fl) {X : Nat} (hX : 2 ^ 53 ≤ X) (hd : IsDouble (X : Rat))
    (hs : (X : Rat) ≤ 2 ^ 1023) {ds : List Nat} {n : Int} (h : Shortest fl X ds n) : (ds.length : Int) ≤ n := by
  obtain ⟨hne, hst, hmin⟩ := h
  have hlt := positional_lt hst.digits
  obtain ⟨l, l1, l2, l3⟩ := standsFor_self hfl (by omega) hd hs
  have hk := hmin l _ l1 l2
  refine Int.not_lt.mp fun hn => ?_
  -- the value is below `10 ^ n`
  obtain ⟨j, hj⟩ : ∃ j : Nat, n - ds.length = -(j : Int) := ⟨(ds.length - n).toNat, by omega⟩
  have hval : shown ds n * ((10 ^ j : Nat) : Rat) = (positional 10 ds : Nat) := by
    rw [shown, hj, Rat.zpow_neg, Rat.zpow_natCast, Rat.natCast_pow]
    have : (10 : Rat) ^ j ≠ 0 := Rat.ne_of_gt (Rat.pow_pos (by decide))
    grind
  have hjpos : (0 : Rat) < ((10 ^ j : Nat) : Rat) := by exact_mod_cast Nat.pow_pos (by decide)
  have hbound : ∀ t : Nat, n ≤ t → shown ds n ≤ ((10 ^ t : Nat) : Rat) := by
    intro t ht
    refine Rat.le_of_mul_le_mul_right ?_ hjpos
    rw [hval, ← Rat.natCast_mul]
    refine natCast_le (Nat.le_trans (Nat.le_of_lt hlt) ?_)
    rw [← Nat.pow_add]
    exact Nat.pow_le_pow_right (by decide) (by omega)
  have hnn := shown_nonneg ds n
  by_cases h0 : n ≤ 0
  · have h1 := hbound 0 h0
    rw [Nat.pow_zero] at h1
    have h2 := rounds_mono hfl hnn (y := 1) (by decide +kernel) h1
    rw [hst.rounds, rounds_exact hfl (by decide) (by decide +kernel) isDouble_one] at h2
    have : X ≤ 1 := by exact_mod_cast h2
    omega
  · obtain ⟨t, rfl⟩ : ∃ t : Nat, n = t := ⟨n.toNat, by omega⟩
    have h1 := hbound t (Int.le_refl _)
    have hw : 10 ^ t ≤ X := Nat.le_trans (Nat.pow_le_pow_right (by decide) (by omega)) l3
    have hw' : ((10 ^ t : Nat) : Rat) ≤ X := natCast_le hw
    have h2 := rounds_mono hfl hnn (Rat.le_trans hw' hs) h1
    have h3 := rounds_mono hfl (natCast_le (Nat.zero_le _)) hs hw'
    rw [hst.rounds] at h2
    rw [rounds_exact hfl (natCast_le (Nat.zero_le X)) hs hd] at h3
    have hsh : shown [1] (t + 1 : Nat) = ((10 ^ t : Nat) : Rat) := by
      rw [shown_nat (j := t) (by simp)]
      simp [positional]
    have := hmin [1] (t + 1 : Nat) (by simp) ⟨by simp, by simp [positional], by rw [hsh]; exact Rat.le_trans hw' hs,
      by rw [hsh]; exact Rat.le_antisymm h3 h2⟩
    simp at this
    omega

end Verif.BigJs
