import Verif.Lemmas.BigNumber
import Verif.Props.BigText
/-! C84: big integers from numbers. -/
namespace Verif.Props
open BigJs Spec

/-- An integer with a sign. -/
def signed (neg : Bool) (n : Nat) : Int := if neg then -(n : Int) else n

/-- Digits with the point after all of them are read as they are. -/
theorem digitsText_read {fl : Rat → Rat} (hfl : Rounding fl) (neg : Bool) {ds : List Nat} (hne : ds ≠ [])
    (hd : ∀ d ∈ ds, d < 10) {n : Int} {j : Nat} (hj : n - ds.length = j) (hn : n ≤ 400) :
    GivesInt (parseText fl ((if neg then ['-'] else []) ++ digitsText ds n)) (signed neg (positional 10 ds * 10 ^ j)) := by
  have hg : ∀ g : Sign, g = (if neg then .minus else .none) →
      g.text = (if neg then ['-'] else []) ∧ (g = .minus ↔ neg = true) ∧ g ≠ .plus := by
    rintro g rfl
    cases neg <;> decide
  obtain ⟨g, hgdef⟩ : ∃ g : Sign, g = (if neg then .minus else .none) := ⟨_, rfl⟩
  obtain ⟨g1, g2, g3⟩ := hg g hgdef
  have hlen : 1 ≤ ds.length := List.length_pos_iff.mpr hne
  rw [← g1]
  by_cases h21 : n ≤ 21
  · let l : Literal := ⟨g, ds ++ List.replicate j 0, false, [], none⟩
    have hv : l.Valid := by
      refine ⟨?_, by simp [l], by simp [l], by simp [l, hne], by simp [l]⟩
      intro d h
      rcases List.mem_append.mp h with h | h
      · exact hd d h
      · rw [(List.mem_replicate.mp h).2]
        decide
    have ht : l.text = g.text ++ digitsText ds n := by
      rw [digitsText, if_pos ⟨by omega, h21⟩, hj]
      simp [Literal.text, l]
    have hval : l.value = signed neg (positional 10 ds * 10 ^ j) := by
      rw [value_nat l (k := 0) (by simp [l, Literal.power])]
      simp only [l, List.append_nil, positional_append, positional_zeros, List.length_replicate, g2, signed]
      simp
    rw [← ht]
    exact C83_reads_partial fl hfl l hv _ hval (.inr ⟨g3, rfl⟩)
  · obtain ⟨l', m1, m2, m3, m4, _⟩ := decimal_digits (n - 1).natAbs
    let l : Literal := ⟨g, ds.take 1, decide (ds.length ≠ 1), ds.drop 1, some ⟨false, .plus, l'⟩⟩
    have hex : (⟨false, .plus, l'⟩ : Exponent).number = n - 1 := by
      rw [Exponent.number, if_neg (fun h => nomatch h)]
      simp only [m3]
      omega
    have hv : l.Valid := by
      refine ⟨fun d h => hd d (List.mem_of_mem_take h), fun d h => hd d (List.mem_of_mem_drop h), ?_, ?_, ?_⟩
      · intro h
        have : ds.length = 1 := by simpa [l] using h
        exact List.drop_eq_nil_of_le (by omega)
      · rintro ⟨h, _⟩
        have := congrArg List.length h
        simp only [l, List.length_take, List.length_nil] at this
        omega
      · intro e he
        cases he
        exact ⟨m2, m1⟩
    have ht : l.text = g.text ++ digitsText ds n := by
      rw [digitsText, if_neg (by omega), if_neg (by omega), if_neg (by omega)]
      simp only [Literal.text, l, Exponent.text, Sign.text, m4, if_pos (show 0 < n - 1 by omega)]
      by_cases h1 : ds.length = 1
      · simp [h1]
      · simp [h1]
    have hval : l.value = signed neg (positional 10 ds * 10 ^ j) := by
      rw [value_nat l (k := j)]
      · simp only [l, List.take_append_drop, g2, signed]
      · simp only [l, Literal.power, hex, List.length_drop]
        omega
    rw [← ht]
    refine C83_reads_partial fl hfl l hv _ hval (.inr ⟨g3, ?_⟩)
    simp only [l, hex, List.length_drop]
    omega

theorem pow_bound {n : Nat} (h : ((10 ^ n : Nat) : Rat) ≤ 2 ^ 1023) : n < 308 := by
  refine Nat.lt_of_not_le fun hn => ?_
  have h1 : ((10 ^ 308 : Nat) : Rat) ≤ ((10 ^ n : Nat) : Rat) := natCast_le (Nat.pow_le_pow_right (by decide) hn)
  have h2 : (2 : Rat) ^ 1023 < ((10 ^ 308 : Nat) : Rat) := by decide +kernel
  exact Rat.not_lt.mpr (Rat.le_trans h1 h) h2

/-- **C84, exactly.** For every double: integers below `2^53` in size are given as they are, numbers that are
no integers are rejected, and larger numbers give their shortest digits, followed by zeros. -/
theorem C84_exact (fl : Rat → Rat) (hfl : Rounding fl) (x : Rat) (hd : IsDouble x) (text : List Char) :
    (∀ n : Int, x = n → n.natAbs < 2 ^ 53 → GivesInt (parseNumber fl x text) n) ∧
    ((∀ n : Int, x ≠ n) → Throws (parseNumber fl x text)) ∧
    ((2 : Rat) ^ 53 ≤ (if x < 0 then -x else x) → (if x < 0 then -x else x) ≤ 2 ^ 1023 → IsText fl x text →
      ∃ ds n j, Shortest fl (if x < 0 then -x else x) ds n ∧ n - ds.length = (j : Nat) ∧
        GivesInt (parseNumber fl x text) (signed (x < 0) (positional 10 ds * 10 ^ j))) := by
  have hM : (MAX_INT : Int) = 9007199254740992 := rfl
  have hdn : ∀ {x : Rat}, IsDouble x → IsDouble (-x) := by
    rintro x ⟨m, e, h1, h2, h3⟩
    refine ⟨-m, e, by omega, h2, ?_⟩
    rw [h3, Rat.intCast_neg]
    grind
  have habs : IsDouble (if x < 0 then -x else x) := by split <;> first | exact hdn hd | exact hd
  have hprec : isPreciseRat x = true ↔ (if x < 0 then -x else x) < 2 ^ 53 := by
    have h53 : ((2 ^ 53 : Int) : Rat) = 2 ^ 53 := by decide +kernel
    have h0 : (0 : Rat) < 2 ^ 53 := by decide +kernel
    rw [isPreciseRat, maxInt_rat, h53]
    simp only [Bool.and_eq_true, decide_eq_true_eq]
    split <;> grind
  refine ⟨?_, ?_, ?_⟩
  · intro n hn hlt
    refine givesInt_of (b := .ofSmall n) ?_ (ofSmall_ok (by omega) (by omega)) rfl
    rw [parseNumber, hn, isPreciseRat_int, decide_eq_true hlt]
    simp
  · intro hni
    have hlt : (if x < 0 then -x else x) < 2 ^ 53 := by
      refine Rat.not_le.mp fun hle => ?_
      obtain ⟨n, hn⟩ := isDouble_int habs hle
      split at hn
      · refine hni (-(n : Int)) ?_
        rw [Rat.intCast_neg, Rat.intCast_natCast, ← hn, Rat.neg_neg]
      · refine hni (n : Int) ?_
        rw [Rat.intCast_natCast, ← hn]
    have hden : x.den ≠ 1 := fun h => hni x.num (Rat.ext rfl h)
    refine ⟨"is not an integer.", ?_⟩
    rw [parseNumber, if_pos (hprec.mpr hlt), if_neg hden]
  · rintro hge hs ⟨ds, n, hsh, ht⟩
    obtain ⟨X, hX⟩ := isDouble_int habs hge
    rw [hX] at hge hs habs hsh
    have hX53 : 2 ^ 53 ≤ X := by
      have : ((2 ^ 53 : Nat) : Rat) ≤ X := by rw [Rat.natCast_pow]; exact hge
      exact_mod_cast this
    have hpt := point_after hfl hX53 habs hs hsh
    obtain ⟨j, hj⟩ : ∃ j : Nat, n - ds.length = j := ⟨(n - ds.length).toNat, by omega⟩
    have hlen : 1 ≤ ds.length := List.length_pos_iff.mpr hsh.1
    have hb := hsh.2.1.small
    rw [shown_nat hj] at hb
    have hpow : 10 ^ (ds.length - 1 + j) ≤ positional 10 ds * 10 ^ j := by
      rw [Nat.pow_add]
      exact Nat.mul_le_mul_right _ hsh.2.1.first
    have := pow_bound (Rat.le_trans (natCast_le hpow) hb)
    refine ⟨ds, n, j, hX ▸ hsh, hj, ?_⟩
    have hnp : ¬ isPreciseRat x = true := by
      rw [hprec, hX]
      exact Rat.not_lt.mpr hge
    rw [parseNumber, if_neg hnp, ht]
    have := digitsText_read hfl (decide (x < 0)) hsh.1 hsh.2.1.digits hj (by omega)
    simpa using this

/-- **C84, in part.** The integer that `bigint(x)` gives for an integer `x` is rounded to `x` again, and is
`x` itself if `x` is below `2^53` in size. Missing: it need not be `x` above (`C84_refuted`). -/
theorem C84_back_partial (fl : Rat → Rat) (hfl : Rounding fl) (x : Rat) (hd : IsDouble x) (text : List Char)
    (ht : IsText fl x text) (hs : (if x < 0 then -x else x) ≤ 2 ^ 1023) (n : Int) (hn : x = n) :
    ∃ z, GivesInt (parseNumber fl x text) z ∧ fl (z.natAbs : Nat) = (if x < 0 then -x else x) ∧
      (z < 0 ↔ x < 0) ∧ (n.natAbs < 2 ^ 53 → z = n) ∧ z.natAbs ≤ 2 ^ 1023 := by
  obtain ⟨h1, _, h3⟩ := C84_exact fl hfl x hd text
  have habs : (if x < 0 then -x else x) = (n.natAbs : Nat) := by
    rw [hn]
    exact abs_cast n
  have hneg : n < 0 ↔ x < 0 := by
    rw [hn]
    exact ⟨fun h => by exact_mod_cast h, fun h => by exact_mod_cast h⟩
  by_cases hlt : n.natAbs < 2 ^ 53
  · refine ⟨n, h1 n hn hlt, ?_, hneg, fun _ => rfl, by omega⟩
    rw [habs]
    exact fl_int hfl (m := (n.natAbs : Int)) (by omega) (by omega)
  · have hge : (2 : Rat) ^ 53 ≤ (if x < 0 then -x else x) := by
      rw [habs]
      have := natCast_le (show 2 ^ 53 ≤ n.natAbs by omega)
      rwa [Rat.natCast_pow] at this
    obtain ⟨ds, m, j, k1, k2, k3⟩ := h3 hge hs ht
    refine ⟨_, k3, ?_, ?_, fun h => absurd h hlt, ?_⟩
    · have hnat : (signed (decide (x < 0)) (positional 10 ds * 10 ^ j)).natAbs = positional 10 ds * 10 ^ j := by
        rw [signed]
        split <;> omega
      rw [hnat, ← shown_nat k2]
      exact k1.2.1.rounds
    · have hpos : 1 ≤ positional 10 ds * 10 ^ j :=
        Nat.mul_pos (Nat.lt_of_lt_of_le (Nat.pow_pos (by decide)) k1.2.1.first) (Nat.pow_pos (by decide))
      rw [signed]
      by_cases hx : x < 0
      · simp only [hx, decide_true, if_true, iff_true]; omega
      · simp only [hx, decide_false, Bool.false_eq_true, if_false, iff_false]; omega
    · have hb := k1.2.1.small
      rw [shown_nat k2, ← Rat.natCast_ofNat, ← Rat.natCast_pow] at hb
      have hb' : positional 10 ds * 10 ^ j ≤ 2 ^ 1023 := by exact_mod_cast hb
      rw [signed]
      split <;> omega

/-- Numbers that are not zero have a text. -/
theorem C84_text_exists (fl : Rat → Rat) (hfl : Rounding fl) (n : Int) (h0 : n ≠ 0) (hd : IsDouble (n.natAbs : Nat))
    (hs : ((n.natAbs : Nat) : Rat) ≤ 2 ^ 1023) : ∃ text, IsText fl n text := by
  have hex : ∃ k, ∃ ds m, ds.length = k ∧ ds ≠ [] ∧ StandsFor fl (n.natAbs : Nat) ds m := by
    obtain ⟨l, h1, h2, _⟩ := standsFor_self hfl (X := n.natAbs) (by omega) hd hs
    exact ⟨_, l, _, rfl, h1, h2⟩
  obtain ⟨k, ⟨ds, m, h1, h2, h3⟩, hmin⟩ := exists_min hex
  have habs := abs_cast n
  refine ⟨_, ds, m, ⟨h2, by rw [habs]; exact h3, fun ds' m' k1 k2 => ?_⟩, rfl⟩
  rw [h1]
  exact hmin _ ⟨ds', m', rfl, k1, by rw [habs] at k2; exact k2⟩

/-- No double other than `2^60` is as near to 1152921504606847000. -/
theorem rounds_2_60 {fl : Rat → Rat} (hfl : Rounding fl) : fl (1152921504606847000 : Nat) = (1152921504606846976 : Nat) := by
  obtain ⟨⟨m, e, hm, he, hx⟩, hnear⟩ := hfl (1152921504606847000 : Nat) (by decide +kernel) (by decide +kernel)
  have hdd : IsDouble (1152921504606846976 : Nat) := by
    have := isDouble_mul (m := 1) (e := 60) (by decide) (by decide)
    rwa [show ((1 : Int) : Rat) * 2 ^ 60 = ((1152921504606846976 : Nat) : Rat) by decide +kernel] at this
  have hdist := hnear _ hdd
  generalize fl (1152921504606847000 : Nat) = y at *
  have hd1 : ratDist (1152921504606846976 : Nat) (1152921504606847000 : Nat) = 24 := by decide +kernel
  rw [hd1] at hdist
  have hlo : ((1152921504606846976 : Nat) : Rat) ≤ y := by
    unfold ratDist at hdist
    split at hdist <;> grind
  have hhi : y ≤ ((1152921504606847024 : Nat) : Rat) := by
    unfold ratDist at hdist
    split at hdist <;> grind
  obtain ⟨N, hN⟩ := isDouble_int ⟨m, e, hm, he, hx⟩ (Rat.le_trans (by decide +kernel) hlo)
  have hP : (0 : Rat) < 2 ^ 1074 := by decide +kernel
  have hK : y * 2 ^ 1074 = ((m * 2 ^ e : Int) : Rat) := by
    rw [hx, Rat.intCast_mul, cast_pow]
    grind
  have hKN : (N : Int) * 2 ^ 1074 = m * 2 ^ e := by
    rw [← Rat.intCast_inj, ← hK, hN, Rat.intCast_mul, cast_pow, Rat.intCast_natCast]
  rw [hN] at hlo hhi
  have hlo' : 1152921504606846976 ≤ N := by exact_mod_cast hlo
  have hhi' : N ≤ 1152921504606847024 := by exact_mod_cast hhi
  have hT : (0 : Int) < 2 ^ 1074 := Int.pow_pos (by decide)
  have he' : 1082 ≤ e := by
    refine Nat.le_of_not_lt fun hlt => ?_
    have hp : (2 : Int) ^ e ≤ 2 ^ 7 * 2 ^ 1074 := by
      rw [← Int.pow_add]
      have h3 := Nat.pow_le_pow_right (show 2 > 0 by decide) (show e ≤ 7 + 1074 by omega)
      exact_mod_cast h3
    have hp0 : (0 : Int) ≤ 2 ^ e := Int.pow_nonneg (by decide)
    have h5 : m * 2 ^ e ≤ (2 ^ 53 - 1) * (2 ^ 7 * 2 ^ 1074) := Int.mul_le_mul (by omega) hp hp0 (by decide)
    rw [← hKN, ← Int.mul_assoc] at h5
    have := Int.le_of_mul_le_mul_right h5 hT
    omega
  have hfac : m * 2 ^ e = (m * 2 ^ (e - 1082)) * 2 ^ 8 * 2 ^ 1074 := by
    rw [Int.mul_assoc, Int.mul_assoc, ← Int.pow_add, ← Int.pow_add,
      show e - 1082 + (8 + 1074) = e from Nat.sub_add_cancel he']
  rw [hfac] at hKN
  have h256 : (N : Int) = (m * 2 ^ (e - 1082)) * 2 ^ 8 := Int.eq_of_mul_eq_mul_right (Int.ne_of_gt hT) hKN
  have : N = 1152921504606846976 := by omega
  rw [hN, this]

/-- **C84 fails** from `2^53` on: `bigint(2**60)` is not `2^60`, whichever rounding and whichever of the
shortest digits are used. -/
theorem C84_refuted (fl : Rat → Rat) (hfl : Rounding fl) (text : List Char) (ht : IsText fl (2 ^ 60) text) :
    ¬ GivesInt (parseNumber fl (2 ^ 60) text) (2 ^ 60) := by
  intro hgive
  have hval : (2 : Rat) ^ 60 = (1152921504606846976 : Nat) := by decide +kernel
  have hneg : ¬ (2 : Rat) ^ 60 < 0 := by decide +kernel
  have hd : IsDouble (2 ^ 60) := by
    have := isDouble_mul (m := 1) (e := 60) (by decide) (by decide)
    rwa [show ((1 : Int) : Rat) * 2 ^ 60 = 2 ^ 60 by decide +kernel] at this
  obtain ⟨ds, n, j, k1, k2, k3⟩ := (C84_exact fl hfl _ hd text).2.2 (by decide +kernel) (by decide +kernel) ht
  rw [if_neg hneg] at k1
  have heq : signed (decide ((2 : Rat) ^ 60 < 0)) (positional 10 ds * 10 ^ j) = 2 ^ 60 := by
    obtain ⟨b, h1, _, h3, _⟩ := hgive
    obtain ⟨b', h1', _, h3', _⟩ := k3
    rw [h1] at h1'
    cases h1'
    rw [← h3, ← h3']
  rw [decide_eq_false hneg, signed, if_neg (by decide)] at heq
  have heq' : positional 10 ds * 10 ^ j = 2 ^ 60 := by exact_mod_cast heq
  -- sixteen digits are enough
  have h16 : ds.length ≤ 16 := by
    have hsh : shown [1,1,5,2,9,2,1,5,0,4,6,0,6,8,4,7] 19 = (1152921504606847000 : Nat) := by decide +kernel
    have := k1.2.2 [1,1,5,2,9,2,1,5,0,4,6,0,6,8,4,7] 19 (by decide) ⟨by decide, by decide, by rw [hsh]; decide +kernel,
      by rw [hsh, rounds_2_60 hfl, hval]⟩
    simpa using this
  cases j with
  | zero =>
    have h1 := positional_lt k1.2.1.digits
    have h2 := Nat.pow_le_pow_right (show 10 > 0 by decide) h16
    rw [Nat.pow_zero, Nat.mul_one] at heq'
    omega
  | succ j =>
    have : 5 ∣ 2 ^ 60 := by
      rw [← heq', Nat.pow_succ]
      exact ⟨positional 10 ds * 10 ^ j * 2, by rw [← Nat.mul_assoc]; omega⟩
    omega

/-- There is such a text, and such a rounding. -/
example : ∃ fl, Rounding fl ∧ ∃ text, IsText fl (2 ^ 60) text := by
  obtain ⟨fl, hfl⟩ := rounding_exists
  refine ⟨fl, hfl, ?_⟩
  have hd : IsDouble ((2 ^ 60 : Int).natAbs : Nat) := by
    have := isDouble_mul (m := 1) (e := 60) (by decide) (by decide)
    rwa [show ((1 : Int) : Rat) * 2 ^ 60 = (((2 ^ 60 : Int).natAbs : Nat) : Rat) by decide +kernel] at this
  have := C84_text_exists fl hfl (2 ^ 60) (by decide) hd (by decide +kernel)
  rwa [show (((2 ^ 60 : Int)) : Rat) = 2 ^ 60 by decide +kernel] at this

/-- **C84, `NaN` and the infinities.** They are rejected. -/
theorem C84_special (fl : Rat → Rat) (text : List Char) :
    Throws (parseNumberValue fl .nan text) ∧ ∀ negative, Throws (parseNumberValue fl (.inf negative) text) :=
  ⟨⟨_, rfl⟩, fun negative => by cases negative <;> exact ⟨_, rfl⟩⟩

end Verif.Props
