import Verif.Model.BigRandom
import Verif.Spec.BigRandom
import Verif.Lemmas.BigPrime
import Verif.Lemmas.Rounding
/-! Lemmas on random big integers. -/
namespace Verif.BigJs
open Spec

/-- What `Math.random()` gives: a number from zero to the largest double below one. -/
def Unit01 (r : Rat) : Prop := 0 ≤ r ∧ r ≤ 1 - 1 / 2 ^ 53

/-- The largest double below one. -/
theorem random_unit {r : Rat} (h : IsRandom r) : Unit01 r := by
  obtain ⟨⟨m, e, h1, h2, rfl⟩, h3, h4⟩ := h
  refine ⟨h3, ?_⟩
  have hT : (0 : Rat) < 2 ^ 1074 := by decide +kernel
  have hlt : m * 2 ^ e < 2 ^ 1074 := by
    have h5 : (m : Rat) * 2 ^ e / 2 ^ 1074 * 2 ^ 1074 < 1 * 2 ^ 1074 := Rat.mul_lt_mul_of_pos_right h4 hT
    rw [Rat.div_mul_cancel (by grind), Rat.one_mul] at h5
    have h6 : ((m * 2 ^ e : Int) : Rat) < ((2 ^ 1074 : Int) : Rat) := by
      rw [Rat.intCast_mul, cast_pow, cast_pow]
      exact h5
    exact Rat.intCast_lt_intCast.mp h6
  have hle : m * 2 ^ e ≤ 2 ^ 1074 - 2 ^ 1021 := by
    by_cases he : 1021 ≤ e
    · obtain ⟨j, rfl⟩ : ∃ j, e = j + 1021 := ⟨e - 1021, by omega⟩
      rw [Int.pow_add, ← Int.mul_assoc] at hlt ⊢
      have h7 : m * 2 ^ j < 2 ^ 53 := by
        rw [show (2 : Int) ^ 1074 = 2 ^ 53 * 2 ^ 1021 by decide +kernel] at hlt
        exact Int.lt_of_mul_lt_mul_right hlt (Int.pow_nonneg (by decide))
      have h8 := Int.mul_le_mul_of_nonneg_right (show m * 2 ^ j ≤ 2 ^ 53 - 1 by omega)
        (show (0 : Int) ≤ 2 ^ 1021 from Int.pow_nonneg (by decide))
      refine Int.le_trans h8 ?_
      decide +kernel
    · have h5 : (2 : Int) ^ e ≤ 2 ^ 1020 := by
        have := Nat.pow_le_pow_right (show 2 > 0 by decide) (show e ≤ 1020 by omega)
        exact_mod_cast this
      have h6 : (0 : Int) ≤ 2 ^ e := Int.pow_nonneg (by decide)
      have h7 : m * 2 ^ e ≤ (2 ^ 53 - 1) * 2 ^ 1020 := Int.mul_le_mul (by omega) h5 h6 (by decide)
      refine Int.le_trans h7 ?_
      decide +kernel
  have hle' : (m : Rat) * 2 ^ e ≤ 2 ^ 1074 - 2 ^ 1021 := by
    have : ((m * 2 ^ e : Int) : Rat) ≤ ((2 ^ 1074 - 2 ^ 1021 : Int) : Rat) := Rat.intCast_le_intCast.mpr hle
    rwa [Rat.intCast_mul, Rat.intCast_sub, cast_pow, cast_pow, cast_pow] at this
  have heq : (1 - 1 / 2 ^ 53 : Rat) = (2 ^ 1074 - 2 ^ 1021) / 2 ^ 1074 := by decide +kernel
  rw [heq, Rat.div_def, Rat.div_def]
  exact Rat.mul_le_mul_of_nonneg_right hle' (Rat.le_of_lt (Rat.inv_pos.mpr hT))

/-- Below every positive number there is a double that is near. -/
theorem double_below {T : Nat} (h1 : 1 ≤ T) (h2 : T < 2 ^ 53) :
    ∃ d : Rat, IsDouble d ∧ d < T ∧ (T : Rat) - d < 2 * ((T : Rat) * (1 / 2 ^ 53)) := by
  have hT : (2 : Rat) ^ 1074 ≠ 0 := by decide +kernel
  by_cases hone : T = 1
  · subst hone
    refine ⟨1 - 1 / 2 ^ 53, ⟨2 ^ 53 - 1, 1021, by decide, by decide, by decide +kernel⟩, by decide +kernel, by decide +kernel⟩
  · obtain ⟨k, hk1, hk2⟩ : ∃ k, 2 ^ k ≤ T - 1 ∧ T - 1 < 2 ^ (k + 1) :=
      ⟨(T - 1).log2, Nat.log2_self_le (by omega), Nat.lt_log2_self⟩
    have hk : k ≤ 52 := by
      refine Nat.le_of_not_lt fun h => ?_
      have := Nat.pow_le_pow_right (show 2 > 0 by decide) h
      omega
    obtain ⟨j, hj⟩ : ∃ j, k + j = 52 := ⟨52 - k, by omega⟩
    have hm : T * 2 ^ j ≤ 2 ^ 53 := by
      have := Nat.mul_le_mul_right (2 ^ j) (show T ≤ 2 ^ (k + 1) by omega)
      rw [← Nat.pow_add, show k + 1 + j = 53 by omega] at this
      exact this
    have hm1 : 1 ≤ T * 2 ^ j := Nat.mul_pos h1 (Nat.pow_pos (by decide))
    have hjpos : (0 : Rat) < 2 ^ j := Rat.pow_pos (by decide)
    have hpow : (2 : Rat) ^ k * 2 ^ j = 2 ^ 52 := by rw [← rat_pow_add, hj]
    refine ⟨T - 1 / 2 ^ j, ⟨(T * 2 ^ j : Nat) - 1, 1074 - j, by omega, by omega, ?_⟩, ?_, ?_⟩
    · rw [Rat.intCast_sub, Rat.intCast_natCast, Rat.natCast_mul, Rat.natCast_pow]
      have : (2 : Rat) ^ 1074 = 2 ^ (1074 - j) * 2 ^ j := by rw [← rat_pow_add, show 1074 - j + j = 1074 by omega]
      rw [this] at hT ⊢
      generalize (2 : Rat) ^ j = J at *
      generalize (2 : Rat) ^ (1074 - j) = W at *
      have e2 : ((2 : Nat) : Rat) = 2 := rfl
      have e1 : ((1 : Int) : Rat) = 1 := rfl
      grind
    · have : (0 : Rat) < 1 / 2 ^ j := by
        rw [Rat.div_def, Rat.one_mul]
        exact Rat.inv_pos.mpr hjpos
      grind
    · have hlt : ((2 ^ k : Nat) : Rat) < T := by exact_mod_cast (show 2 ^ k < T by omega)
      rw [Rat.natCast_pow] at hlt
      have e : (T : Rat) - (T - 1 / 2 ^ j) = 2 ^ k * (1 / 2 ^ 52) := by
        rw [← hpow]
        have hkpos : (0 : Rat) < 2 ^ k := Rat.pow_pos (by decide)
        generalize (2 : Rat) ^ j = J at *
        generalize (2 : Rat) ^ k = K at *
        grind
      rw [e]
      have h52 : (0 : Rat) < 1 / 2 ^ 52 := by decide +kernel
      have h53 : (2 : Rat) * ((T : Rat) * (1 / 2 ^ 53)) = T * (1 / 2 ^ 52) := by grind
      rw [h53]
      exact Rat.mul_lt_mul_of_pos_right hlt h52

/-- The product of a random number and a number `T`, rounded to a double, is below `T`. -/
theorem product_below {fl : Rat → Rat} (hfl : Rounding fl) {r : Rat} (hr : Unit01 r) {T : Nat} (h1 : 1 ≤ T)
    (h2 : T < 2 ^ 53) : 0 ≤ fl (r * T) ∧ fl (r * T) < T := by
  obtain ⟨r0, r1⟩ := hr
  have hT0 : (0 : Rat) ≤ T := by exact_mod_cast Nat.zero_le T
  have hT53 : (T : Rat) ≤ 2 ^ 53 := by
    have : (T : Rat) ≤ ((2 ^ 53 : Nat) : Rat) := by exact_mod_cast Nat.le_of_lt h2
    rwa [Rat.natCast_pow] at this
  have hx0 : 0 ≤ r * T := Rat.mul_nonneg r0 hT0
  have hx1 : r * T ≤ (1 - 1 / 2 ^ 53) * T := Rat.mul_le_mul_of_nonneg_right r1 hT0
  have hbig : (2 : Rat) ^ 53 ≤ 2 ^ 1023 := by decide +kernel
  have hneg : -((2 : Rat) ^ 1023) ≤ 0 := by decide +kernel
  have hpos : (0 : Rat) ≤ T * (1 / 2 ^ 53) := Rat.mul_nonneg hT0 (by decide +kernel)
  generalize hu : (T : Rat) * (1 / 2 ^ 53) = u at *
  have hx1' : r * T ≤ T - u := by grind
  obtain ⟨_, hnear⟩ := hfl (r * T) (by grind) (by grind)
  have hz : IsDouble 0 := ⟨0, 0, by decide, by decide, by decide +kernel⟩
  obtain ⟨d, d1, d2, d3⟩ := double_below h1 h2
  rw [hu] at d3
  have n0 := hnear 0 hz
  have nd := hnear d d1
  unfold ratDist at n0 nd
  constructor
  · split at n0 <;> grind
  · refine Rat.not_le.mp fun hle => ?_
    split at nd <;> split at nd <;> grind

theorem floor_bounds {x : Rat} {T : Nat} (h0 : 0 ≤ x) (h1 : x < T) : 0 ≤ x.floor ∧ x.floor < T := by
  constructor
  · exact Rat.le_floor_iff.mpr (by simpa using h0)
  · have : x < ((T : Int) : Rat) := by rw [Rat.intCast_natCast]; exact h1
    exact Rat.floor_lt_iff.mpr this

theorem truncate_nonneg {x : Rat} (h0 : 0 ≤ x) : truncateRat x = x.floor := by
  unfold truncateRat
  split
  · rfl
  · have : x = 0 := by grind
    subst this
    decide

theorem digit_below {fl : Rat → Rat} (hfl : Rounding fl) {r : Rat} (hr : Unit01 r) {T : Int} (h1 : 1 ≤ T)
    (h2 : T < 2 ^ 53) : 0 ≤ truncateRat (fl (r * T)) ∧ truncateRat (fl (r * T)) < T := by
  obtain ⟨N, rfl⟩ : ∃ N : Nat, T = N := ⟨T.toNat, by omega⟩
  obtain ⟨p1, p2⟩ := product_below hfl hr (T := N) (by omega) (by omega)
  rw [Rat.intCast_natCast, truncate_nonneg p1]
  exact floor_bounds p1 p2

theorem digit_zero {fl : Rat → Rat} (hfl : Rounding fl) (r : Rat) : truncateRat (fl (r * (0 : Int))) = 0 := by
  have h := fl_int hfl (m := 0) (by decide) (by decide)
  rw [show r * ((0 : Int) : Rat) = ((0 : Int) : Rat) from Rat.mul_zero r, h]
  decide

/-- The digits drawn: as many as there are, each below the base; without restriction nothing more, with it
they are a number below the one given, unless that is zero; and below its first digit with zeros after it. -/
theorem randDigits_ok {fl : Rat → Rat} (hfl : Rounding fl) {rand : Nat → Rat} (hr : ∀ k, Unit01 (rand k)) :
    ∀ (vs : Arr) (restricted : Bool) (k : Nat) (acc : Arr), Digits vs →
      ∃ ds, randDigits fl rand restricted k vs acc = ds ++ acc ∧ ds.length = vs.length ∧ Digits ds ∧
        (restricted = true → val ds < val vs.reverse ∨ val ds = 0 ∧ val vs.reverse = 0) ∧
        (restricted = true → ∀ v vs', vs = v :: vs' → 0 < v → val ds < 10000000 ^ vs'.length * v)
  | [], restricted, k, acc, _ => ⟨[], rfl, rfl, nofun, fun _ => .inr ⟨rfl, rfl⟩, nofun⟩
  | v :: vs, restricted, k, acc, hd => by
    have hB : (BASE : Int) = 10000000 := rfl
    obtain ⟨v0, v1⟩ := hd v (by simp)
    have hd' : Digits vs := fun x hx => hd x (by simp [hx])
    rw [randDigits]
    have hrev : val (v :: vs).reverse = val vs.reverse + 10000000 ^ vs.length * v := by
      rw [List.reverse_cons, val_append, List.length_reverse]
      simp [val]
    have hpos : (0 : Int) < 10000000 ^ vs.length := Int.pow_pos (by decide)
    have hvs : 0 ≤ val vs.reverse := val_nonneg fun x hx => hd' x (by simpa using hx)
    by_cases hz : restricted = true ∧ v = 0
    · obtain ⟨rfl, rfl⟩ := hz
      rw [if_pos rfl, digit_zero hfl, if_neg (by omega)]
      obtain ⟨ds, k1, k2, k3, k4, _⟩ := randDigits_ok hfl hr vs true (k + 1) (0 :: acc) hd'
      refine ⟨ds ++ [0], by rw [k1]; simp, by simp [k2], digits_append.mpr ⟨k3, by intro x hx; simp at hx; omega⟩, fun _ => ?_, ?_⟩
      · rw [val_append, hrev]
        simpa [val] using k4 rfl
      · rintro _ v' vs' h hv'
        cases h
        omega
    · have htop : ∃ T : Int, (if restricted = true then v else BASE) = T ∧ 1 ≤ T ∧ T ≤ 10000000 := by
        refine ⟨_, rfl, ?_⟩
        split
        · rename_i h
          exact ⟨by have : v ≠ 0 := fun h' => hz ⟨h, h'⟩; omega, by omega⟩
        · omega
      obtain ⟨T, hT, T1, T2⟩ := htop
      rw [hT]
      obtain ⟨d0, d1⟩ := digit_below hfl (hr k) T1 (by omega)
      generalize truncateRat (fl (rand k * T)) = digit at *
      rw [if_pos d1]
      obtain ⟨ds, k1, k2, k3, _, _⟩ := randDigits_ok hfl hr vs false (k + 1) (digit :: acc) hd'
      have hlt := val_lt k3
      rw [k2] at hlt
      have hval : val (ds ++ [digit]) = val ds + 10000000 ^ vs.length * digit := by
        rw [val_append, k2]
        simp [val]
      have hbound : restricted = true → val (ds ++ [digit]) < 10000000 ^ vs.length * v := by
        intro hres
        rw [if_pos hres] at hT
        subst hT
        rw [hval]
        have h1 := Int.mul_le_mul_of_nonneg_left (show digit + 1 ≤ v by omega) (Int.le_of_lt hpos)
        rw [Int.mul_add, Int.mul_one] at h1
        omega
      refine ⟨ds ++ [digit], by rw [k1]; simp, by simp [k2],
        digits_append.mpr ⟨k3, by intro x hx; simp at hx; omega⟩, fun h => .inl ?_, ?_⟩
      · rw [hrev]
        have := hbound h
        omega
      · rintro h v' vs' hcons hv'
        cases hcons
        exact hbound h

/-- `randBetween`: the result is between the bounds. Where there are at least `2^53` numbers between them, it is
below the count of them rounded down to its first digit to the base of ten millions. -/
theorem randBetween_ok {fl : Rat → Rat} (hfl : Rounding fl) {rand : Nat → Rat} (hr : ∀ k, Unit01 (rand k))
    {a b : Big} (ha : a.Ok) (hb : b.Ok) : ∃ z, randBetween fl rand a b = .ok z ∧ z.Ok ∧
      min a.toInt b.toInt ≤ z.toInt ∧ z.toInt ≤ max a.toInt b.toInt ∧
      ∀ n : Int, n = max a.toInt b.toInt - min a.toInt b.toInt + 1 → 2 ^ 53 ≤ n →
        ∃ k : Nat, 10000000 ^ k ≤ n ∧ n < 10000000 ^ (k + 1) ∧
          z.toInt < min a.toInt b.toInt + n / 10000000 ^ k * 10000000 ^ k := by
  have hM : (MAX_INT : Int) = 9007199254740992 := rfl
  obtain ⟨l1, l2⟩ := min_ok ha hb
  obtain ⟨m1, m2⟩ := max_ok ha hb
  obtain ⟨d, d1, d2, d3⟩ := subtract_ok m1 l1
  obtain ⟨r, r1, r2, r3⟩ := add_ok d2 (little_ok (v := 1) (by decide) (by decide))
  rw [d3, m2, l2, toInt_ofSmall] at r3
  have hle : min a.toInt b.toInt ≤ max a.toInt b.toInt := by omega
  generalize hlo : min a.toInt b.toInt = lo at *
  generalize hhi : max a.toInt b.toInt = hi at *
  -- adding what is drawn
  have hadd : ∀ (o : Big), o.Ok → 0 ≤ o.toInt → o.toInt < hi - lo + 1 →
      (2 ^ 53 ≤ hi - lo + 1 → ∃ k : Nat, (10000000 : Int) ^ k ≤ hi - lo + 1 ∧ hi - lo + 1 < 10000000 ^ (k + 1) ∧
        o.toInt < (hi - lo + 1) / 10000000 ^ k * 10000000 ^ k) →
      ∃ z, (bigMin a b).add o = .ok z ∧ z.Ok ∧ lo ≤ z.toInt ∧ z.toInt ≤ hi ∧
        ∀ n : Int, n = hi - lo + 1 → 2 ^ 53 ≤ n → ∃ k : Nat, 10000000 ^ k ≤ n ∧ n < 10000000 ^ (k + 1) ∧
          z.toInt < lo + n / 10000000 ^ k * 10000000 ^ k := by
    intro o ho h0 h1 h2
    obtain ⟨z, z1, z2, z3⟩ := add_ok l1 ho
    rw [l2] at z3
    refine ⟨z, z1, z2, by omega, by omega, ?_⟩
    rintro n rfl hn
    obtain ⟨k, k1, k2, k3⟩ := h2 hn
    exact ⟨k, k1, k2, by omega⟩
  have hdef : randBetween fl rand a b = (match (generalizing := false) r with
      | .small v _ => (bigMin a b).add (.ofSmall (fl (rand 0 * v)).floor)
      | .big v _ =>
        match arrayToSmall (randDigits fl rand true 0 v.reverse []) with
        | .n r => (bigMin a b).add (.ofSmall r)
        | .arr r => (bigMin a b).add (.big r false)) := by
    unfold randBetween
    dsimp only
    rw [d1]
    show (d.add (.ofSmall 1) >>= _) = _
    rw [r1]
    rfl
  rw [hdef]
  cases r with
  | small v s =>
    obtain ⟨v1, v2, _⟩ := r2
    have hv : v = hi - lo + 1 := r3
    obtain ⟨N, hN⟩ : ∃ N : Nat, v = N := ⟨v.toNat, by omega⟩
    obtain ⟨p1, p2⟩ := product_below hfl (hr 0) (T := N) (by omega) (by omega)
    obtain ⟨f1, f2⟩ := floor_bounds p1 p2
    dsimp only
    rw [hN, Rat.intCast_natCast]
    generalize (fl (rand 0 * (N : Rat))).floor = o at *
    exact hadd (.ofSmall o) (ofSmall_ok (by omega) (by omega)) f1 (show o < _ by omega) (fun h => by omega)
  | big v s =>
    obtain ⟨v1, v2, v3⟩ := r2
    have hs : s = false := by
      cases s with
      | false => rfl
      | true =>
        have : -val v = hi - lo + 1 := r3
        omega
    subst hs
    have hv : val v = hi - lo + 1 := r3
    have hdr : Digits v.reverse := fun x hx => v1 x (by simpa using hx)
    obtain ⟨ds, k1, k2, k3, k4, k5⟩ := randDigits_ok hfl hr v.reverse true 0 [] hdr
    rw [List.append_nil] at k1
    dsimp only
    rw [k1]
    rw [List.reverse_reverse] at k4
    have hlt : val ds < hi - lo + 1 := by
      rcases k4 rfl with h | h <;> omega
    have h0 := val_nonneg k3
    have htop : 2 ^ 53 ≤ hi - lo + 1 → ∃ k : Nat, (10000000 : Int) ^ k ≤ hi - lo + 1 ∧
        hi - lo + 1 < 10000000 ^ (k + 1) ∧ val ds < (hi - lo + 1) / 10000000 ^ k * 10000000 ^ k := by
      intro _
      cases hrev : v.reverse with
      | nil =>
        have : v = [] := by simpa using hrev
        subst this
        simp [val] at hv
        omega
      | cons t vs =>
        have hvv : v = vs.reverse ++ [t] := by
          have := congrArg List.reverse hrev
          simpa using this
        have ht0 : t ≠ 0 := by
          intro h
          subst h
          exact v2 (by rw [hvv]; simp)
        obtain ⟨t1, t2⟩ := v1 t (by rw [hvv]; simp)
        have hval : hi - lo + 1 = val vs.reverse + 10000000 ^ vs.length * t := by
          rw [← hv, hvv, val_append, List.length_reverse]
          simp [val]
        have hdv : Digits vs.reverse := fun x hx => v1 x (by rw [hvv]; simp at hx ⊢; exact .inl hx)
        have w0 := val_nonneg hdv
        have w1 := val_lt hdv
        rw [List.length_reverse] at w1
        have hpos : (0 : Int) < 10000000 ^ vs.length := Int.pow_pos (by decide)
        have hk := k5 rfl t vs hrev (by omega)
        have hdiv : (hi - lo + 1) / 10000000 ^ vs.length = t := by
          rw [hval, Int.add_mul_ediv_left _ _ (by omega), Int.ediv_eq_zero_of_lt w0 w1]
          omega
        refine ⟨vs.length, ?_, ?_, ?_⟩
        · have := Int.mul_le_mul_of_nonneg_left (show 1 ≤ t by omega) (Int.le_of_lt hpos)
          omega
        · have := Int.mul_le_mul_of_nonneg_left (show t + 1 ≤ 10000000 by omega) (Int.le_of_lt hpos)
          rw [Int.mul_add] at this
          rw [Int.pow_succ]
          omega
        · rw [hdiv, Int.mul_comm]
          exact hk
    rw [arrayToSmall_eq k3]
    by_cases hsm : val ds < MAX_INT
    · rw [if_pos hsm]
      exact hadd (.ofSmall (val ds)) (ofSmall_ok (by omega) hsm) h0 hlt htop
    · rw [if_neg hsm]
      have hval : (Big.big (trim ds) false).toInt = val ds := by
        show val (trim ds) = val ds
        exact val_trim ds
      refine hadd (.big (trim ds) false) ⟨digits_trim k3, trimmed_trim ds, ?_⟩ ?_ ?_ ?_
      · rw [val_trim]; omega
      · rw [hval]; exact h0
      · rw [hval]; exact hlt
      · rw [hval]; exact htop

/-- The loop of `isProbablePrime`: every number drawn, between two and the number less two, is raised to the
power of the number less one. -/
theorem probableLoop_ok {fl : Rat → Rat} (hfl : Rounding fl) {rand : Nat → Nat → Rat}
    (hr : ∀ i k, Unit01 (rand i k)) {n : Big} {N : Nat} (hn : n.Ok) (hN : n.toInt = N) (h4 : 4 ≤ N) :
    ∀ left i, ∃ t, probableLoop fl rand n left i = .ok t ∧
      ∃ draws : List Nat, draws.length ≤ left ∧ (∀ a ∈ draws, 2 ≤ a ∧ a ≤ N - 2) ∧
        (t = true → draws.length = left) ∧ (t = true ↔ ∀ a ∈ draws, a ^ (N - 1) % N = 1)
  | 0, _ => ⟨true, rfl, [], by simp, nofun, fun _ => rfl, by simp⟩
  | left + 1, i => by
    have ok2 := little_ok (v := 2) (by decide) (by decide)
    obtain ⟨m, m1, m2, m3⟩ := subtract_ok hn ok2
    rw [hN, toInt_ofSmall] at m3
    obtain ⟨a, a1, a2, a3, a4, _⟩ := randBetween_ok hfl (hr i) ok2 m2
    rw [toInt_ofSmall, m3] at a3 a4
    obtain ⟨A, hA⟩ : ∃ A : Nat, a.toInt = A := ⟨a.toInt.toNat, by omega⟩
    obtain ⟨p, p1, p2, p3⟩ := prev_ok hn
    have hm := modPow_ok hfl a2 p2 hn
    rw [hA, p3, hN, modPowValue, if_neg (by omega), if_pos (by omega), show ((N : Int) - 1).toNat = N - 1 by omega,
      ← Int.natCast_pow, tmod_cast] at hm
    obtain ⟨x, x1, x2, x3⟩ := hm
    obtain ⟨t, t1, draws, t2, t3, t4, t5⟩ := probableLoop_ok hfl hr hn hN h4 left (i + 1)
    rw [probableLoop, m1]
    show ∃ t, (randBetween fl (rand i) (.ofSmall 2) m >>= _) = _ ∧ _
    rw [a1]
    show ∃ t, (n.prev >>= _) = _ ∧ _
    rw [p1]
    show ∃ t, (a.modPow fl p n >>= _) = _ ∧ _
    rw [x1]
    show ∃ t, (if (!x.isUnit) = true then _ else _) = _ ∧ _
    rw [isUnit_eq x2, x3, Int.natAbs_natCast]
    have hAb : 2 ≤ A ∧ A ≤ N - 2 := by omega
    by_cases hu : A ^ (N - 1) % N = 1
    · rw [if_neg (by simp [hu])]
      refine ⟨t, t1, A :: draws, by simp [t2], ?_, fun h => by simp [t4 h], ?_⟩
      · intro a ha
        rcases List.mem_cons.mp ha with rfl | ha
        · exact hAb
        · exact t3 a ha
      · rw [t5]
        simp [hu]
    · rw [if_pos (by simp [hu])]
      exact ⟨false, rfl, [A], by simp, by simpa using hAb, nofun, by simp [hu]⟩

/-- With the right random number every number below `N` is drawn. -/
theorem reach_small {fl : Rat → Rat} (hfl : Rounding fl) {N k : Nat} (hN : N ≤ 2 ^ 52) (hk : k < N) :
    ∃ r, IsRandom r ∧ (fl (r * N)).floor = k := by
  have hNpos : 0 < N := by omega
  -- the smallest multiple of `1 / 2^53` that is enough
  obtain ⟨m, hm⟩ : ∃ m, (k * 2 ^ 53 + (N - 1)) / N = m := ⟨_, rfl⟩
  have hm1 : k * 2 ^ 53 ≤ m * N := by
    have := Nat.div_add_mod (k * 2 ^ 53 + (N - 1)) N
    have h2 := Nat.mod_lt (k * 2 ^ 53 + (N - 1)) hNpos
    rw [hm, Nat.mul_comm] at this
    omega
  have hm2 : m * N < k * 2 ^ 53 + N := by
    have := Nat.div_mul_le_self (k * 2 ^ 53 + (N - 1)) N
    rw [hm] at this
    omega
  have hmlt : m < 2 ^ 53 := by
    refine Nat.lt_of_not_le fun h => ?_
    have h1 := Nat.mul_le_mul_right N h
    have h2 : (k + 1) * 2 ^ 53 ≤ N * 2 ^ 53 := Nat.mul_le_mul_right _ hk
    omega
  refine ⟨(m : Rat) / 2 ^ 53, ⟨⟨m, 1021, by omega, by decide, ?_⟩, ?_, ?_⟩, ?_⟩
  · have h : (2 : Rat) ^ 1021 ≠ 0 := by decide +kernel
    have h2 : (2 : Rat) ^ 1074 = 2 ^ 1021 * 2 ^ 53 := rat_pow_add 2 1021 53
    rw [h2, Rat.intCast_natCast]
    have h3 : (2 : Rat) ^ 53 ≠ 0 := by decide +kernel
    generalize (2 : Rat) ^ 1021 = T at *
    generalize (2 : Rat) ^ 53 = U at *
    grind
  · exact rat_le_div (by decide +kernel) (by rw [Rat.zero_mul]; exact_mod_cast Nat.zero_le m)
  · rw [Rat.div_lt_iff (by decide +kernel), Rat.one_mul]
    have : (m : Rat) < ((2 ^ 53 : Nat) : Rat) := by exact_mod_cast hmlt
    rwa [Rat.natCast_pow] at this
  · have hx : (m : Rat) / 2 ^ 53 * N = ((m * N : Nat) : Rat) / 2 ^ 53 := by
      rw [Rat.natCast_mul, Rat.div_def, Rat.div_def]
      grind
    rw [hx]
    have h53 : (0 : Rat) < 2 ^ 53 := by decide +kernel
    have hlo : (k : Rat) ≤ ((m * N : Nat) : Rat) / 2 ^ 53 := by
      apply rat_le_div h53
      have : ((k * 2 ^ 53 : Nat) : Rat) ≤ ((m * N : Nat) : Rat) := by exact_mod_cast hm1
      rwa [Rat.natCast_mul, Rat.natCast_pow] at this
    have hhi : ((m * N : Nat) : Rat) / 2 ^ 53 ≤ ((2 * k + 1 : Int) : Rat) / 2 ^ 1 := by
      apply rat_div_le h53
      have h1 : m * N ≤ (2 * k + 1) * 2 ^ 52 := by omega
      have h2 : ((m * N : Nat) : Rat) ≤ (((2 * k + 1) * 2 ^ 52 : Nat) : Rat) := by exact_mod_cast h1
      rw [Rat.natCast_mul (2 * k + 1), Rat.natCast_pow] at h2
      have h3 : ((2 * k + 1 : Int) : Rat) = ((2 * k + 1 : Nat) : Rat) := by
        rw [← Rat.intCast_natCast]; rfl
      rw [h3]
      have h4 : (2 : Rat) ^ 53 = 2 ^ 52 * 2 := Rat.pow_succ 2 52
      have h5 : (2 : Rat) ^ 1 = 2 := by decide +kernel
      rw [h4, h5]
      refine Rat.le_trans h2 ?_
      have e2 : ((2 : Nat) : Rat) = 2 := rfl
      rw [e2]
      generalize (2 : Rat) ^ 52 = T at *
      grind
    have hhalf : ((2 * k + 1 : Int) : Rat) / 2 ^ 1 ≤ 2 ^ 100 := by
      apply rat_div_le (by decide +kernel)
      exact Rat.le_trans (small_le (by omega)) (by decide +kernel)
    have hk0 : (0 : Rat) ≤ (k : Rat) := by exact_mod_cast Nat.zero_le k
    have a1 := Rounding.mono hfl hk0 (Rat.le_trans hhi hhalf) hlo
    have a2 := Rounding.mono hfl (Rat.le_trans hk0 hlo) hhalf hhi
    rw [← Rat.intCast_natCast, fl_int hfl (by omega) (by omega)] at a1
    rw [Rounding.exact hfl (Rat.le_trans hk0 (Rat.le_trans hlo hhi)) hhalf (isDouble_half (by omega))] at a2
    generalize fl (((m * N : Nat) : Rat) / 2 ^ 53) = F at *
    have b1 : (k : Int) ≤ F.floor := Rat.le_floor_iff.mpr a1
    have b2 : F.floor < (k : Int) + 1 := by
      rw [Rat.floor_lt_iff]
      have : ((2 * k + 1 : Int) : Rat) / 2 ^ 1 < ((k + 1 : Int) : Rat) := by
        rw [Rat.div_lt_iff (by decide +kernel)]
        have e : ((k + 1 : Int) : Rat) * 2 ^ 1 = (((k + 1) * 2 : Int) : Rat) := by
          rw [Rat.intCast_mul]; rfl
        rw [e]
        exact Rat.intCast_lt_intCast.mpr (by omega)
      exact Rat.not_le.mp fun h => Rat.not_le.mpr this (Rat.le_trans h a2)
    omega

/-- Every integer between bounds that are not far apart can be drawn. -/
theorem randBetween_reach {fl : Rat → Rat} (hfl : Rounding fl) {a b : Big} (ha : a.Ok) (hb : b.Ok) {k : Int}
    (h1 : min a.toInt b.toInt ≤ k) (h2 : k ≤ max a.toInt b.toInt)
    (hn : max a.toInt b.toInt - min a.toInt b.toInt < 2 ^ 52) :
    ∃ r, IsRandom r ∧ ∀ rand : Nat → Rat, rand 0 = r →
      ∃ z, randBetween fl rand a b = .ok z ∧ z.Ok ∧ z.toInt = k := by
  have hM : (MAX_INT : Int) = 9007199254740992 := rfl
  obtain ⟨l1, l2⟩ := min_ok ha hb
  obtain ⟨m1, m2⟩ := max_ok ha hb
  obtain ⟨d, d1, d2, d3⟩ := subtract_ok m1 l1
  obtain ⟨r, r1, r2, r3⟩ := add_ok d2 (little_ok (v := 1) (by decide) (by decide))
  rw [d3, m2, l2, toInt_ofSmall] at r3
  generalize hlo : min a.toInt b.toInt = lo at *
  generalize hhi : max a.toInt b.toInt = hi at *
  obtain ⟨N, hN⟩ : ∃ N : Nat, hi - lo + 1 = N := ⟨(hi - lo + 1).toNat, by omega⟩
  obtain ⟨j, hj⟩ : ∃ j : Nat, k - lo = j := ⟨(k - lo).toNat, by omega⟩
  obtain ⟨q, q1, q2⟩ := reach_small hfl (N := N) (k := j) (by omega) (by omega)
  refine ⟨q, q1, fun rand hrand => ?_⟩
  have hdef : randBetween fl rand a b = (match (generalizing := false) r with
      | .small v _ => (bigMin a b).add (.ofSmall (fl (rand 0 * v)).floor)
      | .big v _ =>
        match arrayToSmall (randDigits fl rand true 0 v.reverse []) with
        | .n r => (bigMin a b).add (.ofSmall r)
        | .arr r => (bigMin a b).add (.big r false)) := by
    unfold randBetween
    dsimp only
    rw [d1]
    show (d.add (.ofSmall 1) >>= _) = _
    rw [r1]
    rfl
  rw [hdef]
  cases r with
  | small v s =>
    have hv : v = N := Eq.trans r3 hN
    dsimp only
    rw [hrand, hv, Rat.intCast_natCast, q2]
    obtain ⟨z, z1, z2, z3⟩ := add_ok l1 (ofSmall_ok (v := (j : Int)) (by omega) (by omega))
    refine ⟨z, z1, z2, ?_⟩
    rw [z3, l2, toInt_ofSmall]
    omega
  | big v s =>
    obtain ⟨v1, v2, v3⟩ := r2
    cases s with
    | false =>
      have : val v = hi - lo + 1 := r3
      omega
    | true =>
      have : -val v = hi - lo + 1 := r3
      omega

/-- Doubles from `2^52` on are integers. -/
theorem upper_int {r : Rat} (hd : IsDouble r) (h : 2 ^ 52 ≤ r) : ∃ i : Int, r = i := by
  obtain ⟨m, e, h1, h2, rfl⟩ := hd
  have hT : (0 : Rat) < 2 ^ 1074 := by decide +kernel
  have hge : 2 ^ 1126 ≤ m * 2 ^ e := by
    have h5 : (2 ^ 52 : Rat) * 2 ^ 1074 ≤ (m : Rat) * 2 ^ e / 2 ^ 1074 * 2 ^ 1074 :=
      Rat.mul_le_mul_of_nonneg_right h (Rat.le_of_lt hT)
    rw [Rat.div_mul_cancel (by grind), show (2 ^ 52 : Rat) * 2 ^ 1074 = 2 ^ 1126 by decide +kernel] at h5
    have h6 : ((2 ^ 1126 : Int) : Rat) ≤ ((m * 2 ^ e : Int) : Rat) := by
      rw [Rat.intCast_mul, cast_pow, cast_pow]
      exact h5
    exact Rat.intCast_le_intCast.mp h6
  have he : 1074 ≤ e := by
    refine Nat.le_of_not_lt fun hlt => ?_
    have h5 : (2 : Int) ^ e ≤ 2 ^ 1073 := by
      have := Nat.pow_le_pow_right (show 2 > 0 by decide) (show e ≤ 1073 by omega)
      exact_mod_cast this
    have h6 : (0 : Int) ≤ 2 ^ e := Int.pow_nonneg (by decide)
    have h7 : m * 2 ^ e ≤ (2 ^ 53 - 1) * 2 ^ 1073 := Int.mul_le_mul (by omega) h5 h6 (by decide)
    have h8 : ((2 : Int) ^ 53 - 1) * 2 ^ 1073 < 2 ^ 1126 := by decide +kernel
    exact absurd (Int.le_trans hge h7) (Int.not_le.mpr h8)
  obtain ⟨j, rfl⟩ : ∃ j, e = j + 1074 := ⟨e - 1074, by omega⟩
  refine ⟨m * 2 ^ j, ?_⟩
  rw [Rat.intCast_mul, cast_pow, rat_pow_add]
  have e2 : ((2 : Int) : Rat) = 2 := rfl
  generalize (2 : Rat) ^ 1074 = T at *
  generalize (2 : Rat) ^ j = V at *
  grind

/-- The doubles from a half to one are multiples of `1 / 2^53`. -/
theorem upper_grid {r : Rat} (hd : IsDouble r) (h : 1 / 2 ≤ r) : ∃ i : Int, r = i / 2 ^ 53 := by
  obtain ⟨m, e, h1, h2, rfl⟩ := hd
  have hT : (0 : Rat) < 2 ^ 1074 := by decide +kernel
  have hge : 2 ^ 1073 ≤ m * 2 ^ e := by
    have h5 : (1 / 2 : Rat) * 2 ^ 1074 ≤ (m : Rat) * 2 ^ e / 2 ^ 1074 * 2 ^ 1074 :=
      Rat.mul_le_mul_of_nonneg_right h (Rat.le_of_lt hT)
    rw [Rat.div_mul_cancel (by grind), show (1 / 2 : Rat) * 2 ^ 1074 = 2 ^ 1073 by decide +kernel] at h5
    have h6 : ((2 ^ 1073 : Int) : Rat) ≤ ((m * 2 ^ e : Int) : Rat) := by
      rw [Rat.intCast_mul, cast_pow, cast_pow]
      exact h5
    exact Rat.intCast_le_intCast.mp h6
  have he : 1021 ≤ e := by
    refine Nat.le_of_not_lt fun hlt => ?_
    have h5 : (2 : Int) ^ e ≤ 2 ^ 1020 := by
      have := Nat.pow_le_pow_right (show 2 > 0 by decide) (show e ≤ 1020 by omega)
      exact_mod_cast this
    have h6 : (0 : Int) ≤ 2 ^ e := Int.pow_nonneg (by decide)
    have h7 : m * 2 ^ e ≤ (2 ^ 53 - 1) * 2 ^ 1020 := Int.mul_le_mul (by omega) h5 h6 (by decide)
    have h8 : ((2 : Int) ^ 53 - 1) * 2 ^ 1020 < 2 ^ 1073 := by decide +kernel
    exact absurd (Int.le_trans hge h7) (Int.not_le.mpr h8)
  obtain ⟨j, rfl⟩ : ∃ j, e = j + 1021 := ⟨e - 1021, by omega⟩
  refine ⟨m * 2 ^ j, ?_⟩
  rw [Rat.intCast_mul, cast_pow, rat_pow_add]
  have h2 : (2 : Rat) ^ 1074 = 2 ^ 1021 * 2 ^ 53 := rat_pow_add 2 1021 53
  have h3 : (2 : Rat) ^ 1021 ≠ 0 := by decide +kernel
  have h4 : (2 : Rat) ^ 53 ≠ 0 := by decide +kernel
  have e2 : ((2 : Int) : Rat) = 2 := rfl
  rw [h2]
  generalize (2 : Rat) ^ 1021 = T at *
  generalize (2 : Rat) ^ 53 = U at *
  generalize (2 : Rat) ^ j = V at *
  grind

/-- No random number times `2^53 - 2^26 - 2` is rounded to a number from `2^52` on and below `2^52 + 1`. -/
theorem gap_product {fl : Rat → Rat} (hfl : Rounding fl) {r : Rat} (hr : IsRandom r) :
    (fl (r * ((2 ^ 53 - 2 ^ 26 - 2 : Int) : Rat))).floor ≠ 2 ^ 52 := by
  obtain ⟨hd, h0, h1⟩ := hr
  have hN0 : (0 : Rat) ≤ ((2 ^ 53 - 2 ^ 26 - 2 : Int) : Rat) := by decide +kernel
  have hcase : r ≤ ((2 ^ 52 + 2 ^ 25 + 1 : Int) : Rat) / 2 ^ 53 ∨ ((2 ^ 52 + 2 ^ 25 + 2 : Int) : Rat) / 2 ^ 53 ≤ r := by
    by_cases hh : 1 / 2 ≤ r
    · obtain ⟨i, rfl⟩ := upper_grid hd hh
      by_cases hi : i ≤ 2 ^ 52 + 2 ^ 25 + 1
      · left
        rw [Rat.div_def, Rat.div_def]
        exact Rat.mul_le_mul_of_nonneg_right (cast_le hi) (by decide +kernel)
      · right
        rw [Rat.div_def, Rat.div_def]
        exact Rat.mul_le_mul_of_nonneg_right (cast_le (by omega)) (by decide +kernel)
    · left
      have : (1 / 2 : Rat) ≤ ((2 ^ 52 + 2 ^ 25 + 1 : Int) : Rat) / 2 ^ 53 := by decide +kernel
      grind
  have hhalf : ∀ {m : Int}, m.natAbs < 2 ^ 53 → IsDouble ((m : Rat) / 2 ^ 1) := fun h => isDouble_half h
  have hbound : (2 : Rat) ^ 53 ≤ 2 ^ 1023 := by decide +kernel
  have hup : r * ((2 ^ 53 - 2 ^ 26 - 2 : Int) : Rat) ≤ 2 ^ 100 := by
    have := Rat.mul_le_mul_of_nonneg_right (Rat.le_of_lt h1) hN0
    exact Rat.le_trans this (by decide +kernel)
  have hlow : 0 ≤ r * ((2 ^ 53 - 2 ^ 26 - 2 : Int) : Rat) := Rat.mul_nonneg h0 hN0
  rcases hcase with h | h
  · have hm := Rat.mul_le_mul_of_nonneg_right h hN0
    generalize hx : ((2 ^ 52 + 2 ^ 25 + 1 : Int) : Rat) / 2 ^ 53 * ((2 ^ 53 - 2 ^ 26 - 2 : Int) : Rat) = xA at hm
    have hxA1 : xA < 2 ^ 52 - 1 / 4 := by rw [← hx]; decide +kernel
    have hxA2 : 2 ^ 52 - 1 / 2 < xA := by rw [← hx]; decide +kernel
    have hxA3 : xA ≤ 2 ^ 100 := by rw [← hx]; decide +kernel
    have hmono := Rounding.mono hfl hlow hxA3 hm
    have hp : (2 : Rat) ^ 100 ≤ 2 ^ 1023 := large_pow
    have hz : (0 : Rat) ≤ 2 ^ 52 - 1 / 2 := by decide +kernel
    have hz' : -((2 : Rat) ^ 1023) ≤ 0 := by decide +kernel
    obtain ⟨_, hnear⟩ := hfl xA (by grind) (by grind)
    have hD : IsDouble (2 ^ 52 - 1 / 2 : Rat) := by
      have := hhalf (m := 2 ^ 53 - 1) (by decide)
      rwa [show (((2 ^ 53 - 1 : Int) : Rat) / 2 ^ 1) = 2 ^ 52 - 1 / 2 by decide +kernel] at this
    have hn := hnear _ hD
    have hlt : fl xA < 2 ^ 52 := by
      unfold ratDist at hn
      generalize (2 : Rat) ^ 52 = T at *
      split at hn <;> split at hn <;> grind
    have : fl (r * ((2 ^ 53 - 2 ^ 26 - 2 : Int) : Rat)) < ((2 ^ 52 : Int) : Rat) := by
      rw [show ((2 ^ 52 : Int) : Rat) = 2 ^ 52 by decide +kernel]
      exact Rat.not_le.mp fun h => Rat.not_le.mpr hlt (Rat.le_trans h hmono)
    have := Rat.floor_lt_iff.mpr this
    omega
  · have hm := Rat.mul_le_mul_of_nonneg_right h hN0
    generalize hx : ((2 ^ 52 + 2 ^ 25 + 2 : Int) : Rat) / 2 ^ 53 * ((2 ^ 53 - 2 ^ 26 - 2 : Int) : Rat) = xB at hm
    have hxB1 : 2 ^ 52 + 5 / 8 < xB := by rw [← hx]; decide +kernel
    have hxB2 : xB < 2 ^ 52 + 1 := by rw [← hx]; decide +kernel
    have hB0 : (0 : Rat) ≤ xB := by rw [← hx]; decide +kernel
    have hmono := Rounding.mono hfl hB0 hup hm
    have hp : (2 : Rat) ^ 52 + 1 ≤ 2 ^ 1023 := by decide +kernel
    have hz' : -((2 : Rat) ^ 1023) ≤ 0 := by decide +kernel
    obtain ⟨hdb, hnear⟩ := hfl xB (by grind) (by grind)
    have hD : IsDouble (2 ^ 52 + 1 : Rat) := by
      have := isDouble_mul (m := 2 ^ 52 + 1) (e := 0) (by decide) (by decide)
      rwa [show (((2 ^ 52 + 1 : Int) : Rat) * 2 ^ 0) = 2 ^ 52 + 1 by decide +kernel] at this
    have hn := hnear _ hD
    have hlt : 2 ^ 52 + 1 / 4 < fl xB := by
      unfold ratDist at hn
      generalize (2 : Rat) ^ 52 = T at *
      split at hn <;> split at hn <;> grind
    have hge : (2 : Rat) ^ 52 + 1 ≤ fl xB := by
      obtain ⟨i, hi⟩ := upper_int hdb (by
        have : (2 : Rat) ^ 52 ≤ 2 ^ 52 + 1 / 4 := by decide +kernel
        exact Rat.le_trans this (Rat.le_of_lt hlt))
      rw [hi] at hlt ⊢
      have h3 : ((2 ^ 52 : Int) : Rat) < (i : Rat) := by
        rw [show ((2 ^ 52 : Int) : Rat) = 2 ^ 52 by decide +kernel]
        have : (2 : Rat) ^ 52 < 2 ^ 52 + 1 / 4 := by decide +kernel
        grind
      have h4 := Rat.intCast_lt_intCast.mp h3
      have h5 : ((2 ^ 52 + 1 : Int) : Rat) ≤ (i : Rat) := cast_le (by omega)
      rwa [show ((2 ^ 52 + 1 : Int) : Rat) = 2 ^ 52 + 1 by decide +kernel] at h5
    have : ((2 ^ 52 + 1 : Int) : Rat) ≤ fl (r * ((2 ^ 53 - 2 ^ 26 - 2 : Int) : Rat)) := by
      rw [show ((2 ^ 52 + 1 : Int) : Rat) = 2 ^ 52 + 1 by decide +kernel]
      exact Rat.le_trans hge hmono
    have := Rat.le_floor_iff.mpr this
    omega

theorem randBetween_gap {fl : Rat → Rat} (hfl : Rounding fl) {rand : Nat → Rat} (hr : ∀ k, IsRandom (rand k))
    {a b : Big} (ha : a.Ok) (hb : b.Ok) (ea : a.toInt = 0) (eb : b.toInt = 2 ^ 53 - 2 ^ 26 - 3) :
    ∃ z, randBetween fl rand a b = .ok z ∧ z.Ok ∧ z.toInt ≠ 2 ^ 52 := by
  have hM : (MAX_INT : Int) = 9007199254740992 := rfl
  obtain ⟨l1, l2⟩ := min_ok ha hb
  obtain ⟨m1, m2⟩ := max_ok ha hb
  obtain ⟨d, d1, d2, d3⟩ := subtract_ok m1 l1
  obtain ⟨r, r1, r2, r3⟩ := add_ok d2 (little_ok (v := 1) (by decide) (by decide))
  rw [d3, m2, l2, toInt_ofSmall] at r3
  rw [ea, eb] at l2 r3
  have hgap := gap_product hfl (hr 0)
  have hdef : randBetween fl rand a b = (match (generalizing := false) r with
      | .small v _ => (bigMin a b).add (.ofSmall (fl (rand 0 * v)).floor)
      | .big v _ =>
        match arrayToSmall (randDigits fl rand true 0 v.reverse []) with
        | .n r => (bigMin a b).add (.ofSmall r)
        | .arr r => (bigMin a b).add (.big r false)) := by
    unfold randBetween
    dsimp only
    rw [d1]
    show (d.add (.ofSmall 1) >>= _) = _
    rw [r1]
    rfl
  rw [hdef]
  cases r with
  | small v s =>
    have hv : v = 2 ^ 53 - 2 ^ 26 - 2 := by
      have : v = max 0 (2 ^ 53 - 2 ^ 26 - 3) - min 0 (2 ^ 53 - 2 ^ 26 - 3) + 1 := r3
      omega
    subst hv
    obtain ⟨p1, p2⟩ := product_below hfl (random_unit (hr 0)) (T := 2 ^ 53 - 2 ^ 26 - 2) (by decide) (by decide)
    obtain ⟨f1, f2⟩ := floor_bounds p1 p2
    rw [show (((2 ^ 53 - 2 ^ 26 - 2 : Nat) : Rat)) = ((2 ^ 53 - 2 ^ 26 - 2 : Int) : Rat) by decide +kernel] at f1 f2
    dsimp only
    generalize (fl (rand 0 * ((2 ^ 53 - 2 ^ 26 - 2 : Int) : Rat))).floor = o at *
    obtain ⟨z, z1, z2, z3⟩ := add_ok l1 (ofSmall_ok (v := o) (by omega) (by omega))
    refine ⟨z, z1, z2, ?_⟩
    rw [z3, l2, toInt_ofSmall]
    omega
  | big v s =>
    obtain ⟨v1, v2, v3⟩ := r2
    cases s with
    | false =>
      have : val v = max 0 (2 ^ 53 - 2 ^ 26 - 3) - min 0 (2 ^ 53 - 2 ^ 26 - 3) + 1 := r3
      omega
    | true =>
      have : -val v = max 0 (2 ^ 53 - 2 ^ 26 - 3) - min 0 (2 ^ 53 - 2 ^ 26 - 3) + 1 := r3
      omega

/-- With the right random numbers the digits of every number are drawn, if the digits are not restricted. -/
theorem randDigits_free {fl : Rat → Rat} (hfl : Rounding fl) :
    ∀ (vs : Arr) (k : Nat) (m : Int), 0 ≤ m → m < 10000000 ^ vs.length →
      ∃ f : Nat → Rat, (∀ i, IsRandom (f i)) ∧ ∀ rand : Nat → Rat, (∀ i, k ≤ i → rand i = f i) → ∀ acc : Arr,
        ∃ ds, randDigits fl rand false k vs acc = ds ++ acc ∧ ds.length = vs.length ∧ Digits ds ∧ val ds = m
  | [], k, m, h0, h1 => by
    obtain ⟨r, r1, -⟩ := reach_small hfl (N := 1) (k := 0) (by decide) (by decide)
    refine ⟨fun _ => r, fun _ => r1, fun rand _ acc => ⟨[], rfl, rfl, nofun, ?_⟩⟩
    simp at h1
    simp [val]
    omega
  | v :: vs, k, m, h0, h1 => by
    have hpos : (0 : Int) < 10000000 ^ vs.length := Int.pow_pos (by decide)
    rw [List.length_cons, Int.pow_succ, Int.mul_comm] at h1
    have hq0 : 0 ≤ m / 10000000 ^ vs.length := Int.ediv_nonneg h0 (Int.le_of_lt hpos)
    have hq1 : m / 10000000 ^ vs.length < 10000000 := Int.ediv_lt_of_lt_mul hpos h1
    have hr0 := Int.emod_nonneg m (Int.ne_of_gt hpos)
    have hr1 := Int.emod_lt_of_pos m hpos
    have hdm := Int.mul_ediv_add_emod m (10000000 ^ vs.length)
    obtain ⟨d, hd⟩ : ∃ d : Nat, m / 10000000 ^ vs.length = d := ⟨(m / 10000000 ^ vs.length).toNat, by omega⟩
    obtain ⟨r, r1, r2⟩ := reach_small hfl (N := 10000000) (k := d) (by decide) (by omega)
    obtain ⟨f, f1, f2⟩ := randDigits_free hfl vs (k + 1) (m % 10000000 ^ vs.length) hr0 hr1
    refine ⟨fun i => if i = k then r else f i, fun i => ?_, fun rand hrand acc => ?_⟩
    · dsimp only
      split
      · exact r1
      · exact f1 i
    · have hk : rand k = r := by simpa using hrand k (Nat.le_refl k)
      obtain ⟨ds, e1, e2, e3, e4⟩ := f2 rand
        (fun i hi => by rw [hrand i (by omega)]; exact if_neg (by omega)) ((d : Int) :: acc)
      have hp : 0 ≤ fl (r * ((10000000 : Nat) : Rat)) :=
        (product_below hfl (random_unit r1) (T := 10000000) (by decide) (by decide)).1
      have hdig : truncateRat (fl (rand k * ((BASE : Int) : Rat))) = d := by
        rw [hk, show ((BASE : Int) : Rat) = ((10000000 : Nat) : Rat) from rfl, truncate_nonneg hp, r2]
      rw [randDigits]
      rw [if_neg Bool.false_ne_true, hdig, ite_self, e1]
      refine ⟨ds ++ [(d : Int)], by simp, by simp [e2], digits_append.mpr ⟨e3, ?_⟩, ?_⟩
      · intro x hx
        simp at hx
        omega
      · rw [val_append, e2, e4]
        simp only [val, Int.mul_zero, Int.add_zero]
        rw [hd] at hdm
        omega

/-- From a range of `2^53` numbers or more, each number below the first digit of the range is drawn. -/
theorem randBetween_reach_top {fl : Rat → Rat} (hfl : Rounding fl) {a b : Big} (ha : a.Ok) (hb : b.Ok) {m n : Int}
    {j : Nat} (hn : n = max a.toInt b.toInt - min a.toInt b.toInt + 1) (hbig : 2 ^ 53 ≤ n)
    (hj : 10000000 ^ j ≤ n ∧ n < 10000000 ^ (j + 1)) (h1 : min a.toInt b.toInt ≤ m)
    (h2 : m < min a.toInt b.toInt + n / 10000000 ^ j * 10000000 ^ j) :
    ∃ rand : Nat → Rat, (∀ i, IsRandom (rand i)) ∧ ∃ z, randBetween fl rand a b = .ok z ∧ z.Ok ∧ z.toInt = m := by
  have hM : (MAX_INT : Int) = 9007199254740992 := rfl
  obtain ⟨l1, l2⟩ := min_ok ha hb
  obtain ⟨m1, m2⟩ := max_ok ha hb
  obtain ⟨d, d1, d2, d3⟩ := subtract_ok m1 l1
  obtain ⟨r, r1, r2, r3⟩ := add_ok d2 (little_ok (v := 1) (by decide) (by decide))
  rw [d3, m2, l2, toInt_ofSmall, ← hn] at r3
  generalize hlo : min a.toInt b.toInt = lo at *
  have hdef : ∀ rand, randBetween fl rand a b = (match (generalizing := false) r with
      | .small v _ => (bigMin a b).add (.ofSmall (fl (rand 0 * v)).floor)
      | .big v _ =>
        match arrayToSmall (randDigits fl rand true 0 v.reverse []) with
        | .n r => (bigMin a b).add (.ofSmall r)
        | .arr r => (bigMin a b).add (.big r false)) := by
    intro rand
    unfold randBetween
    dsimp only
    rw [d1]
    show (d.add (.ofSmall 1) >>= _) = _
    rw [r1]
    rfl
  cases r with
  | small v s =>
    obtain ⟨v1, v2, _⟩ := r2
    have hv : v = n := r3
    omega
  | big v s =>
    obtain ⟨v1, v2, v3⟩ := r2
    have hs : s = false := by
      cases s with
      | false => rfl
      | true =>
        have : -val v = n := r3
        omega
    subst hs
    have hv : val v = n := r3
    cases hrev : v.reverse with
    | nil =>
      have : v = [] := by simpa using hrev
      subst this
      simp [val] at hv
      omega
    | cons t vs =>
      have hvv : v = vs.reverse ++ [t] := by
        have := congrArg List.reverse hrev
        simpa using this
      have ht0 : t ≠ 0 := by
        intro h
        subst h
        exact v2 (by rw [hvv]; simp)
      obtain ⟨t1, t2⟩ := v1 t (by rw [hvv]; simp)
      have hval : n = val vs.reverse + 10000000 ^ vs.length * t := by
        rw [← hv, hvv, val_append, List.length_reverse]
        simp [val]
      have hdv : Digits vs.reverse := fun x hx => v1 x (by rw [hvv]; simp at hx ⊢; exact .inl hx)
      have w0 := val_nonneg hdv
      have w1 := val_lt hdv
      rw [List.length_reverse] at w1
      have hpos : (0 : Int) < 10000000 ^ vs.length := Int.pow_pos (by decide)
      have hdiv : n / 10000000 ^ vs.length = t := by
        rw [hval, Int.add_mul_ediv_left _ _ (by omega), Int.ediv_eq_zero_of_lt w0 w1]
        omega
      have hlow : (10000000 : Int) ^ vs.length ≤ n := by
        have := Int.mul_le_mul_of_nonneg_left (show 1 ≤ t by omega) (Int.le_of_lt hpos)
        omega
      have hhigh : n < 10000000 ^ (vs.length + 1) := by
        have := Int.mul_le_mul_of_nonneg_left (show t + 1 ≤ 10000000 by omega) (Int.le_of_lt hpos)
        rw [Int.mul_add] at this
        rw [Int.pow_succ]
        omega
      have hmono : ∀ x y : Nat, (10000000 : Int) ^ x < 10000000 ^ y → x < y := by
        intro x y h
        refine Nat.lt_of_not_le fun hle => ?_
        have := Nat.pow_le_pow_right (show 10000000 > 0 by decide) hle
        have h' := Int.ofNat_le.2 this
        rw [Int.natCast_pow, Int.natCast_pow] at h'
        have h'' : (10000000 : Int) ^ y ≤ 10000000 ^ x := h'
        omega
      have hjl : j = vs.length := by
        have u := hmono j (vs.length + 1) (by omega)
        have w := hmono vs.length (j + 1) (by omega)
        omega
      subst hjl
      rw [hdiv] at h2
      obtain ⟨g, hg⟩ : ∃ g, m - lo = g := ⟨_, rfl⟩
      have hg0 : 0 ≤ g := by omega
      have hg1 : g < t * 10000000 ^ vs.length := by omega
      have hq0 : 0 ≤ g / 10000000 ^ vs.length := Int.ediv_nonneg hg0 (Int.le_of_lt hpos)
      have hq1 : g / 10000000 ^ vs.length < t := Int.ediv_lt_of_lt_mul hpos hg1
      have hr0 := Int.emod_nonneg g (Int.ne_of_gt hpos)
      have hr1 := Int.emod_lt_of_pos g hpos
      have hdm := Int.mul_ediv_add_emod g (10000000 ^ vs.length)
      obtain ⟨q, hq⟩ : ∃ q : Nat, g / 10000000 ^ vs.length = q := ⟨(g / 10000000 ^ vs.length).toNat, by omega⟩
      obtain ⟨T, hT⟩ : ∃ T : Nat, t = T := ⟨t.toNat, by omega⟩
      obtain ⟨x, x1, x2⟩ := reach_small hfl (N := T) (k := q) (by omega) (by omega)
      obtain ⟨f, f1, f2⟩ := randDigits_free hfl vs 1 (g % 10000000 ^ vs.length) hr0 hr1
      refine ⟨fun i => if i = 0 then x else f i, fun i => ?_, ?_⟩
      · dsimp only
        split
        · exact x1
        · exact f1 i
      · obtain ⟨ds, e1, e2, e3, e4⟩ := f2 (fun i => if i = 0 then x else f i)
          (fun i hi => if_neg (by omega)) [(q : Int)]
        have hp : 0 ≤ fl (x * (T : Rat)) :=
          (product_below hfl (random_unit x1) (T := T) (by omega) (by omega)).1
        have hdig : truncateRat (fl (x * (t : Rat))) = q := by
          rw [hT, Rat.intCast_natCast, truncate_nonneg hp, x2]
        have hdraw : randDigits fl (fun i => if i = 0 then x else f i) true 0 (t :: vs) [] = ds ++ [(q : Int)] := by
          rw [randDigits]
          rw [if_pos rfl, if_pos rfl, hdig, if_pos (by omega)]
          exact e1
        have k3 : Digits (ds ++ [(q : Int)]) := digits_append.mpr ⟨e3, by
          intro y hy
          simp at hy
          omega⟩
        have hvd : val (ds ++ [(q : Int)]) = g := by
          rw [val_append, e2, e4]
          simp only [val, Int.mul_zero, Int.add_zero]
          rw [hq] at hdm
          omega
        have hadd : ∀ o : Big, o.Ok → o.toInt = g → ∃ z, (bigMin a b).add o = .ok z ∧ z.Ok ∧ z.toInt = m := by
          intro o ho h
          obtain ⟨z, z1, z2, z3⟩ := add_ok l1 ho
          exact ⟨z, z1, z2, by rw [z3, l2, h]; omega⟩
        rw [hdef]
        dsimp only
        rw [hrev, hdraw, arrayToSmall_eq k3, hvd]
        by_cases hsm : g < MAX_INT
        · rw [if_pos hsm]
          exact hadd (.ofSmall g) (ofSmall_ok (by omega) hsm) rfl
        · rw [if_neg hsm]
          have hval' : (Big.big (trim (ds ++ [(q : Int)])) false).toInt = g := by
            show val (trim (ds ++ [(q : Int)])) = g
            rw [val_trim, hvd]
          refine hadd _ ⟨digits_trim k3, trimmed_trim _, ?_⟩ hval'
          rw [val_trim, hvd]
          omega

end Verif.BigJs
