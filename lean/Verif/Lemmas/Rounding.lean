import Verif.Lemmas.BigIntDiv
/-! Quotients of integers that are rounded to doubles and then to integers. -/
namespace Verif.BigJs
open Spec

/-- A list that is not empty has a member at which a function is least. -/
theorem exists_least {α : Type} (f : α → Rat) : ∀ {l : List α}, l ≠ [] →
    ∃ a, a ∈ l ∧ ∀ b, b ∈ l → f a ≤ f b
  | [], h => absurd rfl h
  | [a], _ => ⟨a, by simp, by simp⟩
  | a :: c :: l, _ => by
    obtain ⟨m, h1, h2⟩ := exists_least f (l := c :: l) (by simp)
    rcases Rat.le_total (a := f a) (b := f m) with h | h
    · refine ⟨a, by simp, fun b hb => ?_⟩
      rcases List.mem_cons.mp hb with rfl | hb
      · exact Rat.le_refl
      · exact Rat.le_trans h (h2 b hb)
    · refine ⟨m, List.mem_cons_of_mem _ h1, fun b hb => ?_⟩
      rcases List.mem_cons.mp hb with rfl | hb
      · exact h
      · exact h2 b hb

/-- All finite doubles. -/
def doubles : List Rat :=
  (List.range (2 ^ 53)).flatMap fun (m : Nat) => (List.range 2046).flatMap fun e =>
    [(((m : Int) : Rat)) * 2 ^ e / 2 ^ 1074, ((-(m : Int) : Int) : Rat) * 2 ^ e / 2 ^ 1074]

theorem mem_doubles (x : Rat) : x ∈ doubles ↔ IsDouble x := by
  unfold doubles
  constructor
  · intro h
    obtain ⟨m, hm, h⟩ := List.mem_flatMap.mp h
    obtain ⟨e, he, h⟩ := List.mem_flatMap.mp h
    rw [List.mem_range] at hm he
    rcases List.mem_cons.mp h with h | h
    · exact ⟨m, e, by omega, by omega, h⟩
    · exact ⟨-m, e, by omega, by omega, List.mem_singleton.mp h⟩
  · rintro ⟨m, e, hm, he, h⟩
    refine List.mem_flatMap.mpr ⟨m.natAbs, List.mem_range.mpr hm,
      List.mem_flatMap.mpr ⟨e, List.mem_range.mpr (by omega), ?_⟩⟩
    rcases Int.le_total 0 m with h0 | h0
    · rw [show ((m.natAbs : Nat) : Int) = m by omega, h]
      exact List.mem_cons_self
    · rw [show (-((m.natAbs : Nat) : Int)) = m by omega, h]
      exact List.mem_cons_of_mem _ (List.mem_singleton.mpr rfl)

theorem isDouble_zero : IsDouble 0 := ⟨0, 0, by decide, by decide, by decide +kernel⟩

/-- Numbers can be rounded to doubles. -/
theorem rounding_exists : ∃ fl, Rounding fl := by
  have hne : doubles ≠ [] := List.ne_nil_of_mem ((mem_doubles 0).mpr isDouble_zero)
  refine ⟨fun x => (exists_least (fun d => ratDist d x) hne).choose, fun x _ _ => ?_⟩
  have h := (exists_least (fun d => ratDist d x) hne).choose_spec
  exact ⟨(mem_doubles _).mp h.1, fun d hd => h.2 d ((mem_doubles d).mpr hd)⟩

theorem isDouble_neg {x : Rat} (h : IsDouble x) : IsDouble (-x) := by
  obtain ⟨m, e, hm, he, rfl⟩ := h
  refine ⟨-m, e, by omega, he, ?_⟩
  rw [Rat.intCast_neg]
  grind

theorem ratDist_neg (a b : Rat) : ratDist (-a) b = ratDist a (-b) := by
  unfold ratDist
  split <;> split <;> grind

/-- The rounding of the opposite numbers. -/
theorem Rounding.opposite {fl : Rat → Rat} (hfl : Rounding fl) : Rounding fun x => -fl (-x) := by
  intro x h1 h2
  obtain ⟨k1, k2⟩ := hfl (-x) (by grind) (by grind)
  refine ⟨isDouble_neg k1, fun d hd => ?_⟩
  have := k2 (-d) (isDouble_neg hd)
  rw [ratDist_neg]
  rw [ratDist_neg] at this
  rw [Rat.neg_neg] at this
  exact this

/-- No number below an integer is rounded to it or above it if there is a double between, but not too far
down. -/
theorem rounds_below {fl : Rat → Rat} (hfl : Rounding fl) {x r d : Rat} (h1 : -((2 : Rat) ^ 1023) ≤ x)
    (h2 : x ≤ (2 : Rat) ^ 1023) (hd : IsDouble d) (hdr : d < r) (hx : x < r) (h : r - d < 2 * (r - x)) :
    fl x < r := by
  obtain ⟨k1, k2⟩ := hfl x h1 h2
  have := k2 d hd
  unfold ratDist at this
  refine Rat.not_le.mp fun hle => ?_
  split at this <;> split at this <;> grind

/-- A fraction of a power of two, as a double. -/
theorem isDouble_frac {m : Int} {k : Nat} (hm : m.natAbs < 2 ^ 53) (hk : k ≤ 1074) :
    IsDouble (m / 2 ^ k) := by
  refine ⟨m, 1074 - k, hm, by omega, ?_⟩
  have h : (2 : Rat) ^ 1074 = 2 ^ (1074 - k) * 2 ^ k := by
    rw [← rat_pow_add]
    congr 1
    omega
  have h1 : (2 : Rat) ^ (1074 - k) ≠ 0 := by
    have : (0 : Rat) < 2 ^ (1074 - k) := Rat.pow_pos (by decide)
    grind
  have h2 : (2 : Rat) ^ k ≠ 0 := by
    have : (0 : Rat) < 2 ^ k := Rat.pow_pos (by decide)
    grind
  rw [h]
  generalize (2 : Rat) ^ (1074 - k) = T at *
  generalize (2 : Rat) ^ k = K at *
  grind

theorem cast_lt {a b : Int} (h : a < b) : (a : Rat) < (b : Rat) := Rat.intCast_lt_intCast.mpr h

theorem cast_pow (k : Nat) : (((2 : Int) ^ k : Int) : Rat) = 2 ^ k := by
  induction k with
  | zero => rfl
  | succ k ih => rw [Int.pow_succ, Rat.intCast_mul, ih, Rat.pow_succ]; rfl

/-- The condition on the distances, for fractions. -/
theorem below_frac {fl : Rat → Rat} (hfl : Rounding fl) {a b r m : Int} {k : Nat} (ha : a.natAbs ≤ 2 ^ 53)
    (hb : 1 ≤ b) (hr : a < r * b) (hm : m.natAbs < 2 ^ 53) (hk : k ≤ 1074) (h1 : m < r * 2 ^ k)
    (h2 : (r * 2 ^ k - m) * b < 2 ^ k * (2 * (r * b - a))) : fl (a / b) < r := by
  have hbp : (0 : Rat) < b := cast_lt (a := 0) (by omega)
  have hkp : (0 : Rat) < 2 ^ k := Rat.pow_pos (by decide)
  have hax : ((a : Rat) / b) * b = a := by grind
  have hdx : ((m : Rat) / 2 ^ k) * 2 ^ k = m := by grind
  have e1 := cast_lt h1
  have e2 := cast_lt h2
  have e3 := cast_lt hr
  simp only [Rat.intCast_mul, Rat.intCast_sub, cast_pow] at e1 e2 e3
  rw [show ((2 : Int) : Rat) = 2 from rfl] at e2
  have hlarge : (2 : Rat) ^ 53 ≤ 2 ^ 1023 := by decide +kernel
  have hb1 : (1 : Rat) ≤ b := cast_le hb
  have b1 : ((-(2 ^ 53) : Int) : Rat) ≤ a := cast_le (by omega)
  have b2 : (a : Rat) ≤ ((2 ^ 53 : Int) : Rat) := cast_le (by omega)
  rw [Rat.intCast_neg, cast_pow] at b1
  rw [cast_pow] at b2
  have h53 : (0 : Rat) ≤ 2 ^ 53 := pow_nonneg' 53
  have hmul : (2 : Rat) ^ 53 ≤ 2 ^ 53 * b := by
    have := Rat.mul_le_mul_of_nonneg_left hb1 h53
    grind
  refine rounds_below hfl ?_ ?_ (isDouble_frac hm hk) ?_ ?_ ?_
  · apply Rat.le_trans (b := -(2 : Rat) ^ 53) (by grind)
    apply rat_le_div hbp
    grind
  · apply Rat.le_trans (b := (2 : Rat) ^ 53) _ hlarge
    apply rat_div_le hbp
    grind
  · exact (Rat.div_lt_iff hkp).mpr e1
  · exact (Rat.div_lt_iff hbp).mpr e3
  · generalize (a : Rat) / b = x at *
    generalize (m : Rat) / 2 ^ k = d at *
    generalize (2 : Rat) ^ k = K at *
    have hpos : 0 < K * b := Rat.mul_pos hkp hbp
    refine Rat.not_le.mp fun hle => ?_
    have := Rat.mul_le_mul_of_nonneg_left hle (Rat.le_of_lt hpos)
    have t1 : K * b * (2 * (r - x)) = K * (2 * (r * b - a)) := by grind
    have t2 : K * b * (r - d) = (r * K - m) * b := by grind
    rw [t1, t2] at this
    exact Rat.not_le.mpr e2 this

theorem pow_le_pow' {k n : Nat} (h : k ≤ n) : (2 : Int) ^ n = 2 ^ k * 2 ^ (n - k) := by
  rw [← Int.pow_add]
  congr 1
  omega

/-- A rounded quotient is below the integer above the quotient. -/
theorem fl_lt {fl : Rat → Rat} (hfl : Rounding fl) {a b : Int} (ha : a.natAbs ≤ 2 ^ 53) (hb : 2 ≤ b)
    (hb' : b ≤ 2 ^ 53) : fl (a / b) < ((a / b + 1 : Int) : Rat) := by
  have hq := Int.mul_ediv_add_emod a b
  have hm0 := Int.emod_nonneg a (show b ≠ 0 by omega)
  have hm1 := Int.emod_lt_of_pos a (show 0 < b by omega)
  generalize a / b = q at *
  generalize a % b = c at *
  have hqb : (q + 1) * b = b * q + b := by grind
  rcases Int.lt_trichotomy q 0 with h0 | h0 | h0
  · rcases Int.lt_or_le q (-1) with h1 | h1
    · -- below -1
      obtain ⟨p, hp⟩ : ∃ p : Nat, q + 1 = -(p : Int) := ⟨(-(q + 1)).toNat, by omega⟩
      have hp1 : p ≠ 0 := by omega
      have l1 := Nat.log2_self_le hp1
      have l2 := @Nat.lt_log2_self p
      have hpb : (p : Int) * 2 ≤ p * b := Int.mul_le_mul_of_nonneg_left hb (by omega)
      have hpb' : (p : Int) * b = -(b * q + b) := by rw [← hqb, hp]; grind
      have l3 : Nat.log2 p ≤ 51 := by
        have : p < 2 ^ 52 := by omega
        have := (Nat.log2_lt hp1).mpr this
        omega
      generalize Nat.log2 p = k at *
      have e : (2 : Int) ^ 52 = 2 ^ k * 2 ^ (52 - k) := pow_le_pow' (by omega)
      have e' : (2 : Int) ^ (52 - k) = 2 * 2 ^ (51 - k) := by
        rw [show 52 - k = 51 - k + 1 by omega, Int.pow_succ]; omega
      have e2 : (1 : Int) ≤ 2 ^ (51 - k) := Int.pow_pos (by decide)
      have l1' : (2 : Int) ^ k ≤ p := by exact_mod_cast l1
      have l2' : (p : Int) + 1 ≤ 2 ^ k * 2 := by
        have : (p : Int) < (2 : Int) ^ (k + 1) := by exact_mod_cast l2
        rw [Int.pow_succ] at this
        omega
      have hm : (p : Int) * 2 ^ (52 - k) + 1 < 2 ^ 53 := by
        have := Int.mul_le_mul_of_nonneg_right l2' (show (0 : Int) ≤ 2 ^ (52 - k) by omega)
        have e3 : (2 : Int) ^ 53 = 2 ^ 52 * 2 := rfl
        rw [e3, e]
        generalize (2 : Int) ^ (52 - k) = S at *
        generalize (2 : Int) ^ k = T at *
        grind
      have hs : (0 : Int) ≤ p * 2 ^ (52 - k) := Int.mul_nonneg (by omega) (by omega)
      refine below_frac hfl (m := -((p : Int) * 2 ^ (52 - k) + 1)) (k := 52 - k) ha (by omega) (by omega)
        (by omega) (by omega) ?_ ?_
      · rw [hp]
        generalize (2 : Int) ^ (52 - k) = S at *
        grind
      · have h5 : ((q + 1) * 2 ^ (52 - k) - -((p : Int) * 2 ^ (52 - k) + 1)) * b = b := by
          rw [hp]
          generalize (2 : Int) ^ (52 - k) = S at *
          grind
        rw [h5, hqb]
        have h6 : 2 ^ k * b ≤ (p : Int) * b := Int.mul_le_mul_of_nonneg_right l1' (by omega)
        have h7 : (2 : Int) ^ (52 - k) ≤ 2 ^ (52 - k) * (b * q + b - a) := by
          have := Int.mul_le_mul_of_nonneg_left (show 1 ≤ b * q + b - a by omega) (show (0 : Int) ≤ 2 ^ (52 - k) by omega)
          omega
        have h8 : 2 ^ k * b < 2 ^ k * (2 ^ (52 - k) * (2 * (b * q + b - a))) := by
          have : 2 ^ k * (2 ^ (52 - k) * (2 * (b * q + b - a))) = 2 ^ 52 * (2 * (b * q + b - a)) := by
            rw [e]; grind
          rw [this]
          omega
        exact Int.lt_of_mul_lt_mul_left h8 (by omega)
    · -- from -1 to 0
      have : q = -1 := by omega
      subst this
      refine below_frac hfl (m := -1) (k := 53) ha (by omega) (by omega) (by decide) (by omega) ?_ ?_
      · decide
      · omega
  · -- from 0 to 1
    subst h0
    refine below_frac hfl (m := 2 ^ 53 - 1) (k := 53) ha (by omega) (by omega) (by decide) (by omega) ?_ ?_
    · decide
    · omega
  · -- above 1
    obtain ⟨p, rfl⟩ : ∃ p : Nat, q = (p : Int) := ⟨q.toNat, by omega⟩
    have hp1 : p ≠ 0 := by omega
    have l1 := Nat.log2_self_le hp1
    have l2 := @Nat.lt_log2_self p
    have hpb : (p : Int) * 2 ≤ p * b := Int.mul_le_mul_of_nonneg_left hb (by omega)
    have hcomm : (p : Int) * b = b * p := Int.mul_comm _ _
    have l3 : Nat.log2 p ≤ 52 := by
      have : p < 2 ^ 53 := by omega
      have := (Nat.log2_lt hp1).mpr this
      omega
    generalize Nat.log2 p = k at *
    have e : (2 : Int) ^ 52 = 2 ^ k * 2 ^ (52 - k) := pow_le_pow' (by omega)
    have e2 : (1 : Int) ≤ 2 ^ (52 - k) := Int.pow_pos (by decide)
    have l1' : (2 : Int) ^ k ≤ p := by exact_mod_cast l1
    have l2' : (p : Int) + 1 ≤ 2 ^ k * 2 := by
      have : (p : Int) < (2 : Int) ^ (k + 1) := by exact_mod_cast l2
      rw [Int.pow_succ] at this
      omega
    have hm : ((p : Int) + 1) * 2 ^ (52 - k) ≤ 2 ^ 53 := by
      have := Int.mul_le_mul_of_nonneg_right l2' (show (0 : Int) ≤ 2 ^ (52 - k) by omega)
      have e3 : (2 : Int) ^ 53 = 2 ^ 52 * 2 := rfl
      rw [e3, e]
      generalize (2 : Int) ^ (52 - k) = S at *
      generalize (2 : Int) ^ k = T at *
      grind
    have hs : (0 : Int) ≤ ((p : Int) + 1) * 2 ^ (52 - k) := Int.mul_nonneg (by omega) (by omega)
    refine below_frac hfl (m := ((p : Int) + 1) * 2 ^ (52 - k) - 1) (k := 52 - k) ha (by omega) (by omega)
      (by omega) (by omega) (by omega) ?_
    have h5 : (((p : Int) + 1) * 2 ^ (52 - k) - (((p : Int) + 1) * 2 ^ (52 - k) - 1)) * b = b := by
      generalize (2 : Int) ^ (52 - k) = S at *
      grind
    rw [h5, hqb]
    have h6 : 2 ^ k * b ≤ (p : Int) * b := Int.mul_le_mul_of_nonneg_right l1' (by omega)
    have h8 : 2 ^ k * b < 2 ^ k * (2 ^ (52 - k) * (2 * (b * p + b - a))) := by
      have : 2 ^ k * (2 ^ (52 - k) * (2 * (b * p + b - a))) = 2 ^ 52 * (2 * (b * p + b - a)) := by
        rw [e]; grind
      rw [this]
      omega
    have hk0 : (0 : Int) ≤ 2 ^ k := Int.le_of_lt (Int.pow_pos (by decide))
    exact Int.lt_of_mul_lt_mul_left h8 hk0

/-- Integers up to `2^53` are doubles. -/
theorem fl_exact {fl : Rat → Rat} (hfl : Rounding fl) {m : Int} (h : m.natAbs ≤ 2 ^ 53) : fl m = m := by
  have hd : IsDouble (m : Rat) := by
    by_cases he : m.natAbs = 2 ^ 53
    · rcases Int.natAbs_eq m with h' | h'
      · rw [he] at h'
        have := isDouble_mul (m := 1) (e := 53) (by decide) (by decide)
        rw [show (m : Rat) = ((1 : Int) : Rat) * 2 ^ 53 by rw [h']; decide +kernel]
        exact this
      · rw [he] at h'
        have := isDouble_mul (m := -1) (e := 53) (by decide) (by decide)
        rw [show (m : Rat) = ((-1 : Int) : Rat) * 2 ^ 53 by rw [h']; decide +kernel]
        exact this
    · have := isDouble_mul (m := m) (e := 0) (by omega) (by decide)
      rw [show (m : Rat) * 2 ^ 0 = m by simp] at this
      exact this
  have hlarge : (2 : Rat) ^ 53 ≤ 2 ^ 1023 := by decide +kernel
  have b1 : ((-(2 ^ 53) : Int) : Rat) ≤ m := cast_le (by omega)
  have b2 : (m : Rat) ≤ ((2 ^ 53 : Int) : Rat) := cast_le (by omega)
  rw [Rat.intCast_neg, cast_pow] at b1
  rw [cast_pow] at b2
  have := (hfl m (by grind) (by grind)).2 m hd
  unfold ratDist at this
  split at this <;> split at this <;> grind

/-- Quotients of integers that doubles hold are not too large. -/
theorem quot_bounds {a b : Int} (ha : a.natAbs ≤ 2 ^ 53) (hb : 1 ≤ b) :
    -((2 : Rat) ^ 1023) ≤ a / b ∧ (a : Rat) / b ≤ (2 : Rat) ^ 1023 := by
  have hbp : (0 : Rat) < b := cast_lt (a := 0) (by omega)
  have hlarge : (2 : Rat) ^ 53 ≤ 2 ^ 1023 := by decide +kernel
  have hb1 : (1 : Rat) ≤ b := cast_le hb
  have b1 : ((-(2 ^ 53) : Int) : Rat) ≤ a := cast_le (by omega)
  have b2 : (a : Rat) ≤ ((2 ^ 53 : Int) : Rat) := cast_le (by omega)
  rw [Rat.intCast_neg, cast_pow] at b1
  rw [cast_pow] at b2
  have hmul : (2 : Rat) ^ 53 ≤ 2 ^ 53 * b := by
    have := Rat.mul_le_mul_of_nonneg_left hb1 (pow_nonneg' 53)
    grind
  constructor
  · apply Rat.le_trans (b := -(2 : Rat) ^ 53) (by grind)
    apply rat_le_div hbp
    grind
  · apply Rat.le_trans (b := (2 : Rat) ^ 53) _ hlarge
    apply rat_div_le hbp
    grind

/-- `Math.floor(a/b)` for integers that doubles hold is the integer quotient. -/
theorem floor_fl {fl : Rat → Rat} (hfl : Rounding fl) {a b : Int} (ha : a.natAbs ≤ 2 ^ 53) (hb : 1 ≤ b)
    (hb' : b ≤ 2 ^ 53) : (fl (a / b)).floor = a / b := by
  by_cases h1 : b = 1
  · subst h1
    have : (a : Rat) / ((1 : Int) : Rat) = a := by
      rw [show ((1 : Int) : Rat) = 1 from rfl]; grind
    rw [this, fl_exact hfl ha, Rat.floor_intCast, Int.ediv_one]
  have hbp : (0 : Rat) < b := cast_lt (a := 0) (by omega)
  have hle : ((a / b : Int) : Rat) ≤ fl (a / b) := by
    obtain ⟨k1, k2⟩ := quot_bounds ha hb
    have hq := Int.ediv_mul_le a (show b ≠ 0 by omega)
    have hx : ((a / b : Int) : Rat) ≤ (a : Rat) / b := by
      apply rat_le_div hbp
      rw [← Rat.intCast_mul]
      exact cast_le hq
    have hqa : (a / b).natAbs ≤ 2 ^ 53 := by
      have := Int.natAbs_ediv_le_natAbs a b
      omega
    have hd : IsDouble ((a / b : Int) : Rat) := by
      have hz := (hfl ((a / b : Int) : Rat) ?_ ?_).1
      · rw [fl_exact hfl hqa] at hz
        exact hz
      · have := (quot_bounds hqa (show (1 : Int) ≤ 1 by decide)).1
        rw [show ((1 : Int) : Rat) = 1 from rfl] at this
        grind
      · exact Rat.le_trans hx k2
    obtain ⟨n1, n2⟩ := hfl (a / b) k1 k2
    have := n2 _ hd
    unfold ratDist at this
    refine Rat.not_lt.mp fun hlt => ?_
    split at this <;> grind
  have hlt := fl_lt hfl ha (by omega) hb'
  have t1 := Rat.le_floor_iff.mpr hle
  have t2 := Rat.floor_lt_iff.mpr hlt
  omega

/-- `Math.ceil(a/b)` likewise. -/
theorem ceil_fl {fl : Rat → Rat} (hfl : Rounding fl) {a b : Int} (ha : a.natAbs ≤ 2 ^ 53) (hb : 1 ≤ b)
    (hb' : b ≤ 2 ^ 53) : (fl (a / b)).ceil = -(-a / b) := by
  have := floor_fl (Rounding.opposite hfl) (a := -a) (b := b) (by omega) hb hb'
  rw [Rat.intCast_neg, show -(-(a : Rat) / b) = a / b by grind] at this
  rw [Rat.ceil_eq_neg_floor_neg, this]

/-- `truncate`. -/
def truncate (x : Rat) : Int := if 0 < x then x.floor else x.ceil

/-- `truncate(a/b)` is the quotient rounded towards zero. -/
theorem truncate_fl {fl : Rat → Rat} (hfl : Rounding fl) {a b : Int} (ha : a.natAbs ≤ 2 ^ 53)
    (hb : b.natAbs ≤ 2 ^ 53) (hb0 : b ≠ 0) : truncate (fl (a / b)) = a.tdiv b := by
  have main : ∀ {a b : Int}, a.natAbs ≤ 2 ^ 53 → 1 ≤ b → b ≤ 2 ^ 53 → truncate (fl (a / b)) = a.tdiv b := by
    intro a b ha hb hb'
    have hf := floor_fl hfl ha hb hb'
    have hc := ceil_fl hfl ha hb hb'
    unfold truncate
    rcases Int.le_total 0 a with h | h
    · rw [Int.tdiv_eq_ediv_of_nonneg h]
      split
      · exact hf
      · rename_i hn
        have h1 : (fl (a / b)).ceil ≤ 0 := Rat.ceil_le_iff.mpr (Rat.not_lt.mp hn)
        have h2 : 0 ≤ a / b := Int.ediv_nonneg h (by omega)
        have h3 : (fl (a / b)).floor ≤ (fl (a / b)).ceil :=
          Rat.intCast_le_intCast.mp (Rat.le_trans (Rat.floor_le _) Rat.le_ceil)
        omega
    · have ht : a.tdiv b = -(-a / b) := by
        rw [← Int.tdiv_eq_ediv_of_nonneg (show 0 ≤ -a by omega), Int.neg_tdiv, Int.neg_neg]
      rw [ht]
      split
      · rename_i hn
        have h1 : 0 ≤ (fl (a / b)).floor := Rat.le_floor_iff.mpr (Rat.le_of_lt hn)
        have h2 : 0 ≤ -a / b := Int.ediv_nonneg (by omega) (by omega)
        have h3 : (fl (a / b)).floor ≤ (fl (a / b)).ceil :=
          Rat.intCast_le_intCast.mp (Rat.le_trans (Rat.floor_le _) Rat.le_ceil)
        omega
      · exact hc
  rcases Int.lt_or_le 0 b with h | h
  · exact main ha (by omega) (by omega)
  · have := main (a := -a) (b := -b) (by omega) (by omega) (by omega)
    rw [Int.neg_tdiv, Int.tdiv_neg, Int.neg_neg] at this
    rw [← this, Rat.intCast_neg, Rat.intCast_neg]
    have hbp : (b : Rat) ≠ 0 := by
      intro h0
      exact hb0 (Rat.intCast_inj.mp h0)
    congr 2
    grind

end Verif.BigJs
