import Verif.Model.BigMath
import Verif.Lemmas.BigIntDiv
import Verif.Spec.BigMath
/-! Powers, shifts, bit operations and divisors of big integers. -/
namespace Verif.BigJs
open Spec (bitOf)

theorem val_fold (a : Arr) : a.foldr (fun d n => d + BASE * n) 0 = val a := by
  induction a with
  | nil => rfl
  | cons x a ih => rw [List.foldr_cons, ih]; rfl

theorem magnitude_eq (b : Big) : b.magnitude = b.toInt.natAbs := by
  cases b with
  | small v s => rfl
  | big a s => rw [Big.magnitude, val_fold]; cases s <;> simp [Big.toInt]

theorem one_ok : (Big.ofSmall 1).Ok := ofSmall_ok (by decide) (by decide)

theorem zero_ok : (Big.ofSmall 0).Ok := ofSmall_ok (by decide) (by decide)

theorem isEven_eq {b : Big} (h : b.Ok) : b.isEven = decide (b.toInt % 2 = 0) := by
  cases b with
  | small v s => rfl
  | big a s =>
    cases a with
    | nil => exact absurd h.2.2 (by decide)
    | cons x a =>
      simp only [Big.isEven, Big.toInt, val]
      apply decide_eq_decide.mpr
      cases s <;> simp <;> omega

theorem isOdd_eq {b : Big} (h : b.Ok) : b.isOdd = decide (b.toInt % 2 = 1) := by
  cases b with
  | small v s => rfl
  | big a s =>
    cases a with
    | nil => exact absurd h.2.2 (by decide)
    | cons x a =>
      simp only [Big.isOdd, Big.toInt, val]
      apply decide_eq_decide.mpr
      cases s <;> simp <;> omega

theorem big_pos {a : Arr} {s : Bool} (h : (Big.big a s).Ok) : 0 < val a :=
  Int.lt_of_lt_of_le (by decide) h.2.2

theorem isPositive_eq {b : Big} (h : b.Ok) : b.isPositive = decide (0 < b.toInt) := by
  cases b with
  | small v s => rfl
  | big a s =>
    have := big_pos h
    cases s <;> simp [Big.isPositive, Big.toInt] <;> omega

theorem isNegative_eq {b : Big} (h : b.Ok) : b.isNegative = decide (b.toInt < 0) := by
  cases b with
  | small v s => rfl
  | big a s =>
    have := big_pos h
    cases s <;> simp [Big.isNegative, Big.toInt] <;> omega

theorem isZero_eq {b : Big} (h : b.Ok) : b.isZero = decide (b.toInt = 0) := by
  cases b with
  | small v s => rfl
  | big a s =>
    have := big_pos h
    cases s <;> simp [Big.isZero, Big.toInt] <;> omega

theorem isUnit_eq {b : Big} (h : b.Ok) : b.isUnit = decide (b.toInt.natAbs = 1) := by
  cases b with
  | small v s => rfl
  | big a s =>
    have : MAX_INT ≤ val a := h.2.2
    have hM : (MAX_INT : Int) = 9007199254740992 := rfl
    cases s <;> simp [Big.isUnit, Big.toInt] <;> omega

theorem equals_eq {a b : Big} (ha : a.Ok) (hb : b.Ok) : a.equals b = decide (a.toInt = b.toInt) := by
  rw [Big.equals, compare_ok ha hb]
  apply decide_eq_decide.mpr
  unfold cmp
  split <;> (try split) <;> omega

theorem greater_eq {a b : Big} (ha : a.Ok) (hb : b.Ok) : a.greater b = decide (b.toInt < a.toInt) := by
  rw [Big.greater, compare_ok ha hb]
  apply decide_eq_decide.mpr
  unfold cmp
  split <;> (try split) <;> omega

theorem lesser_eq {a b : Big} (ha : a.Ok) (hb : b.Ok) : a.lesser b = decide (a.toInt < b.toInt) := by
  rw [Big.lesser, compare_ok ha hb]
  apply decide_eq_decide.mpr
  unfold cmp
  split <;> (try split) <;> omega

theorem natAbs_mul_self' (a : Int) : (a.natAbs : Int) * a.natAbs = a * a := Int.natAbs_mul_self

theorem square_ok {b : Big} (h : b.Ok) : ∃ r, b.square = .ok r ∧ r.Ok ∧ r.toInt = b.toInt * b.toInt := by
  have hM : (MAX_INT : Int) = 9007199254740992 := rfl
  have sq : ∀ a : Arr, squareArr a = multiplyLong a a := fun a => rfl
  cases b with
  | big a s =>
    obtain ⟨da, ta, ma⟩ := h
    obtain ⟨r, h1, h2, h3, h4⟩ := multiplyLong_eq da da
    refine ⟨.big r false, by rw [Big.square, sq, h1]; rfl, ⟨h2, h3, ?_⟩, ?_⟩
    · rw [h4]
      have h5 : val a * 1 ≤ val a * val a := Int.mul_le_mul_of_nonneg_left (by omega) (by omega)
      omega
    · simp only [Big.toInt, h4]
      cases s <;> simp [Int.neg_mul_neg]
  | small v s =>
    obtain ⟨h1, h2, h3, h4⟩ := h
    simp only [Big.square]
    by_cases hp : isPrecise (v * v) = true
    · rw [if_pos hp]
      simp only [isPrecise, Bool.and_eq_true, decide_eq_true_eq] at hp
      exact ⟨_, rfl, ofSmall_ok hp.1 hp.2, rfl⟩
    · rw [if_neg hp]
      obtain ⟨k1, k2, k3⟩ := smallToArray_eq (n := v.natAbs) (by omega) (by have := max_lt; omega)
      obtain ⟨r, j1, j2, j3, j4⟩ := multiplyLong_eq k2 k2
      refine ⟨.big r false, by rw [sq, j1]; rfl, ⟨j2, j3, ?_⟩, ?_⟩
      · rw [j4, k1, natAbs_mul_self']
        simp only [isPrecise, Bool.and_eq_true, decide_eq_true_eq] at hp
        have : 0 ≤ v * v := by rw [← natAbs_mul_self']; exact Int.mul_nonneg (by omega) (by omega)
        omega
      · simp [Big.toInt, j4, k1]

theorem maxArr_val : val MAX_INT_ARR = MAX_INT ∧ Digits MAX_INT_ARR ∧ Trimmed MAX_INT_ARR := by decide

theorem next_ok {b : Big} (h : b.Ok) : ∃ r, b.next = .ok r ∧ r.Ok ∧ r.toInt = b.toInt + 1 := by
  have hM : (MAX_INT : Int) = 9007199254740992 := rfl
  cases b with
  | big a s =>
    obtain ⟨da, ta, ma⟩ := h
    cases s with
    | true =>
      obtain ⟨h1, h2⟩ := subtractSmall_eq da (b := 1) (by omega) (by omega) true
      refine ⟨_, rfl, h1, ?_⟩
      rw [h2]
      simp [Big.toInt]
      omega
    | false =>
      obtain ⟨r, h1, h2, h3, h4⟩ := addSmall_eq da (carry := 1) (by omega) (by decide)
      exact ⟨.big r false, by simp only [Big.next]; rw [h1]; rfl, ⟨h3, h4 ta, by omega⟩, by
        simp [Big.toInt]; omega⟩
  | small v s =>
    obtain ⟨h1, h2, h3, h4⟩ := h
    simp only [Big.next]
    split
    · exact ⟨_, rfl, ofSmall_ok (by omega) (by omega), rfl⟩
    · obtain ⟨k1, k2, k3⟩ := maxArr_val
      exact ⟨_, rfl, ⟨k2, k3, by omega⟩, by simp [Big.toInt, k1]; omega⟩

theorem prev_ok {b : Big} (h : b.Ok) : ∃ r, b.prev = .ok r ∧ r.Ok ∧ r.toInt = b.toInt - 1 := by
  have hM : (MAX_INT : Int) = 9007199254740992 := rfl
  cases b with
  | big a s =>
    obtain ⟨da, ta, ma⟩ := h
    cases s with
    | false =>
      obtain ⟨h1, h2⟩ := subtractSmall_eq da (b := 1) (by omega) (by omega) false
      refine ⟨_, rfl, h1, ?_⟩
      rw [h2]
      simp [Big.toInt]
    | true =>
      obtain ⟨r, h1, h2, h3, h4⟩ := addSmall_eq da (carry := 1) (by omega) (by decide)
      exact ⟨.big r true, by simp only [Big.prev, if_true]; rw [h1]; rfl, ⟨h3, h4 ta, by omega⟩, by
        simp [Big.toInt]; omega⟩
  | small v s =>
    obtain ⟨h1, h2, h3, h4⟩ := h
    simp only [Big.prev]
    split
    · exact ⟨_, rfl, ofSmall_ok (by omega) (by omega), rfl⟩
    · obtain ⟨k1, k2, k3⟩ := maxArr_val
      exact ⟨_, rfl, ⟨k2, k3, by omega⟩, by simp [Big.toInt, k1]; omega⟩

theorem not_ok {b : Big} (h : b.Ok) : ∃ r, b.not = .ok r ∧ r.Ok ∧ r.toInt = -b.toInt - 1 := by
  obtain ⟨h1, h2⟩ := negate_ok h
  obtain ⟨r, h3, h4, h5⟩ := prev_ok h1
  exact ⟨r, h3, h4, by rw [h5, h2]⟩

/-! ### Powers -/

theorem powLoop_ok (fuel : Nat) : ∀ {x y : Big} {b : Nat}, x.Ok → y.Ok → b < fuel →
    ∃ r, powLoop fuel x y b = .ok r ∧ r.Ok ∧ r.toInt = y.toInt * x.toInt ^ b := by
  induction fuel with
  | zero => intro x y b _ _ h; omega
  | succ fuel ih =>
    intro x y b hx hy hb
    rw [powLoop]
    by_cases hp : b % 2 = 1
    · obtain ⟨m, h1, h2, h3⟩ := multiply_ok hy hx
      rw [if_pos hp, h1]
      simp only [bind, Except.bind]
      by_cases h0 : b - 1 = 0
      · rw [if_pos h0]
        refine ⟨m, rfl, h2, ?_⟩
        have : b = 1 := by omega
        rw [h3, this, Int.pow_succ, Int.pow_zero, Int.one_mul]
      · rw [if_neg h0]
        obtain ⟨s, k1, k2, k3⟩ := square_ok hx
        rw [k1]
        obtain ⟨r, j1, j2, j3⟩ := ih (b := (b - 1) / 2) k2 h2 (by omega)
        refine ⟨r, j1, j2, ?_⟩
        rw [j3, h3, k3]
        have : b = 2 * ((b - 1) / 2) + 1 := by omega
        conv => rhs; rw [this]
        rw [Int.pow_succ, Int.pow_mul, Int.pow_succ, Int.pow_succ, Int.pow_zero, Int.one_mul, Int.mul_assoc,
          Int.mul_comm x.toInt]
    · rw [if_neg hp]
      simp only [bind, Except.bind]
      by_cases h0 : b = 0
      · subst h0
        exact ⟨y, rfl, hy, by simp⟩
      · rw [if_neg h0]
        obtain ⟨s, k1, k2, k3⟩ := square_ok hx
        rw [k1]
        obtain ⟨r, j1, j2, j3⟩ := ih (b := b / 2) k2 hy (by omega)
        refine ⟨r, j1, j2, ?_⟩
        rw [j3, k3]
        have : b = 2 * (b / 2) := by omega
        conv => rhs; rw [this]
        rw [Int.pow_mul, Int.pow_succ, Int.pow_succ, Int.pow_zero, Int.one_mul]

/-- What a method gives: an integer, or the error. -/
def Gives (r : R Big) (message : String) : Option Int → Prop
  | some v => ∃ b, r = .ok b ∧ b.Ok ∧ b.toInt = v
  | none => r = .error (.expect message)

/-- What `pow` gives. -/
def powValue (x n : Int) : Option Int :=
  if n = 0 then some 1
  else if x = 0 then some 0
  else if x = 1 then some 1
  else if x = -1 then some (if n % 2 = 0 then 1 else -1)
  else if n < 0 then some 0
  else if MAX_INT ≤ n then none
  else some (x ^ n.toNat)

theorem sign_eq {n : Big} (hn : n.Ok) (h0 : n.toInt ≠ 0) : n.sign = decide (n.toInt < 0) := by
  cases n with
  | small v s =>
    obtain ⟨_, _, h3, h4⟩ := hn
    simp only [Big.toInt, Big.sign] at *
    by_cases hv : v < 0
    · simp [hv, h3 hv]
    · simp [hv, h4 (by omega)]
  | big a s =>
    have := big_pos hn
    cases s <;> simp [Big.toInt, Big.sign] <;> omega

theorem powRest_ok {x n : Big} (hx : x.Ok) (hn : n.Ok) (h0 : n.toInt ≠ 0) :
    Gives (powRest x n) "The exponent is too large."
      (if n.toInt < 0 then some 0 else if MAX_INT ≤ n.toInt then none else some (x.toInt ^ n.toInt.toNat)) := by
  have hM : (MAX_INT : Int) = 9007199254740992 := rfl
  unfold powRest
  rw [sign_eq hn h0]
  by_cases hneg : n.toInt < 0
  · rw [if_pos hneg, if_pos (show decide (n.toInt < 0) = true by simpa using hneg)]
    exact ⟨_, rfl, zero_ok, rfl⟩
  · rw [if_neg hneg, if_neg (show ¬ decide (n.toInt < 0) = true by simpa using hneg)]
    cases n with
    | big a s =>
      have h1 : MAX_INT ≤ (Big.big a s).toInt := by
        have : MAX_INT ≤ val a := hn.2.2
        cases s
        · exact this
        · simp [Big.toInt] at hneg; omega
      rw [if_pos h1]
      rfl
    | small b s =>
      rw [if_neg (by have := hn.2.1; simp only [Big.toInt]; omega)]
      obtain ⟨r, h1, h2, h3⟩ := powLoop_ok (b.toNat + 1) (b := b.toNat) hx one_ok (by omega)
      rw [toInt_ofSmall, Int.one_mul] at h3
      cases x with
      | big a t => exact ⟨r, h1, h2, h3⟩
      | small a t =>
        simp only []
        by_cases hp : isPrecise (a ^ b.toNat) = true
        · rw [if_pos hp]
          simp only [isPrecise, Bool.and_eq_true, decide_eq_true_eq] at hp
          exact ⟨_, rfl, ofSmall_ok hp.1 hp.2, rfl⟩
        · rw [if_neg hp]
          exact ⟨r, h1, h2, h3⟩

theorem pow_ok {x n : Big} (hx : x.Ok) (hn : n.Ok) :
    Gives (x.pow n) "The exponent is too large." (powValue x.toInt n.toInt) := by
  have hM : (MAX_INT : Int) = 9007199254740992 := rfl
  have m1 : (Big.ofSmall (-1)).Ok := ofSmall_ok (by decide) (by decide)
  unfold Big.pow powValue
  rw [isZero_eq hn]
  by_cases h0 : n.toInt = 0
  · rw [if_pos h0, if_pos (show decide (n.toInt = 0) = true by simpa using h0)]
    exact ⟨_, rfl, one_ok, rfl⟩
  · rw [if_neg h0, if_neg (show ¬ decide (n.toInt = 0) = true by simpa using h0)]
    have hr := powRest_ok hx hn h0
    cases x with
    | big a s =>
      have h1 : MAX_INT ≤ val a := hx.2.2
      have h2 : (Big.big a s).toInt ≠ 0 ∧ (Big.big a s).toInt ≠ 1 ∧ (Big.big a s).toInt ≠ -1 := by
        cases s <;> simp [Big.toInt] <;> omega
      rw [if_neg h2.1, if_neg h2.2.1, if_neg h2.2.2]
      exact hr
    | small a s =>
      have ea : (Big.small a s).toInt = a := rfl
      rw [ea] at hr ⊢
      simp only []
      by_cases a0 : a = 0
      · rw [if_pos a0, if_pos a0]
        exact ⟨_, rfl, zero_ok, rfl⟩
      · rw [if_neg a0, if_neg a0]
        by_cases a1 : a = 1
        · rw [if_pos a1, if_pos a1]
          exact ⟨_, rfl, one_ok, rfl⟩
        · rw [if_neg a1, if_neg a1]
          by_cases a2 : a = -1
          · rw [if_pos a2, if_pos a2, isEven_eq hn]
            by_cases he : n.toInt % 2 = 0
            · rw [if_pos he]
              rw [if_pos (show decide (n.toInt % 2 = 0) = true by simpa using he)]
              exact ⟨_, rfl, one_ok, rfl⟩
            · rw [if_neg he]
              rw [if_neg (show ¬ decide (n.toInt % 2 = 0) = true by simpa using he)]
              exact ⟨_, rfl, m1, rfl⟩
          · rw [if_neg a2, if_neg a2]
            exact hr

/-! ### Shifts -/

theorem powers_eq : powersOfTwo = (List.range 24).map fun i => (2 : Int) ^ i := by decide +kernel

theorem powers_length : powersOfTwo.length = 24 := by rw [powers_eq]; rfl

theorem powers_get {n : Nat} (h : n < 24) : powersOfTwo[n]? = some ((2 : Int) ^ n) := by
  rw [powers_eq, List.getElem?_map, List.getElem?_range h]
  rfl

theorem highest_eq : highestPower2 = 8388608 := by decide +kernel

theorem pow_bounds {n : Nat} (h : n < 24) : 1 ≤ (2 : Int) ^ n ∧ (2 : Int) ^ n ≤ 8388608 := by
  have h1 : 1 ≤ 2 ^ n := Nat.one_le_two_pow
  have h2 : 2 ^ n ≤ 2 ^ 23 := Nat.pow_le_pow_right (by decide) (by omega)
  have h3 : ((2 ^ n : Nat) : Int) = 2 ^ n := by simp
  omega

theorem small_ok {p : Int} (h1 : 1 ≤ p) (h2 : p ≤ 8388608) : (Big.ofSmall p).Ok := by
  have hM : (MAX_INT : Int) = 9007199254740992 := rfl
  exact ofSmall_ok (by omega) (by omega)

theorem shiftLeftLoop_ok (fuel : Nat) : ∀ {n : Nat} {x : Big}, x.Ok → n < fuel →
    ∃ r, shiftLeftLoop fuel n x = .ok r ∧ r.Ok ∧ r.toInt = x.toInt * 2 ^ n := by
  induction fuel with
  | zero => intro n x _ h; omega
  | succ fuel ih =>
    intro n x hx hn
    rw [shiftLeftLoop, powers_length, highest_eq]
    by_cases h : n ≥ 24
    · rw [if_pos h]
      obtain ⟨m, h1, h2, h3⟩ := multiply_ok hx (small_ok (p := 8388608) (by decide) (by decide))
      rw [h1]
      obtain ⟨r, k1, k2, k3⟩ := ih (n := n - (24 - 1)) h2 (by omega)
      refine ⟨r, k1, k2, ?_⟩
      rw [k3, h3, toInt_ofSmall, show (8388608 : Int) = 2 ^ 23 from rfl, Int.mul_assoc, ← Int.pow_add]
      congr 2
      omega
    · rw [if_neg h, powers_get (by omega)]
      obtain ⟨h4, h5⟩ := pow_bounds (n := n) (by omega)
      obtain ⟨m, h1, h2, h3⟩ := multiply_ok hx (small_ok h4 h5)
      exact ⟨m, h1, h2, h3⟩

theorem floorDiv_ok {fl : Rat → Rat} (hfl : Spec.Rounding fl) {x : Big} (hx : x.Ok) {p : Int} (h1 : 1 ≤ p)
    (h2 : p ≤ 8388608) : ∃ r, floorDiv fl x p = .ok r ∧ r.Ok ∧ r.toInt = x.toInt / p := by
  have e : (Big.ofSmall p).toInt = p := rfl
  obtain ⟨q, r, j1, j2, j3, j4, j5⟩ := divmod_ok hfl hx (small_ok h1 h2) (by rw [e]; omega)
  rw [e] at j4 j5
  have hd : r.toInt + p * q.toInt = x.toInt := by rw [j4, j5]; exact Int.tmod_add_mul_tdiv _ _
  have hlt : r.toInt.natAbs < p.natAbs := by
    rw [j5, Int.natAbs_tmod]
    exact Nat.mod_lt _ (by omega)
  unfold floorDiv
  rw [j1]
  simp only [bind, Except.bind]
  rw [isNegative_eq j3]
  by_cases hn : r.toInt < 0
  · rw [if_pos (by simpa using hn)]
    obtain ⟨q', k1, k2, k3⟩ := prev_ok j2
    refine ⟨q', k1, k2, ?_⟩
    have := ((Int.ediv_emod_unique (a := x.toInt) (r := r.toInt + p) (q := q.toInt - 1) (b := p) (by omega)).mpr
      ⟨by rw [Int.mul_sub]; omega, by omega, by omega⟩).1
    rw [k3, this]
  · rw [if_neg (by simpa using hn)]
    refine ⟨q, rfl, j2, ?_⟩
    exact (((Int.ediv_emod_unique (a := x.toInt) (r := r.toInt) (q := q.toInt) (b := p) (by omega)).mpr
      ⟨by omega, by omega, by omega⟩).1).symm

theorem shiftRightLoop_ok {fl : Rat → Rat} (hfl : Spec.Rounding fl) (fuel : Nat) : ∀ {n : Nat} {x : Big}, x.Ok →
    n < fuel → ∃ r, shiftRightLoop fl fuel n x = .ok r ∧ r.Ok ∧ r.toInt = x.toInt / 2 ^ n := by
  induction fuel with
  | zero => intro n x _ h; omega
  | succ fuel ih =>
    intro n x hx hn
    rw [shiftRightLoop, powers_length, highest_eq]
    by_cases h : n ≥ 24
    · rw [if_pos h, isZero_eq hx]
      by_cases h0 : x.toInt = 0
      · rw [if_pos (by simpa using h0)]
        exact ⟨x, rfl, hx, by rw [h0, Int.zero_ediv]⟩
      · rw [if_neg (by simpa using h0)]
        obtain ⟨m, h1, h2, h3⟩ := floorDiv_ok hfl hx (p := 8388608) (by decide) (by decide)
        rw [h1]
        obtain ⟨r, k1, k2, k3⟩ := ih (n := n - (24 - 1)) h2 (by omega)
        refine ⟨r, k1, k2, ?_⟩
        rw [k3, h3, Int.ediv_ediv_of_nonneg (by decide), show (8388608 : Int) = 2 ^ 23 from rfl, ← Int.pow_add]
        congr 2
        omega
    · rw [if_neg h, powers_get (by omega)]
      obtain ⟨h4, h5⟩ := pow_bounds (n := n) (by omega)
      exact floorDiv_ok hfl hx h4 h5

/-- What a shift to the left gives. -/
def shiftValue (x n : Int) : Int := if n < 0 then x / 2 ^ (-n).toNat else x * 2 ^ n.toNat

theorem shiftLeft_ok {fl : Rat → Rat} (hfl : Spec.Rounding fl) {x : Big} (hx : x.Ok) {n : Int}
    (hn : n.natAbs ≤ 10000000) :
    ∃ r, x.shiftLeft fl (.number n) = .ok r ∧ r.Ok ∧ r.toInt = shiftValue x.toInt n := by
  unfold Big.shiftLeft shiftValue
  have : shiftIsSmall (.number n) = true := by
    have hB : BASE = 10000000 := rfl
    simp only [shiftIsSmall, decide_eq_true_eq]; omega
  rw [if_pos this]
  simp only [ShiftArg.toNumber, bind, Except.bind]
  split
  · exact shiftRightLoop_ok hfl _ hx (by omega)
  · exact shiftLeftLoop_ok _ hx (by omega)

theorem shiftRight_ok {fl : Rat → Rat} (hfl : Spec.Rounding fl) {x : Big} (hx : x.Ok) {n : Int}
    (hn : n.natAbs ≤ 10000000) :
    ∃ r, x.shiftRight fl (.number n) = .ok r ∧ r.Ok ∧ r.toInt = shiftValue x.toInt (-n) := by
  unfold Big.shiftRight shiftValue
  have : shiftIsSmall (.number n) = true := by
    have hB : BASE = 10000000 := rfl
    simp only [shiftIsSmall, decide_eq_true_eq]; omega
  rw [if_pos this]
  simp only [ShiftArg.toNumber, bind, Except.bind]
  by_cases h : n < 0
  · rw [if_pos h, if_neg (by omega)]
    exact shiftLeftLoop_ok _ hx (by omega)
  · rw [if_neg h]
    by_cases h0 : n = 0
    · subst h0
      rw [if_neg (by decide)]
      obtain ⟨r, k1, k2, k3⟩ := shiftRightLoop_ok hfl 1 (n := 0) hx (by omega)
      exact ⟨r, k1, k2, by rw [k3]; simp⟩
    · rw [if_pos (by omega), Int.neg_neg]
      exact shiftRightLoop_ok hfl _ hx (by omega)

theorem shift_too_large (fl : Rat → Rat) (x : Big) {n : Int} (hn : 10000000 < n.natAbs) :
    x.shiftLeft fl (.number n) = .error (.expect "is too large for shifting.") ∧
    x.shiftRight fl (.number n) = .error (.expect "is too large for shifting.") := by
  have : shiftIsSmall (.number n) = false := by
    have hB : BASE = 10000000 := rfl
    simp only [shiftIsSmall, decide_eq_false_iff_not]; omega
  exact ⟨by rw [Big.shiftLeft, this]; rfl, by rw [Big.shiftRight, this]; rfl⟩

/-- A big integer is never accepted. -/
theorem shift_object (fl : Rat → Rat) (x : Big) {n : Big} (hn : n.Ok) :
    x.shiftLeft fl (.object n) = .error (.expect "is too large for shifting.") ∧
    x.shiftRight fl (.object n) = .error (.expect "is too large for shifting.") := by
  have : shiftIsSmall (.object n) = false := by
    cases n with
    | small v s => rfl
    | big a s =>
      obtain ⟨da, ta, ma⟩ := hn
      simp only [shiftIsSmall, decide_eq_false_iff_not]
      intro hl
      have h1 := val_lt da
      have h2 : (10000000 : Int) ^ a.length ≤ 10000000 ^ 1 := pow_mono hl
      have hM : (MAX_INT : Int) = 9007199254740992 := rfl
      omega
  exact ⟨by rw [Big.shiftLeft, this]; rfl, by rw [Big.shiftRight, this]; rfl⟩

/-! ### Bit operations -/

/-- The number that a list of digits to the base `2^23` stands for, above which comes `init`. -/
def sumOf (init : Int) : List Int → Int
  | [] => init
  | d :: ds => sumOf init ds * 8388608 + d

theorem bitwiseSum_ok {init : Big} (hi : init.Ok) : ∀ {ds : List Int}, (∀ d ∈ ds, 0 ≤ d ∧ d < 8388608) →
    ∃ r, bitwiseSum init ds = .ok r ∧ r.Ok ∧ r.toInt = sumOf init.toInt ds := by
  intro ds
  induction ds with
  | nil => intro _; exact ⟨init, rfl, hi, rfl⟩
  | cons d ds ih =>
    intro hd
    obtain ⟨r, h1, h2, h3⟩ := ih fun x hx => hd x (List.mem_cons_of_mem _ hx)
    obtain ⟨m, k1, k2, k3⟩ := multiply_ok h2 (small_ok (p := 8388608) (by decide) (by decide))
    have hM : (MAX_INT : Int) = 9007199254740992 := rfl
    have := hd d (List.mem_cons_self ..)
    obtain ⟨a, j1, j2, j3⟩ := add_ok k2 (ofSmall_ok (v := d) (by omega) (by omega))
    refine ⟨a, ?_, j2, ?_⟩
    · rw [bitwiseSum, highest_eq, h1]
      simp only [bind, Except.bind]
      rw [k1]
      exact j1
    · rw [j3, k3, h3]
      rfl

theorem bitOf_ofNat (d i : Nat) : bitOf (d : Int) i = d.testBit i := by
  rw [bitOf, Nat.testBit_eq_decide_div_mod_eq]
  apply decide_eq_decide.mpr
  rw [show ((2 : Int) ^ i) = ((2 ^ i : Nat) : Int) by simp]
  omega

theorem bitOf_low {t d : Int} (h0 : 0 ≤ d) (h : d < 8388608) {i : Nat} (hi : i < 23) :
    bitOf (t * 8388608 + d) i = bitOf d i := by
  have e : (8388608 : Int) = 2 ^ (23 - i) * 2 ^ i := by
    rw [← Int.pow_add, show 23 - i + i = 23 by omega]; rfl
  have e2 : (2 : Int) ^ (23 - i) = 2 * 2 ^ (22 - i) := by
    rw [show 23 - i = 22 - i + 1 by omega, Int.pow_succ, Int.mul_comm]
  have hp : (0 : Int) < 2 ^ i := Int.pow_pos (by decide)
  unfold bitOf
  rw [show t * 8388608 + d = d + t * 2 ^ (23 - i) * 2 ^ i by rw [Int.mul_assoc, ← e]; omega,
    Int.add_mul_ediv_right _ _ (by omega), e2]
  apply decide_eq_decide.mpr
  rw [show t * (2 * 2 ^ (22 - i)) = 2 * (t * 2 ^ (22 - i)) by rw [Int.mul_left_comm]]
  omega

theorem bitOf_high {t d : Int} (h0 : 0 ≤ d) (h : d < 8388608) (i : Nat) :
    bitOf (t * 8388608 + d) (i + 23) = bitOf t i := by
  unfold bitOf
  rw [show (2 : Int) ^ (i + 23) = 8388608 * 2 ^ i by rw [Int.pow_add, Int.mul_comm]; rfl,
    ← Int.ediv_ediv_of_nonneg (by decide)]
  rw [show (t * 8388608 + d) / 8388608 = t by omega]

theorem bitOf_zero (i : Nat) : bitOf 0 i = false := by simp [bitOf]

theorem bitOf_neg_one (i : Nat) : bitOf (-1) i = true := by
  have h1 : (2 : Int) ^ i = ((2 ^ i : Nat) : Int) := by simp
  have h2 : 1 ≤ 2 ^ i := Nat.one_le_two_pow
  have : (-1 : Int) / 2 ^ i = -1 :=
    ((Int.ediv_emod_unique (a := -1) (q := -1) (r := 2 ^ i - 1) (b := 2 ^ i) (by omega)).mpr
      ⟨by omega, by omega, by omega⟩).1
  rw [bitOf, this]
  rfl

/-- The number whose digits `bitwise` takes from a remainder that is not negative. -/
def signed (sign : Bool) (x : Int) : Int := if sign then -x - 1 else x

theorem signed_parts (sign : Bool) {x : Int} (h : 0 ≤ x) :
    signed sign x = signed sign (x / 8388608) * 8388608 +
      (if sign then 8388608 - 1 - x % 8388608 else x % 8388608) := by
  cases sign <;> simp [signed] <;> omega

theorem bitwiseLoop_ok {fl : Rat → Rat} (hfl : Spec.Rounding fl) {fn : Nat → Nat → Nat} {f : Bool → Bool → Bool}
    (hf : ∀ a b i, (fn a b).testBit i = f (a.testBit i) (b.testBit i)) (f0 : f false false = false)
    (xs ys : Bool) (fuel : Nat) : ∀ {x y : Big}, x.Ok → y.Ok → 0 ≤ x.toInt → 0 ≤ y.toInt →
      x.toInt + y.toInt < fuel → ∃ ds, bitwiseLoop fl fn xs ys fuel x y = .ok ds ∧
        (∀ d ∈ ds, 0 ≤ d ∧ d < 8388608) ∧
        ∀ i, bitOf (sumOf (if f xs ys then -1 else 0) ds) i =
          f (bitOf (signed xs x.toInt) i) (bitOf (signed ys y.toInt) i) := by
  induction fuel with
  | zero => intro x y _ _ h1 h2 h; omega
  | succ fuel ih =>
    intro x y hx hy h0x h0y hlt
    rw [bitwiseLoop, isZero_eq hx, isZero_eq hy]
    by_cases hz : x.toInt = 0 ∧ y.toInt = 0
    · rw [if_neg (by simp [hz])]
      refine ⟨[], rfl, by simp, fun i => ?_⟩
      rw [hz.1, hz.2, sumOf]
      have : ∀ s, bitOf (signed s 0) i = s := by
        intro s
        cases s
        · exact bitOf_zero i
        · exact bitOf_neg_one i
      rw [this, this]
      cases f xs ys
      · exact bitOf_zero i
      · exact bitOf_neg_one i
    · rw [if_pos (by simp; omega)]
      have e : (Big.ofSmall 8388608).toInt = 8388608 := rfl
      have hp := small_ok (p := 8388608) (by decide) (by decide)
      obtain ⟨xq, xr, a1, a2, a3, a4, a5⟩ := divmod_ok hfl hx hp (by decide)
      obtain ⟨yq, yr, b1, b2, b3, b4, b5⟩ := divmod_ok hfl hy hp (by decide)
      rw [e, Int.tdiv_eq_ediv_of_nonneg h0x] at a4
      rw [e, Int.tmod_eq_emod_of_nonneg h0x] at a5
      rw [e, Int.tdiv_eq_ediv_of_nonneg h0y] at b4
      rw [e, Int.tmod_eq_emod_of_nonneg h0y] at b5
      have dig : ∀ (s : Bool) (r : Big) (v : Int), r.Ok → r.toInt = v % 8388608 → 
          bitDigit s r = .ok (if s then 8388608 - 1 - v % 8388608 else v % 8388608) := by
        intro s r v hr hv
        have hM : (MAX_INT : Int) = 9007199254740992 := rfl
        cases r with
        | small w t =>
          simp only [Big.toInt] at hv
          rw [bitDigit, highest_eq, hv.symm]
          rfl
        | big w t =>
          have : MAX_INT ≤ val w := hr.2.2
          cases t <;> simp [Big.toInt] at hv <;> omega
      obtain ⟨ds, c1, c2, c3⟩ := ih a2 b2 (by omega) (by omega) (by omega)
      rw [highest_eq, a1]
      simp only [bind, Except.bind]
      rw [dig xs xr _ a3 a5]
      simp only []
      rw [b1]
      simp only []
      rw [dig ys yr _ b3 b5]
      simp only []
      rw [c1]
      have px := signed_parts xs h0x
      have py := signed_parts ys h0y
      rw [← a4] at px
      rw [← b4] at py
      generalize hdx : (if xs then 8388608 - 1 - x.toInt % 8388608 else x.toInt % 8388608) = dx at px
      generalize hdy : (if ys then 8388608 - 1 - y.toInt % 8388608 else y.toInt % 8388608) = dy at py
      have bx : 0 ≤ dx ∧ dx < 8388608 := by rw [← hdx]; split <;> omega
      have by' : 0 ≤ dy ∧ dy < 8388608 := by rw [← hdy]; split <;> omega
      have hfn : fn dx.toNat dy.toNat < 8388608 := by
        rw [show 8388608 = 2 ^ 23 from rfl]
        apply Nat.lt_pow_two_of_testBit
        intro i hi
        rw [hf, Nat.testBit_lt_two_pow, Nat.testBit_lt_two_pow, f0]
        · exact Nat.lt_of_lt_of_le (show dy.toNat < 2 ^ 23 by omega) (Nat.pow_le_pow_right (by decide) hi)
        · exact Nat.lt_of_lt_of_le (show dx.toNat < 2 ^ 23 by omega) (Nat.pow_le_pow_right (by decide) hi)
      refine ⟨_, rfl, ?_, fun i => ?_⟩
      · intro d hd
        rcases List.mem_cons.1 hd with rfl | hd
        · omega
        · exact c2 d hd
      · rw [sumOf, px, py]
        by_cases hi : i < 23
        · rw [bitOf_low (by omega) (by omega) hi, bitOf_low bx.1 bx.2 hi, bitOf_low by'.1 by'.2 hi, bitOf_ofNat, hf,
            ← bitOf_ofNat, ← bitOf_ofNat, Int.toNat_of_nonneg bx.1, Int.toNat_of_nonneg by'.1]
        · obtain ⟨k, rfl⟩ : ∃ k, i = k + 23 := ⟨i - 23, by omega⟩
          rw [bitOf_high (by omega) (by omega), bitOf_high bx.1 bx.2, bitOf_high by'.1 by'.2]
          exact c3 k

theorem bitwise_ok {fl : Rat → Rat} (hfl : Spec.Rounding fl) {fn : Nat → Nat → Nat} {f : Bool → Bool → Bool}
    (hf : ∀ a b i, (fn a b).testBit i = f (a.testBit i) (b.testBit i)) (f0 : f false false = false)
    {x y : Big} (hx : x.Ok) (hy : y.Ok) : ∃ r, bitwise fl fn x y = .ok r ∧ r.Ok ∧
      ∀ i, bitOf r.toInt i = f (bitOf x.toInt i) (bitOf y.toInt i) := by
  have rem : ∀ {z : Big}, z.Ok → ∃ r, bitRest z = .ok r ∧ r.Ok ∧ 0 ≤ r.toInt ∧
      signed z.isNegative r.toInt = z.toInt := by
    intro z hz
    rw [bitRest, isNegative_eq hz]
    by_cases h : z.toInt < 0
    · obtain ⟨r, h1, h2, h3⟩ := not_ok hz
      exact ⟨r, by rw [if_pos (by simpa using h)]; exact h1, h2, by omega, by simp [signed, h]; omega⟩
    · exact ⟨z, by rw [if_neg (by simpa using h)], hz, by omega, by simp [signed, h]⟩
  obtain ⟨xr, a1, a2, a3, a4⟩ := rem hx
  obtain ⟨yr, b1, b2, b3, b4⟩ := rem hy
  obtain ⟨ds, c1, c2, c3⟩ := bitwiseLoop_ok hfl hf f0 x.isNegative y.isNegative (xr.magnitude + yr.magnitude + 1)
    a2 b2 a3 b3 (by rw [magnitude_eq, magnitude_eq]; omega)
  unfold bitwise
  rw [a1, b1]
  simp only [bind, Except.bind]
  rw [c1]
  simp only []
  have hbit : fn (if x.isNegative then 1 else 0) (if y.isNegative then 1 else 0) ≠ 0 ↔
      f x.isNegative y.isNegative = true := by
    have one : ∀ s : Bool, (if s then 1 else 0 : Nat).testBit 0 = s := by intro s; cases s <;> rfl
    constructor
    · intro h
      by_cases hc : f x.isNegative y.isNegative = true
      · exact hc
      · refine absurd (Nat.eq_of_testBit_eq fun i => ?_) h
        rw [hf, Nat.zero_testBit]
        cases i with
        | zero => rw [one, one]; simpa using hc
        | succ i =>
          have high : ∀ s : Bool, (if s then 1 else 0 : Nat).testBit (i + 1) = false := by
            intro s; cases s <;> simp [Nat.testBit_succ]
          rw [high, high, f0]
    · intro h h0
      have := hf (if x.isNegative then 1 else 0) (if y.isNegative then 1 else 0) 0
      rw [h0, one, one, h] at this
      simp at this
  rw [a4, b4] at c3
  by_cases h : f x.isNegative y.isNegative = true
  · rw [if_pos (hbit.mpr h)]
    rw [if_pos h] at c3
    obtain ⟨r, k1, k2, k3⟩ := bitwiseSum_ok (init := .ofSmall (-1)) (ofSmall_ok (by decide) (by decide)) c2
    exact ⟨r, k1, k2, by rw [k3]; exact c3⟩
  · rw [if_neg fun k => h (hbit.mp k)]
    rw [if_neg h] at c3
    obtain ⟨r, k1, k2, k3⟩ := bitwiseSum_ok (init := .ofSmall 0) zero_ok c2
    exact ⟨r, k1, k2, by rw [k3]; exact c3⟩

/-! ### Powers modulo a number -/

theorem tmod_signs (x y : Int) : x.tmod y = x.sign * (x.natAbs % y.natAbs : Nat) := by
  match x, y with
  | .ofNat m, .ofNat n => cases m <;> simp [Int.sign] <;> rfl
  | .ofNat m, .negSucc n => cases m <;> simp [Int.sign, Int.tmod] <;> rfl
  | .negSucc m, .ofNat n => simp [Int.sign, Int.tmod]
  | .negSucc m, .negSucc n => simp [Int.sign, Int.tmod]

theorem tmod_mul_tmod (a b m : Int) : (a.tmod m * b).tmod m = (a * b).tmod m := by
  rw [tmod_signs (a.tmod m * b), tmod_signs (a * b), Int.natAbs_mul, Int.natAbs_tmod, Int.natAbs_mul, Nat.mod_mul_mod,
    Int.sign_mul, Int.sign_mul]
  by_cases h : a.natAbs % m.natAbs = 0
  · have : a.natAbs * b.natAbs % m.natAbs = 0 := by rw [← Nat.mod_mul_mod, h, Nat.zero_mul, Nat.zero_mod]
    rw [this]
    simp
  · have : (a.tmod m).sign = a.sign := by
      rw [tmod_signs, Int.sign_mul, Int.sign_sign, Int.sign_eq_one_of_pos (a := ((a.natAbs % m.natAbs : Nat) : Int))
        (by omega), Int.mul_one]
    rw [this]

theorem tmod_pow (a m : Int) (k : Nat) : ∀ c, (c * a.tmod m ^ k).tmod m = (c * a ^ k).tmod m := by
  induction k with
  | zero => intro c; simp
  | succ k ih =>
    intro c
    rw [Int.pow_succ, ← Int.mul_assoc, Int.mul_comm, tmod_mul_tmod, Int.mul_comm a, Int.mul_assoc, Int.mul_comm _ a,
      ← Int.mul_assoc, ih, Int.pow_succ, Int.mul_assoc, Int.mul_comm a]

theorem modPowLoop_ok {fl : Rat → Rat} (hfl : Spec.Rounding fl) {m : Big} (hm : m.Ok) (h0 : m.toInt ≠ 0)
    (fuel : Nat) : ∀ {r base e : Big}, r.Ok → base.Ok → e.Ok → e.toInt.natAbs < fuel →
      ∃ b, modPowLoop fl m fuel r base e = .ok b ∧ b.Ok ∧
        b.toInt = if 0 < e.toInt then (r.toInt * base.toInt ^ e.toInt.toNat).tmod m.toInt else r.toInt := by
  induction fuel with
  | zero =>
    intro r base e hr hb he hlt
    omega
  | succ fuel ih =>
    intro r base e hr hb he hlt
    rw [modPowLoop, isPositive_eq he, isZero_eq hb, isOdd_eq he]
    by_cases hp : 0 < e.toInt
    · rw [if_pos (by simpa using hp), if_pos hp]
      by_cases hz : base.toInt = 0
      · rw [if_pos (by simpa using hz)]
        refine ⟨_, rfl, zero_ok, ?_⟩
        rw [hz, Int.zero_pow (by omega)]
        simp [toInt_ofSmall]
      · rw [if_neg (by simpa using hz)]
        obtain ⟨p, a1, a2, a3⟩ := multiply_ok hr hb
        obtain ⟨q, pm, b1, b2, b3, b4, b5⟩ := divmod_ok hfl a2 hm h0
        obtain ⟨eq, er, c1, c2, c3, c4, c5⟩ := divmod_ok hfl he (n := .ofSmall 2) (ofSmall_ok (by decide) (by decide))
          (by decide)
        obtain ⟨s, d1, d2, d3⟩ := square_ok hb
        obtain ⟨sq, sm, f1, f2, f3, f4, f5⟩ := divmod_ok hfl d2 hm h0
        rw [toInt_ofSmall, Int.tdiv_eq_ediv_of_nonneg (by omega)] at c4
        have fin : ∀ r' : Big, r'.Ok →
            r'.toInt.tmod m.toInt = (r.toInt * base.toInt ^ (e.toInt % 2).toNat).tmod m.toInt →
            (eq.toInt = 0 → r'.toInt = (r.toInt * base.toInt).tmod m.toInt) →
            ∃ b, modPowLoop fl m fuel r' sm eq = .ok b ∧ b.Ok ∧
              b.toInt = (r.toInt * base.toInt ^ e.toInt.toNat).tmod m.toInt := by
          intro r' hr' h1 h2
          obtain ⟨b, g1, g2, g3⟩ := ih hr' f3 c2 (by omega)
          refine ⟨b, g1, g2, ?_⟩
          rw [g3]
          by_cases hq : 0 < eq.toInt
          · rw [if_pos hq, f5, d3, tmod_pow, ← tmod_mul_tmod, h1, tmod_mul_tmod]
            have : e.toInt.toNat = (e.toInt % 2).toNat + 2 * eq.toInt.toNat := by omega
            rw [this, Int.pow_add, Int.pow_mul, Int.pow_succ base.toInt 1, Int.pow_one, Int.mul_assoc]
          · rw [if_neg hq, h2 (by omega)]
            have : e.toInt.toNat = 1 := by omega
            rw [this, Int.pow_one]
        by_cases ho : e.toInt % 2 = 1
        · rw [if_pos (by simpa using ho), a1]
          simp only [bind, Except.bind]
          rw [b1]
          simp only []
          rw [c1]
          simp only []
          rw [d1]
          simp only []
          rw [f1]
          refine fin pm b3 ?_ fun _ => by rw [b5, a3]
          rw [ho, b5, a3, Int.tmod_tmod, show (1 : Int).toNat = 1 from rfl, Int.pow_one]
        · rw [if_neg (by simpa using ho)]
          simp only [bind, Except.bind]
          rw [c1]
          simp only []
          rw [d1]
          simp only []
          rw [f1]
          refine fin r hr ?_ fun h => by omega
          rw [show e.toInt % 2 = 0 by omega]
          simp
    · rw [if_neg (by simpa using hp), if_neg hp]
      exact ⟨r, rfl, hr, rfl⟩

/-- What `modPow` gives. -/
def modPowValue (x e m : Int) : Option Int :=
  if m = 0 then none else some (if 0 < e then (x ^ e.toNat).tmod m else 1)

theorem modPow_ok {fl : Rat → Rat} (hfl : Spec.Rounding fl) {x e m : Big} (hx : x.Ok) (he : e.Ok) (hm : m.Ok) :
    Gives (x.modPow fl e m) "Cannot take modPow with modulus 0" (modPowValue x.toInt e.toInt m.toInt) := by
  unfold Big.modPow modPowValue
  rw [isZero_eq hm]
  by_cases h0 : m.toInt = 0
  · rw [if_pos (by simpa using h0), if_pos h0]
    rfl
  · rw [if_neg (by simpa using h0), if_neg h0]
    obtain ⟨q, r, b1, b2, b3, b4, b5⟩ := divmod_ok hfl hx hm h0
    rw [b1]
    obtain ⟨b, c1, c2, c3⟩ := modPowLoop_ok hfl hm h0 (e.magnitude + 1) one_ok b3 he (by rw [magnitude_eq]; omega)
    refine ⟨b, c1, c2, ?_⟩
    rw [c3, toInt_ofSmall, b5, tmod_pow, Int.one_mul]

/-! ### Divisors -/

theorem land_even (a b : Nat) : (2 * a) &&& (2 * b) = 2 * (a &&& b) := by
  apply Nat.eq_of_testBit_eq
  intro i
  rw [Nat.testBit_and]
  cases i with
  | zero => simp
  | succ i => simp [Nat.testBit_succ, Nat.mul_div_cancel_left, Nat.testBit_and]

theorem land_odd (a b : Nat) : (2 * a + 1) &&& (2 * b + 1) = 2 * (a &&& b) + 1 := by
  apply Nat.eq_of_testBit_eq
  intro i
  rw [Nat.testBit_and]
  cases i with
  | zero => simp
  | succ i =>
    have : ∀ n, (2 * n + 1) / 2 = n := by intro n; omega
    simp [Nat.testBit_succ, this, Nat.testBit_and]

/-- The lowest bit. -/
theorem low_bit : ∀ (w x : Nat), 0 < x → x < 2 ^ w → ∃ k m, x = 2 ^ k * (2 * m + 1) ∧ x &&& (2 ^ w - x) = 2 ^ k := by
  intro w
  induction w with
  | zero => intro x h1 h2; simp at h2; omega
  | succ w ih =>
    intro x h1 h2
    rw [Nat.pow_succ] at h2
    by_cases he : x % 2 = 0
    · obtain ⟨k, m, h3, h4⟩ := ih (x / 2) (by omega) (by omega)
      refine ⟨k + 1, m, ?_, ?_⟩
      · rw [Nat.pow_succ, Nat.mul_assoc, Nat.mul_left_comm, ← h3]; omega
      · have e1 : x = 2 * (x / 2) := by omega
        have e2 : 2 ^ (w + 1) - x = 2 * (2 ^ w - x / 2) := by rw [Nat.pow_succ]; omega
        rw [e2]
        conv => lhs; lhs; rw [e1]
        rw [land_even, h4, Nat.pow_succ, Nat.mul_comm]
    · refine ⟨0, x / 2, by omega, ?_⟩
      have e1 : x = 2 * (x / 2) + 1 := by omega
      have e2 : 2 ^ (w + 1) - x = 2 * (2 ^ w - (x / 2 + 1)) + 1 := by rw [Nat.pow_succ]; omega
      rw [e2]
      conv => lhs; lhs; rw [e1]
      rw [land_odd]
      have : x / 2 &&& (2 ^ w - (x / 2 + 1)) = 0 := by
        apply Nat.eq_of_testBit_eq
        intro i
        rw [Nat.testBit_and, Nat.testBit_two_pow_sub_succ (by omega), Nat.zero_testBit]
        cases (x / 2).testBit i <;> simp
      rw [this]

theorem dvd_of_bits {n : Nat} : ∀ {k : Nat}, (∀ i, i < k → n.testBit i = false) → 2 ^ k ∣ n := by
  intro k
  induction k generalizing n with
  | zero => intro _; simp
  | succ k ih =>
    intro h
    have h0 := h 0 (by omega)
    rw [Nat.testBit_zero, decide_eq_false_iff_not] at h0
    have h1 : 2 ^ k ∣ n / 2 := ih fun i hi => by have := h (i + 1) (by omega); rwa [Nat.testBit_succ] at this
    rw [Nat.pow_succ, Nat.mul_comm]
    have : n = 2 * (n / 2) := by omega
    rw [this]
    exact Nat.mul_dvd_mul_left 2 h1

theorem bits_of_dvd {n k i : Nat} (h : 2 ^ k ∣ n) (hi : i < k) : n.testBit i = false := by
  obtain ⟨m, rfl⟩ := h
  rw [Nat.testBit_two_pow_mul]
  simp [show ¬ i ≥ k by omega]

/-- The lowest bit of a number, or the bit `c` if that is lower. -/
theorem lob_ok {n : Int} (h0 : 0 ≤ n) {mask : BitVec 32} {c : Nat} (hc : c < 31) (hm : mask.toNat.testBit c = true)
    (hm0 : mask.toNat.testBit 0 = false) :
    ∃ k, ((BitVec.ofInt 32 n ||| mask) &&& -(BitVec.ofInt 32 n ||| mask)).toInt = 2 ^ k ∧ k ≤ c ∧
      (2 : Int) ^ k ∣ n ∧ (n % 2 = 0 → 1 ≤ k) := by
  have hx : (BitVec.ofInt 32 n).toNat = n.toNat % 2 ^ 32 := by
    rw [BitVec.toNat_ofInt]
    omega
  generalize hw : (BitVec.ofInt 32 n ||| mask) = x
  have hwn : x.toNat = n.toNat % 2 ^ 32 ||| mask.toNat := by rw [← hw, BitVec.toNat_or, hx]
  have hbits : ∀ i, x.toNat.testBit i = ((n.toNat % 2 ^ 32).testBit i || mask.toNat.testBit i) := by
    intro i; rw [hwn, Nat.testBit_or]
  have hpos : 0 < x.toNat := by
    rcases Nat.eq_zero_or_pos x.toNat with h | h
    · have := hbits c
      rw [h, hm, Nat.zero_testBit] at this
      simp at this
    · exact h
  obtain ⟨k, m, h1, h2⟩ := low_bit 32 x.toNat hpos x.isLt
  have hdvd : 2 ^ k ∣ x.toNat := ⟨_, h1⟩
  have hk : k ≤ c := by
    rcases Nat.lt_or_ge c k with h | h
    · have := bits_of_dvd hdvd h
      rw [hbits, hm] at this
      simp at this
    · exact h
  have hval : (x &&& -x).toNat = 2 ^ k := by
    rw [BitVec.toNat_and, BitVec.toNat_neg, Nat.mod_eq_of_lt (by omega), h2]
  have hle : 2 ^ k ≤ 2 ^ 30 := Nat.pow_le_pow_right (by decide) (by omega)
  refine ⟨k, ?_, hk, ?_, ?_⟩
  · rw [BitVec.toInt_eq_toNat_of_lt (by rw [hval]; omega), hval]
    simp
  · have : 2 ^ k ∣ n.toNat := dvd_of_bits fun i hi => by
      have h3 := bits_of_dvd hdvd hi
      rw [hbits, Bool.or_eq_false_iff, Nat.testBit_mod_two_pow] at h3
      have h4 := h3.1
      simp only [Bool.and_eq_false_iff, decide_eq_false_iff_not] at h4
      rcases h4 with h4 | h4
      · omega
      · exact h4
    have h5 := Int.natCast_dvd_natCast.mpr this
    rw [Int.toNat_of_nonneg h0] at h5
    simpa using h5
  · intro he
    rcases Nat.eq_zero_or_pos k with h | h
    · subst h
      have h3 : x.toNat.testBit 0 = true := by rw [h1, Nat.testBit_zero]; simp
      rw [hbits, hm0, Nat.testBit_zero] at h3
      simp only [Bool.or_false, decide_eq_true_eq] at h3
      omega
    · exact h

theorem roughLOB_ok {b : Big} (hb : b.Ok) (h0 : 0 ≤ b.toInt) :
    ∃ k, roughLOB b = .ok (2 ^ k) ∧ k ≤ 30 ∧ (2 : Int) ^ k ∣ b.toInt ∧ (b.toInt % 2 = 0 → 1 ≤ k) := by
  have hM : (MAX_INT : Int) = 9007199254740992 := rfl
  cases b with
  | small v s =>
    obtain ⟨k, h1, h2, h3, h4⟩ := lob_ok (n := v) h0 (mask := LOBMASK_I) (c := 30) (by decide) (by decide) (by decide)
    exact ⟨k, by simp only [roughLOB]; rw [h1], h2, h3, h4⟩
  | big a s =>
    obtain ⟨da, ta, ma⟩ := hb
    match a, da, ma with
    | [], _, ma => simp [val] at ma; omega
    | [x], da, ma =>
      have := da x (by simp)
      simp only [val] at ma
      omega
    | v0 :: v1 :: w, da, ma =>
      have d0 := da v0 (by simp)
      have d1 := da v1 (by simp)
      have hs : s = false := by
        cases s with
        | false => rfl
        | true => simp only [Big.toInt, if_true] at h0; omega
      subst hs
      have hB : v1 * BASE = 10000000 * v1 := by rw [Int.mul_comm]
      obtain ⟨k, h1, h2, h3, h4⟩ := lob_ok (n := v0 + v1 * BASE) (by omega) (mask := LOBMASK_BI) (c := 14) (by decide)
        (by decide) (by decide)
      refine ⟨k, ?_, by omega, ?_, ?_⟩
      · simp only [roughLOB]
        rw [num_ok (by omega) (by omega)]
        simp only [bind, Except.bind]
        rw [h1]
      · have e : (Big.big (v0 :: v1 :: w) false).toInt = (v0 + v1 * BASE) + 2 ^ 14 * (6103515625 * val w) := by
          simp only [Big.toInt, val, Bool.false_eq_true, if_false]
          omega
        rw [e]
        refine Int.dvd_add h3 (Int.dvd_mul_of_dvd_left ?_)
        exact ⟨2 ^ (14 - k), by rw [← Int.pow_add]; congr 1; omega⟩
      · intro he
        apply h4
        simp only [Big.toInt, val, Bool.false_eq_true, if_false] at he
        omega

theorem pow_small {k : Nat} (h : k ≤ 30) : (Big.ofSmall (2 ^ k)).Ok ∧ (1 : Int) ≤ 2 ^ k ∧ (1 ≤ k → (2 : Int) ≤ 2 ^ k) := by
  have h1 : 1 ≤ 2 ^ k := Nat.one_le_two_pow
  have h2 : 2 ^ k ≤ 2 ^ 30 := Nat.pow_le_pow_right (by decide) h
  have h3 : ((2 ^ k : Nat) : Int) = 2 ^ k := by simp
  have hM : (MAX_INT : Int) = 9007199254740992 := rfl
  refine ⟨ofSmall_ok (by omega) (by omega), by omega, fun hk => ?_⟩
  have : 2 ^ 1 ≤ 2 ^ k := Nat.pow_le_pow_right (by decide) hk
  omega

/-- Dividing by a power of two that divides. -/
theorem div_pow {fl : Rat → Rat} (hfl : Spec.Rounding fl) {b : Big} (hb : b.Ok) (h0 : 0 < b.toInt) {k : Nat} (hk : k ≤ 30)
    (hd : (2 : Int) ^ k ∣ b.toInt) :
    ∃ q r, b.divmod fl (.ofSmall (2 ^ k)) = .ok (q, r) ∧ q.Ok ∧ b.toInt = 2 ^ k * q.toInt ∧ 0 < q.toInt := by
  obtain ⟨h1, h2, _⟩ := pow_small hk
  obtain ⟨q, r, j1, j2, j3, j4, j5⟩ := divmod_ok hfl hb h1 (by rw [toInt_ofSmall]; omega)
  rw [toInt_ofSmall, Int.tdiv_eq_ediv_of_nonneg (by omega)] at j4
  have e : b.toInt = 2 ^ k * q.toInt := by rw [j4, Int.mul_ediv_cancel' hd]
  refine ⟨q, r, j1, j2, e, ?_⟩
  rcases Int.lt_or_le 0 q.toInt with h | h
  · exact h
  · have : 2 ^ k * q.toInt ≤ 0 := Int.mul_nonpos_of_nonneg_of_nonpos (by omega) h
    omega

theorem half_lt {p q : Int} (hp : 2 ≤ p) (hq : 0 < q) : q < p * q := by
  have : 2 * q ≤ p * q := Int.mul_le_mul_of_nonneg_right hp (by omega)
  omega

theorem makeOdd_ok {fl : Rat → Rat} (hfl : Spec.Rounding fl) (fuel : Nat) : ∀ {b : Big}, b.Ok → 0 < b.toInt →
    b.toInt.natAbs < fuel → ∃ r, makeOdd fl fuel b = .ok r ∧ r.Ok ∧ 0 < r.toInt ∧ r.toInt % 2 = 1 ∧
      ∃ k : Nat, b.toInt = 2 ^ k * r.toInt := by
  induction fuel with
  | zero => intro b _ _ h; omega
  | succ fuel ih =>
    intro b hb h0 hlt
    rw [makeOdd, isEven_eq hb]
    by_cases he : b.toInt % 2 = 0
    · rw [if_pos (by simpa using he)]
      obtain ⟨k, h1, h2, h3, h4⟩ := roughLOB_ok hb (by omega)
      obtain ⟨q, r, j1, j2, j3, j4⟩ := div_pow hfl hb h0 h2 h3
      have := half_lt ((pow_small h2).2.2 (h4 he)) j4
      obtain ⟨o, o1, o2, o3, o4, j, o5⟩ := ih j2 j4 (by omega)
      refine ⟨o, ?_, o2, o3, o4, k + j, ?_⟩
      · rw [h1]
        simp only [bind, Except.bind]
        rw [j1]
        exact o1
      · rw [j3, o5, Int.pow_add, Int.mul_assoc]
    · rw [if_neg (by simpa using he)]
      exact ⟨b, rfl, hb, h0, by omega, 0, by simp⟩

theorem bothEven_ok {fl : Rat → Rat} (hfl : Spec.Rounding fl) (fuel : Nat) : ∀ {a b c : Big}, a.Ok → b.Ok → c.Ok →
    0 < a.toInt → 0 < b.toInt → a.toInt.natAbs < fuel → ∃ a' b' c', bothEven fl fuel a b c = .ok (a', b', c') ∧
      a'.Ok ∧ b'.Ok ∧ c'.Ok ∧ 0 < a'.toInt ∧ 0 < b'.toInt ∧ (a'.toInt % 2 = 1 ∨ b'.toInt % 2 = 1) ∧
      ∃ k : Nat, a.toInt = 2 ^ k * a'.toInt ∧ b.toInt = 2 ^ k * b'.toInt ∧ c'.toInt = c.toInt * 2 ^ k := by
  induction fuel with
  | zero => intro a b c _ _ _ _ _ h; omega
  | succ fuel ih =>
    intro a b c ha hb hc ha0 hb0 hlt
    rw [bothEven, isEven_eq ha, isEven_eq hb]
    by_cases he : a.toInt % 2 = 0 ∧ b.toInt % 2 = 0
    · rw [if_pos (by simpa using he)]
      obtain ⟨ka, h1, h2, h3, h4⟩ := roughLOB_ok ha (by omega)
      obtain ⟨kb, g1, g2, g3, g4⟩ := roughLOB_ok hb (by omega)
      have hmin : min ((2 : Int) ^ ka) (2 ^ kb) = 2 ^ (min ka kb) := by
        have mono : ∀ {i j : Nat}, i ≤ j → (2 : Int) ^ i ≤ 2 ^ j := fun {i j} h => by
          have : 2 ^ i ≤ 2 ^ j := Nat.pow_le_pow_right (by decide) h
          have h1 : ((2 ^ i : Nat) : Int) = 2 ^ i := by simp
          have h2 : ((2 ^ j : Nat) : Int) = 2 ^ j := by simp
          omega
        rcases Nat.le_total ka kb with h | h
        · rw [Nat.min_eq_left h, Int.min_eq_left (mono h)]
        · rw [Nat.min_eq_right h, Int.min_eq_right (mono h)]
      generalize hd : min ka kb = d at hmin
      have hd30 : d ≤ 30 := by omega
      have sub : ∀ {i : Nat}, d ≤ i → (2 : Int) ^ d ∣ 2 ^ i := fun {i} h =>
        ⟨2 ^ (i - d), by rw [← Int.pow_add]; congr 1; omega⟩
      obtain ⟨qa, ra, j1, j2, j3, j4⟩ := div_pow hfl ha ha0 hd30 (Int.dvd_trans (sub (by omega)) h3)
      obtain ⟨qb, rb, l1, l2, l3, l4⟩ := div_pow hfl hb hb0 hd30 (Int.dvd_trans (sub (by omega)) g3)
      obtain ⟨c', m1, m2, m3⟩ := multiply_ok hc (pow_small hd30).1
      have := half_lt ((pow_small hd30).2.2 (by have := h4 he.1; have := g4 he.2; omega)) j4
      obtain ⟨a'', b'', c'', o1, o2, o3, o4, o5, o6, o7, k, o8, o9, o10⟩ := ih j2 l2 m2 j4 l4 (by omega)
      refine ⟨a'', b'', c'', ?_, o2, o3, o4, o5, o6, o7, d + k, ?_, ?_, ?_⟩
      · rw [h1, g1]
        simp only [bind, Except.bind]
        rw [hmin, j1]
        simp only []
        rw [l1]
        simp only []
        rw [m1]
        exact o1
      · rw [j3, o8, Int.pow_add, Int.mul_assoc]
      · rw [l3, o9, Int.pow_add, Int.mul_assoc]
      · rw [o10, m3, toInt_ofSmall, Int.pow_add, Int.mul_assoc]
    · rw [if_neg (by simpa using he)]
      exact ⟨a, b, c, rfl, ha, hb, hc, ha0, hb0, by omega, 0, by simp, by simp, by simp⟩

/-- Powers of two do not matter for the common divisors with an odd number. -/
theorem gcd_odd {a : Int} (h : a % 2 = 1) (k : Nat) (b : Int) : Int.gcd a (2 ^ k * b) = Int.gcd a b := by
  have h2 : Nat.Coprime a.natAbs 2 := by
    rw [Nat.Coprime, Nat.gcd_comm, Nat.gcd_rec]
    have : a.natAbs % 2 = 1 := by omega
    rw [this]
    rfl
  rw [Int.gcd, Int.gcd, Int.natAbs_mul, Int.natAbs_pow]
  exact Nat.Coprime.gcd_mul_left_cancel_right _ (Nat.Coprime.pow_left k (Nat.coprime_comm.mp h2))

theorem gcdLoop_ok {fl : Rat → Rat} (hfl : Spec.Rounding fl) (fuel : Nat) : ∀ {a b : Big}, a.Ok → b.Ok →
    0 < a.toInt → 0 < b.toInt → a.toInt % 2 = 1 → a.toInt.natAbs + b.toInt.natAbs < fuel →
    ∃ r, gcdLoop fl fuel a b = .ok r ∧ r.Ok ∧ r.toInt = Int.gcd a.toInt b.toInt := by
  induction fuel with
  | zero => intro a b _ _ _ _ _ h; omega
  | succ fuel ih =>
    intro a b ha hb ha0 hb0 hodd hlt
    obtain ⟨o, o1, o2, o3, o4, k, o5⟩ := makeOdd_ok hfl (b.magnitude + 1) hb hb0 (by rw [magnitude_eq]; omega)
    have hg : Int.gcd a.toInt b.toInt = Int.gcd a.toInt o.toInt := by rw [o5, gcd_odd hodd]
    have hle : o.toInt ≤ b.toInt := by
      have h1 : (1 : Int) ≤ 2 ^ k := by
        have h1 : 1 ≤ 2 ^ k := Nat.one_le_two_pow
        have h3 : ((2 ^ k : Nat) : Int) = 2 ^ k := by simp
        omega
      have : 1 * o.toInt ≤ 2 ^ k * o.toInt := Int.mul_le_mul_of_nonneg_right h1 (by omega)
      omega
    have fin : ∀ x y : Big, x.Ok → y.Ok → 0 < x.toInt → x.toInt ≤ y.toInt → x.toInt % 2 = 1 → y.toInt % 2 = 1 →
        y.toInt < fuel →
        ∃ r, (do let b ← y.subtract x; if b.isZero then .ok x else gcdLoop fl fuel x b : R Big) = .ok r ∧ r.Ok ∧
          r.toInt = Int.gcd x.toInt y.toInt := by
      intro x y hx hy hx0 hxy hox hoy hf
      obtain ⟨s, s1, s2, s3⟩ := subtract_ok hy hx
      rw [s1]
      simp only [bind, Except.bind]
      rw [isZero_eq s2]
      by_cases hz : s.toInt = 0
      · rw [if_pos (by simpa using hz)]
        refine ⟨x, rfl, hx, ?_⟩
        have : y.toInt = x.toInt := by omega
        rw [this, Int.gcd_self]
        omega
      · rw [if_neg (by simpa using hz)]
        obtain ⟨r, r1, r2, r3⟩ := ih hx s2 hx0 (by omega) hox (by omega)
        exact ⟨r, r1, r2, by rw [r3, s3, Int.gcd_sub_self_right]⟩
    rw [gcdLoop, o1]
    simp only [bind, Except.bind]
    rw [greater_eq ha o2]
    by_cases hgt : o.toInt < a.toInt
    · rw [if_pos (by simpa using hgt)]
      obtain ⟨r, r1, r2, r3⟩ := fin o a o2 ha o3 (by omega) o4 hodd (by omega)
      exact ⟨r, r1, r2, by rw [hg, r3, Int.gcd_comm]⟩
    · rw [if_neg (by simpa using hgt)]
      obtain ⟨r, r1, r2, r3⟩ := fin a o ha o2 ha0 (by omega) hodd o4 (by omega)
      exact ⟨r, r1, r2, by rw [hg, r3]⟩

theorem gcd_ok {fl : Rat → Rat} (hfl : Spec.Rounding fl) {a b : Big} (ha : a.Ok) (hb : b.Ok) :
    ∃ r, gcd fl a b = .ok r ∧ r.Ok ∧ r.toInt = Int.gcd a.toInt b.toInt := by
  obtain ⟨a1, a2⟩ := abs_ok ha
  obtain ⟨b1, b2⟩ := abs_ok hb
  have hg : Int.gcd a.toInt b.toInt = Int.gcd a.abs.toInt b.abs.toInt := by rw [a2, b2]; simp [Int.gcd]
  rw [hg]
  unfold gcd
  generalize ha' : a.abs = x at *
  generalize hb' : b.abs = y at *
  have hx0 : 0 ≤ x.toInt := by omega
  have hy0 : 0 ≤ y.toInt := by omega
  simp only []
  rw [equals_eq a1 b1, isZero_eq a1, isZero_eq b1]
  by_cases h1 : x.toInt = y.toInt
  · rw [if_pos (by simpa using h1)]
    exact ⟨x, rfl, a1, by rw [h1, Int.gcd_self]; omega⟩
  · rw [if_neg (by simpa using h1)]
    by_cases h2 : x.toInt = 0
    · rw [if_pos (by simpa using h2)]
      exact ⟨y, rfl, b1, by rw [h2, Int.zero_gcd]; omega⟩
    · rw [if_neg (by simpa using h2)]
      by_cases h3 : y.toInt = 0
      · rw [if_pos (by simpa using h3)]
        exact ⟨x, rfl, a1, by rw [h3, Int.gcd_zero]; omega⟩
      · rw [if_neg (by simpa using h3)]
        obtain ⟨p, q, c, o1, o2, o3, o4, o5, o6, o7, k, o8, o9, o10⟩ := bothEven_ok hfl (x.magnitude + 1) a1 b1 one_ok
          (by omega) (by omega) (by rw [magnitude_eq]; omega)
        obtain ⟨p', m1, m2, m3, m4, j, m5⟩ := makeOdd_ok hfl (p.magnitude + 1) o2 o5 (by rw [magnitude_eq]; omega)
        obtain ⟨g, g1, g2, g3⟩ := gcdLoop_ok hfl (p'.magnitude + q.magnitude + 1) m2 o3 m3 o6 m4
          (by rw [magnitude_eq, magnitude_eq]; omega)
        have hgpq : Int.gcd p.toInt q.toInt = Int.gcd p'.toInt q.toInt := by
          rcases o7 with h | h
          · have : j = 0 := by
              rcases Nat.eq_zero_or_pos j with hj | hj
              · exact hj
              · have : (2 : Int) ^ j = 2 * 2 ^ (j - 1) := by
                  rw [show j = j - 1 + 1 by omega, Int.pow_succ, Int.mul_comm]; simp
                rw [m5, this, Int.mul_assoc] at h
                omega
            subst this
            rw [m5]
            simp
          · rw [m5, Int.gcd_comm, gcd_odd h, Int.gcd_comm]
        rw [toInt_ofSmall, Int.one_mul] at o10
        have hfin : (Int.gcd x.toInt y.toInt : Int) = 2 ^ k * Int.gcd p'.toInt q.toInt := by
          rw [o8, o9, Int.gcd_mul_left, hgpq]
          simp [Int.natAbs_pow]
        rw [o1]
        simp only [bind, Except.bind]
        rw [m1]
        simp only []
        rw [g1]
        simp only []
        rw [isUnit_eq o4]
        by_cases hu : c.toInt.natAbs = 1
        · rw [if_pos (by simpa using hu)]
          refine ⟨g, rfl, g2, ?_⟩
          have h1 : (1 : Int) ≤ 2 ^ k := by
            have h1 : 1 ≤ 2 ^ k := Nat.one_le_two_pow
            have h3 : ((2 ^ k : Nat) : Int) = 2 ^ k := by simp
            omega
          have : (2 : Int) ^ k = 1 := by omega
          rw [g3, hfin, this, Int.one_mul]
        · rw [if_neg (by simpa using hu)]
          obtain ⟨r, r1, r2, r3⟩ := multiply_ok g2 o4
          exact ⟨r, r1, r2, by rw [r3, g3, hfin, o10, Int.mul_comm]⟩

/-- What `lcm` gives. -/
def lcmValue (a b : Int) : Option Int := if a = 0 ∧ b = 0 then none else some (Int.lcm a b)

theorem lcm_ok {fl : Rat → Rat} (hfl : Spec.Rounding fl) {a b : Big} (ha : a.Ok) (hb : b.Ok) :
    Gives (lcm fl a b) "Cannot divide by zero" (lcmValue a.toInt b.toInt) := by
  obtain ⟨a1, a2⟩ := abs_ok ha
  obtain ⟨b1, b2⟩ := abs_ok hb
  obtain ⟨g, g1, g2, g3⟩ := gcd_ok hfl a1 b1
  rw [a2, b2] at g3
  have hg : Int.gcd a.toInt.natAbs b.toInt.natAbs = Nat.gcd a.toInt.natAbs b.toInt.natAbs := by simp [Int.gcd]
  rw [hg] at g3
  unfold lcm lcmValue
  simp only [bind, Except.bind]
  rw [g1]
  by_cases h : a.toInt = 0 ∧ b.toInt = 0
  · rw [if_pos h]
    simp only []
    rw [divmod_zero fl _ g2 (by rw [g3, h.1, h.2]; rfl)]
    rfl
  · rw [if_neg h]
    have hpos : 0 < Nat.gcd a.toInt.natAbs b.toInt.natAbs := by
      rcases Nat.eq_zero_or_pos (Nat.gcd a.toInt.natAbs b.toInt.natAbs) with h0 | h0
      · rw [Nat.gcd_eq_zero_iff] at h0; omega
      · exact h0
    obtain ⟨q, r, j1, j2, j3, j4, j5⟩ := divmod_ok hfl a1 g2 (by omega)
    obtain ⟨m, m1, m2, m3⟩ := multiply_ok j2 b1
    refine ⟨m, ?_, m2, ?_⟩
    · simp only []
      rw [j1]
      exact m1
    · rw [m3, j4, a2, b2, g3, Int.tdiv_eq_ediv_of_nonneg (by omega), Int.lcm, Nat.lcm]
      rw [← Nat.div_mul_right_comm (Nat.gcd_dvd_left ..)]
      simp

theorem max_ok {a b : Big} (ha : a.Ok) (hb : b.Ok) : (bigMax a b).Ok ∧ (bigMax a b).toInt = max a.toInt b.toInt := by
  unfold bigMax
  rw [greater_eq ha hb]
  by_cases h : b.toInt < a.toInt
  · rw [if_pos (by simpa using h)]; exact ⟨ha, by omega⟩
  · rw [if_neg (by simpa using h)]; exact ⟨hb, by omega⟩

theorem min_ok {a b : Big} (ha : a.Ok) (hb : b.Ok) : (bigMin a b).Ok ∧ (bigMin a b).toInt = min a.toInt b.toInt := by
  unfold bigMin
  rw [lesser_eq ha hb]
  by_cases h : a.toInt < b.toInt
  · rw [if_pos (by simpa using h)]; exact ⟨ha, by omega⟩
  · rw [if_neg (by simpa using h)]; exact ⟨hb, by omega⟩

theorem isDivisibleBy_ok {fl : Rat → Rat} (hfl : Spec.Rounding fl) {x n : Big} (hx : x.Ok) (hn : n.Ok) :
    x.isDivisibleBy fl n = .ok (decide (n.toInt ≠ 0 ∧ n.toInt ∣ x.toInt)) := by
  have general : n.toInt ≠ 0 → (do let (_, r) ← x.divmod fl n; .ok (r.equals (.ofSmall 0)) : R Bool) =
      .ok (decide (n.toInt ≠ 0 ∧ n.toInt ∣ x.toInt)) := by
    intro h0
    obtain ⟨q, r, j1, j2, j3, j4, j5⟩ := divmod_ok hfl hx hn h0
    rw [j1]
    simp only [bind, Except.bind]
    rw [equals_eq j3 zero_ok, toInt_ofSmall, j5]
    congr 1
    apply decide_eq_decide.mpr
    rw [Int.dvd_iff_tmod_eq_zero]
    simp [h0]
  unfold Big.isDivisibleBy
  cases n with
  | big a s => exact general (by have := big_pos hn; cases s <;> simp [Big.toInt] <;> omega)
  | small v s =>
    simp only []
    have e : (Big.small v s).toInt = v := rfl
    rw [e]
    by_cases h0 : v = 0
    · rw [if_pos h0]; simp [h0]
    · rw [if_neg h0]
      by_cases h1 : v = 1
      · rw [if_pos h1]; simp [h1, Int.one_dvd]
      · rw [if_neg h1]
        by_cases h2 : v = 2
        · rw [if_pos h2, isEven_eq hx]
          congr 1
          apply decide_eq_decide.mpr
          subst h2
          omega
        · rw [if_neg h2]
          exact general h0

theorem modInvLoop_ok {fl : Rat → Rat} (hfl : Spec.Rounding fl) (N A : Int) (fuel : Nat) :
    ∀ {t newT r newR : Big}, t.Ok → newT.Ok → r.Ok → newR.Ok → 1 ≤ r.toInt → 0 ≤ newR.toInt →
      newR.toInt.natAbs < fuel → N ∣ t.toInt * A - r.toInt → N ∣ newT.toInt * A - newR.toInt →
      -N ≤ t.toInt → t.toInt ≤ N → Int.gcd r.toInt newR.toInt = Int.gcd N A →
      (t.toInt ≤ 0 ∧ 0 ≤ newT.toInt ∧ r.toInt * newT.toInt - newR.toInt * t.toInt = N ∨
        newT.toInt ≤ 0 ∧ 0 ≤ t.toInt ∧ newR.toInt * t.toInt - r.toInt * newT.toInt = N) →
      ∃ t' r', modInvLoop fl fuel t newT r newR = .ok (t', r') ∧ t'.Ok ∧ r'.Ok ∧ N ∣ t'.toInt * A - r'.toInt ∧
        -N ≤ t'.toInt ∧ t'.toInt ≤ N ∧ r'.toInt = Int.gcd N A := by
  induction fuel with
  | zero => intro t newT r newR _ _ _ _ _ _ h; omega
  | succ fuel ih =>
    intro t newT r newR ht hnt hr hnr hr1 hnr0 hlt d1 d2 bt1 bt2 hg hs
    rw [modInvLoop, equals_eq hnr zero_ok, toInt_ofSmall]
    by_cases hz : newR.toInt = 0
    · rw [if_pos (by simpa using hz)]
      rw [hz, Int.gcd_zero] at hg
      exact ⟨t, r, rfl, ht, hr, d1, bt1, bt2, by omega⟩
    · rw [if_neg (by simpa using hz)]
      obtain ⟨q, m, a1, a2, a3, a4, a5⟩ := divmod_ok hfl hr hnr hz
      rw [Int.tdiv_eq_ediv_of_nonneg (by omega)] at a4
      obtain ⟨p1, b1, b2, b3⟩ := multiply_ok a2 hnt
      obtain ⟨nt, c1, c2, c3⟩ := subtract_ok ht b2
      obtain ⟨p2, e1, e2, e3⟩ := multiply_ok a2 hnr
      obtain ⟨nr, f1, f2, f3⟩ := subtract_ok hr e2
      have hq0 : 0 ≤ q.toInt := by rw [a4]; exact Int.ediv_nonneg (by omega) (by omega)
      have hnr' : nr.toInt = r.toInt % newR.toInt := by
        rw [f3, e3, a4, Int.emod_def, Int.mul_comm]
      have hm0 := Int.emod_nonneg r.toInt hz
      have hm1 := Int.emod_lt_of_pos r.toInt (b := newR.toInt) (by omega)
      rw [b3] at c3
      rw [e3] at f3
      have hprod : newR.toInt * nt.toInt - nr.toInt * newT.toInt =
          newR.toInt * t.toInt - r.toInt * newT.toInt := by
        rw [c3, f3]
        grind
      have hnt' : (newT.toInt ≤ 0 ∧ 0 ≤ nt.toInt ∧ newR.toInt * nt.toInt - nr.toInt * newT.toInt = N ∨
          nt.toInt ≤ 0 ∧ 0 ≤ newT.toInt ∧ nr.toInt * newT.toInt - newR.toInt * nt.toInt = N) ∧
          -N ≤ newT.toInt ∧ newT.toInt ≤ N := by
        rcases hs with ⟨h1, h2, h3⟩ | ⟨h1, h2, h3⟩
        · have k1 : 0 ≤ q.toInt * newT.toInt := Int.mul_nonneg hq0 h2
          have k2 : 1 * newT.toInt ≤ r.toInt * newT.toInt := Int.mul_le_mul_of_nonneg_right hr1 h2
          have k3 : newR.toInt * t.toInt ≤ 0 := Int.mul_nonpos_of_nonneg_of_nonpos hnr0 h1
          exact ⟨.inr ⟨by omega, h2, by omega⟩, by omega, by omega⟩
        · have k1 : q.toInt * newT.toInt ≤ 0 := Int.mul_nonpos_of_nonneg_of_nonpos hq0 h1
          have k2 : r.toInt * newT.toInt ≤ 1 * newT.toInt := Int.mul_le_mul_of_nonpos_right hr1 h1
          have k3 : 0 ≤ newR.toInt * t.toInt := Int.mul_nonneg hnr0 h2
          exact ⟨.inl ⟨h1, by omega, by omega⟩, by omega, by omega⟩
      obtain ⟨t', r', g1, g2⟩ := ih hnt c2 hnr f2 (by omega) (by omega) (by omega) d2 (by
          have : nt.toInt * A - nr.toInt =
              (t.toInt * A - r.toInt) - q.toInt * (newT.toInt * A - newR.toInt) := by
            rw [c3, f3]; grind
          rw [this]
          exact Int.dvd_sub d1 (Int.dvd_mul_of_dvd_right d2)) hnt'.2.1 hnt'.2.2 (by
          rw [f3, Int.gcd_sub_mul_right_right, Int.gcd_comm, hg]) hnt'.1
      refine ⟨t', r', ?_, g2⟩
      rw [a1]
      simp only [bind, Except.bind]
      rw [b1]
      simp only []
      rw [c1]
      simp only []
      rw [e1]
      simp only []
      rw [f1]
      exact g1

theorem modInv_ok {fl : Rat → Rat} (hfl : Spec.Rounding fl) {x n : Big} (hx : x.Ok) (hn : n.Ok) (hp : 0 < n.toInt) :
    if Int.gcd x.toInt n.toInt = 1 then ∃ r, x.modInv fl n = .ok r ∧ r.Ok ∧ n.toInt ∣ r.toInt * x.toInt - 1 ∧
      (0 ≤ x.toInt → 0 ≤ r.toInt ∧ r.toInt ≤ n.toInt) ∧ (x.toInt < 0 → -n.toInt ≤ r.toInt ∧ r.toInt ≤ 0)
    else x.modInv fl n = .error (.expect "are not co-prime") := by
  obtain ⟨a1, a2⟩ := abs_ok hx
  obtain ⟨t, r, b1, b2, b3, b4, b5, b6, b7⟩ := modInvLoop_ok hfl n.toInt x.abs.toInt
    (n.magnitude + x.abs.magnitude + 2) zero_ok one_ok hn a1 (by omega) (by omega) (by
      rw [magnitude_eq, magnitude_eq]; omega) (by
      rw [toInt_ofSmall, Int.zero_mul, Int.zero_sub]; exact Int.dvd_neg.mpr (Int.dvd_refl _)) (by
      rw [toInt_ofSmall, Int.one_mul, Int.sub_self]; exact Int.dvd_zero _) (by rw [toInt_ofSmall]; omega) (by
      rw [toInt_ofSmall]; omega) rfl (.inl ⟨by decide, by decide, by
        rw [toInt_ofSmall, toInt_ofSmall, Int.mul_one, Int.mul_zero, Int.sub_zero]⟩)
  have hgcd : Int.gcd n.toInt x.abs.toInt = Int.gcd x.toInt n.toInt := by rw [a2, Int.gcd_comm]; simp [Int.gcd]
  rw [hgcd] at b7
  unfold Big.modInv
  simp only [bind, Except.bind]
  rw [b1]
  simp only []
  rw [equals_eq b3 one_ok, toInt_ofSmall, compare_ok b2 zero_ok, toInt_ofSmall, isNegative_eq hx]
  by_cases hg : Int.gcd x.toInt n.toInt = 1
  · rw [if_pos hg, if_neg (by simp; omega)]
    have fin : ∀ u : Big, u.Ok → n.toInt ∣ u.toInt * x.abs.toInt - 1 → 0 ≤ u.toInt → u.toInt ≤ n.toInt →
        ∃ r, (if decide (x.toInt < 0) = true then .ok u.negate else .ok u : R Big) = .ok r ∧ r.Ok ∧
          n.toInt ∣ r.toInt * x.toInt - 1 ∧ (0 ≤ x.toInt → 0 ≤ r.toInt ∧ r.toInt ≤ n.toInt) ∧
          (x.toInt < 0 → -n.toInt ≤ r.toInt ∧ r.toInt ≤ 0) := by
      intro u hu hd h0 h1
      by_cases hneg : x.toInt < 0
      · rw [if_pos (by simpa using hneg)]
        obtain ⟨c1, c2⟩ := negate_ok hu
        refine ⟨_, rfl, c1, ?_, by omega, by omega⟩
        rw [c2, Int.neg_mul, ← Int.mul_neg, show -x.toInt = x.abs.toInt by omega]
        exact hd
      · rw [if_neg (by simpa using hneg)]
        refine ⟨u, rfl, hu, ?_, by omega, by omega⟩
        rw [show x.toInt = x.abs.toInt by omega]
        exact hd
    rw [b7, hg] at b4
    by_cases ht : t.toInt < 0
    · have hc : cmp t.toInt 0 = -1 := by unfold cmp; rw [if_pos ht]
      rw [if_pos hc]
      obtain ⟨u, c1, c2, c3⟩ := add_ok b2 hn
      rw [c1]
      refine fin u c2 ?_ (by omega) (by omega)
      rw [c3, show (t.toInt + n.toInt) * x.abs.toInt - 1 = (t.toInt * x.abs.toInt - (1 : Nat)) + n.toInt * x.abs.toInt by
        rw [Int.add_mul]; omega]
      exact Int.dvd_add b4 (Int.dvd_mul_right _ _)
    · have hc : ¬ cmp t.toInt 0 = -1 := by unfold cmp; rw [if_neg ht]; split <;> decide
      rw [if_neg hc]
      exact fin t b2 b4 (by omega) (by omega)
  · rw [if_neg hg, if_pos (by simp; omega)]

end Verif.BigJs
