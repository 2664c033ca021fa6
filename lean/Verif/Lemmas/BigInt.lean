import Verif.Model.BigInt
/-! Digit arrays of the big integers: values, addition, subtraction, comparison. -/
namespace Verif.BigJs

/-- The number an array of digits stands for. -/
def val : Arr → Int
  | [] => 0
  | x :: a => x + 10000000 * val a

/-- All elements are digits. -/
def Digits (a : Arr) : Prop := ∀ x ∈ a, 0 ≤ x ∧ x < 10000000

/-- There is no leading zero. -/
def Trimmed (a : Arr) : Prop := a.getLast? ≠ some 0

instance (a : Arr) : Decidable (Digits a) := inferInstanceAs (Decidable (∀ x ∈ a, _))

instance (a : Arr) : Decidable (Trimmed a) := inferInstanceAs (Decidable (_ ≠ _))

theorem digits_nil : Digits [] := by intro x hx; simp at hx

theorem digits_cons {x : Int} {a : Arr} : Digits (x :: a) ↔ (0 ≤ x ∧ x < 10000000) ∧ Digits a := by
  simp [Digits]

theorem digits_append {a b : Arr} : Digits (a ++ b) ↔ Digits a ∧ Digits b := by
  simp only [Digits, List.mem_append]
  exact ⟨fun h => ⟨fun x hx => h x (.inl hx), fun x hx => h x (.inr hx)⟩,
    fun h x hx => hx.elim (h.1 x) (h.2 x)⟩

theorem digits_reverse {a : Arr} : Digits a.reverse ↔ Digits a := by simp [Digits]

theorem digits_zeros (n : Nat) : Digits (List.replicate n 0) := by
  intro x hx
  rw [List.eq_of_mem_replicate hx]
  decide

theorem trimmed_nil : Trimmed [] := by simp [Trimmed]

theorem trimmed_cons_cons {x y : Int} {a : Arr} : Trimmed (x :: y :: a) ↔ Trimmed (y :: a) := by
  simp [Trimmed, List.getLast?_cons_cons]

theorem trimmed_single {x : Int} : Trimmed [x] ↔ x ≠ 0 := by simp [Trimmed]

theorem val_nonneg {a : Arr} (h : Digits a) : 0 ≤ val a := by
  induction a with
  | nil => simp [val]
  | cons x a ih =>
    rw [digits_cons] at h
    have := ih h.2
    simp only [val]
    omega

theorem val_lt {a : Arr} (h : Digits a) : val a < 10000000 ^ a.length := by
  induction a with
  | nil => simp [val]
  | cons x a ih =>
    rw [digits_cons] at h
    have := ih h.2
    simp only [val, List.length_cons, Int.pow_succ]
    omega

theorem pow_le_val {a : Arr} (h : Digits a) (ht : Trimmed a) (hne : a ≠ []) :
    10000000 ^ a.length ≤ 10000000 * val a := by
  induction a with
  | nil => exact absurd rfl hne
  | cons x a ih =>
    rw [digits_cons] at h
    cases a with
    | nil =>
      rw [trimmed_single] at ht
      simp only [val, List.length_cons, List.length_nil]
      omega
    | cons y a =>
      have := ih h.2 (trimmed_cons_cons.mp ht) (by simp)
      rw [val, List.length_cons, Int.pow_succ]
      omega

theorem pow_pos' (n : Nat) : (0 : Int) < 10000000 ^ n := Int.pow_pos (by decide)

theorem pow_mono {m n : Nat} (h : m ≤ n) : (10000000 : Int) ^ m ≤ 10000000 ^ n := by
  induction n with
  | zero => rw [Nat.le_zero.mp h]; exact Int.le_refl _
  | succ n ih =>
    rcases Nat.lt_or_ge n m with h1 | h1
    · rw [show m = n + 1 by omega]; exact Int.le_refl _
    · have := ih h1
      have := pow_pos' n
      rw [Int.pow_succ]
      omega

/-- A trimmed array is not longer than another array of digits with a greater value. -/
theorem length_le {a b : Arr} (ha : Digits a) (hb : Digits b) (ht : Trimmed b) (h : val b ≤ val a) :
    b.length ≤ a.length := by
  rcases Nat.lt_or_ge a.length b.length with h1 | h1
  · exfalso
    have hne : b ≠ [] := by rintro rfl; simp at h1
    have h2 := pow_le_val hb ht hne
    have h3 := val_lt ha
    have h4 := pow_mono (show a.length + 1 ≤ b.length from h1)
    rw [Int.pow_succ] at h4
    omega
  · exact h1

theorem val_append (a b : Arr) : val (a ++ b) = val a + 10000000 ^ a.length * val b := by
  induction a with
  | nil => simp [val]
  | cons x a ih =>
    simp only [List.cons_append, val, ih, List.length_cons, Int.pow_succ]
    grind

theorem val_zeros (n : Nat) : val (List.replicate n 0) = 0 := by
  induction n with
  | zero => rfl
  | succ n ih => simp [List.replicate_succ, val, ih]

/-! ### trim -/

theorem trim_cons (x : Int) (a : Arr) :
    trim (x :: a) = if trim a = [] then (if x = 0 then [] else [x]) else x :: trim a := by
  rw [trim]
  cases trim a <;> simp

theorem val_trim (a : Arr) : val (trim a) = val a := by
  induction a with
  | nil => rfl
  | cons x a ih =>
    rw [trim_cons]
    split
    · rename_i h
      rw [h] at ih
      simp only [val] at ih
      split
      · rename_i h1; simp only [val, h1, ← ih]; rfl
      · simp only [val, ← ih]
    · rw [val, val, ih]

theorem digits_trim {a : Arr} (h : Digits a) : Digits (trim a) := by
  induction a with
  | nil => exact h
  | cons x a ih =>
    rw [digits_cons] at h
    rw [trim_cons]
    split
    · split
      · exact digits_nil
      · exact digits_cons.mpr ⟨h.1, digits_nil⟩
    · exact digits_cons.mpr ⟨h.1, ih h.2⟩

theorem trimmed_trim (a : Arr) : Trimmed (trim a) := by
  induction a with
  | nil => exact trimmed_nil
  | cons x a ih =>
    rw [trim_cons]
    split
    · split
      · exact trimmed_nil
      · rename_i h; exact trimmed_single.mpr h
    · rename_i h
      cases ht : trim a with
      | nil => exact absurd ht h
      | cons y b => rw [trimmed_cons_cons, ← ht]; exact ih

/-! ### Comparison -/

/-- The sign of the difference. -/
def cmp (x y : Int) : Int := if x < y then -1 else if x = y then 0 else 1

theorem compareTop_eq {a b : Arr} (hl : a.length = b.length) (ha : Digits a) (hb : Digits b) :
    compareTop a b = cmp (val a.reverse) (val b.reverse) := by
  induction a generalizing b with
  | nil =>
    cases b with
    | nil => rfl
    | cons y b => simp at hl
  | cons x a ih =>
    cases b with
    | nil => simp at hl
    | cons y b =>
      simp only [List.length_cons, Nat.add_right_cancel_iff] at hl
      rw [digits_cons] at ha hb
      have h1 := val_lt (digits_reverse.mpr ha.2)
      have h2 := val_lt (digits_reverse.mpr hb.2)
      have h3 := val_nonneg (digits_reverse.mpr ha.2)
      have h4 := val_nonneg (digits_reverse.mpr hb.2)
      simp only [List.length_reverse] at h1 h2
      rw [← hl] at h2
      have hp := pow_pos' a.length
      simp only [compareTop, List.reverse_cons, val_append, val, List.length_reverse, ← hl, Int.mul_zero,
        Int.add_zero]
      rw [ih hl ha.2 hb.2]
      generalize (10000000 : Int) ^ a.length = P at *
      by_cases hxy : x = y
      · subst hxy
        rw [if_neg (by simp)]
        unfold cmp
        split <;> split <;> (try split) <;> (try split) <;> omega
      · rw [if_pos hxy]
        unfold cmp
        rcases Int.lt_or_gt_of_ne hxy with h | h
        · have : P * x + P ≤ P * y := by
            have := Int.mul_le_mul_of_nonneg_left (show x + 1 ≤ y by omega) (Int.le_of_lt hp)
            rwa [Int.mul_add, Int.mul_one] at this
          rw [if_neg (by omega), if_pos (by omega)]
        · have : P * y + P ≤ P * x := by
            have := Int.mul_le_mul_of_nonneg_left (show y + 1 ≤ x by omega) (Int.le_of_lt hp)
            rwa [Int.mul_add, Int.mul_one] at this
          rw [if_pos (by omega), if_neg (by omega), if_neg (by omega)]

theorem compareAbs_eq {a b : Arr} (ha : Digits a) (hb : Digits b) (ta : Trimmed a) (tb : Trimmed b) :
    compareAbs a b = cmp (val a) (val b) := by
  unfold compareAbs
  by_cases hl : a.length = b.length
  · rw [if_neg (by simpa using hl), compareTop_eq (by simpa using hl) (digits_reverse.mpr ha)
      (digits_reverse.mpr hb), List.reverse_reverse, List.reverse_reverse]
  · rw [if_pos hl]
    unfold cmp
    rcases Nat.lt_or_gt_of_ne hl with h | h
    · have : val a < val b := by
        rcases Int.lt_or_le (val a) (val b) with h1 | h1
        · exact h1
        · exact absurd (length_le ha hb tb h1) (by omega)
      rw [if_neg (by omega), if_pos this]
    · have : val b < val a := by
        rcases Int.lt_or_le (val b) (val a) with h1 | h1
        · exact h1
        · exact absurd (length_le hb ha ta h1) (by omega)
      rw [if_pos h, if_neg (by omega), if_neg (by omega)]

theorem arrayToSmall_eq {a : Arr} (ha : Digits a) :
    arrayToSmall a = if val a < MAX_INT then .n (val a) else .arr (trim a) := by
  have hd := digits_trim ha
  have ht := trimmed_trim a
  have hv := val_trim a
  have hM : val MAX_INT_ARR = MAX_INT := by decide
  have hMd : Digits MAX_INT_ARR := by decide
  have hMt : Trimmed MAX_INT_ARR := by decide
  have hc := compareAbs_eq hd hMd ht hMt
  rw [hM, hv] at hc
  unfold arrayToSmall
  simp only
  by_cases h : val a < MAX_INT
  · have hlen : (trim a).length < 4 := by
      have := length_le (a := MAX_INT_ARR) hMd hd ht (by rw [hv, hM]; omega)
      have : MAX_INT_ARR.length = 3 := by decide
      omega
    rw [if_pos h, if_pos ⟨hlen, by rw [hc]; unfold cmp; rw [if_pos h]; decide⟩]
    generalize trim a = t at *
    rw [← hv]
    match t, hlen with
    | [], _ => rfl
    | [x], _ => simp [val]
    | [x, y], _ => simp only [val, BASE, NumOrArr.n.injEq]; omega
    | [x, y, z], _ => simp only [val, BASE, NumOrArr.n.injEq]; omega
    | _ :: _ :: _ :: _ :: _, h => simp only [List.length_cons] at h; omega
  · rw [if_neg h, if_neg]
    rintro ⟨_, h2⟩
    rw [hc] at h2
    unfold cmp at h2
    rw [if_neg h] at h2
    split at h2 <;> omega

/-! ### Addition -/

theorem addLoop_eq {a b : Arr} {carry : Int} (ha : Digits a) (hb : Digits b) (hl : b.length ≤ a.length)
    (hc : carry = 0 ∨ carry = 1) : ∃ r, addLoop a b carry = .ok r ∧ val r = val a + val b + carry ∧
      Digits r ∧ (a ≠ [] → r ≠ []) ∧ (a ≠ [] → Trimmed a → Trimmed r) := by
  induction a generalizing b carry with
  | nil =>
    cases b with
    | cons y b => simp at hl
    | nil =>
      rcases hc with rfl | rfl
      · exact ⟨[], rfl, rfl, digits_nil, fun h => absurd rfl h, fun h => absurd rfl h⟩
      · exact ⟨[1], rfl, rfl, by decide, fun h => absurd rfl h, fun h => absurd rfl h⟩
  | cons x a ih =>
    rw [digits_cons] at ha
    have key : ∀ (b' : Arr) (s c : Int), Digits b' → b'.length ≤ a.length → (c = 0 ∨ c = 1) →
        0 ≤ s - c * 10000000 → s - c * 10000000 < 10000000 → x ≤ s →
        ∃ r, (do
          let r ← addLoop a b' c
          Except.ok ((s - c * BASE) :: r) : R Arr) = .ok r ∧
          val r = s + 10000000 * (val a + val b') ∧ Digits r ∧ (x :: a ≠ [] → r ≠ []) ∧
          (x :: a ≠ [] → Trimmed (x :: a) → Trimmed r) := by
      intro b' s c hb' hl' hc' h0 h1 hx
      obtain ⟨r, hr, hv, hd, hne, ht⟩ := ih ha.2 hb' hl' hc'
      refine ⟨(s - c * 10000000) :: r, by rw [hr]; rfl, ?_, digits_cons.mpr ⟨⟨h0, h1⟩, hd⟩, by simp, ?_⟩
      · rw [val, hv]; omega
      · intro _ ht'
        cases a with
        | nil =>
          rw [trimmed_single] at ht'
          cases r with
          | nil =>
            rw [trimmed_single]
            have hb0 : b' = [] := List.eq_nil_of_length_eq_zero (by simpa using hl')
            subst hb0
            simp only [val] at hv
            omega
          | cons z r =>
            rw [trimmed_cons_cons]
            have hb0 : b' = [] := List.eq_nil_of_length_eq_zero (by simpa using hl')
            subst hb0
            simp only [addLoop, Except.ok.injEq] at hr
            split at hr
            · simp only [List.cons.injEq] at hr
              rw [← hr.2, ← hr.1, trimmed_single]
              omega
            · cases hr
        | cons z a =>
          have := ht (by simp) (trimmed_cons_cons.mp ht')
          cases r with
          | nil => exact absurd rfl (hne (by simp))
          | cons w r => exact trimmed_cons_cons.mpr this
    cases b with
    | cons y b =>
      rw [digits_cons] at hb
      simp only [List.length_cons, Nat.add_le_add_iff_right] at hl
      rw [addLoop]
      simp only [BASE]
      by_cases hs : x + y + carry ≥ 10000000
      · simp only [if_pos hs]
        obtain ⟨r, h1, h2, h3, h4, h5⟩ := key b (x + y + carry) 1 hb.2 hl (.inr rfl) (by omega) (by omega)
          (by omega)
        exact ⟨r, h1, by simp only [h2, val]; omega, h3, h4, h5⟩
      · simp only [if_neg hs]
        obtain ⟨r, h1, h2, h3, h4, h5⟩ := key b (x + y + carry) 0 hb.2 hl (.inl rfl) (by omega) (by omega)
          (by omega)
        exact ⟨r, h1, by simp only [h2, val]; omega, h3, h4, h5⟩
    | nil =>
      rw [addLoop]
      simp only [BASE]
      by_cases hs : x + carry = 10000000
      · simp only [if_pos hs]
        obtain ⟨r, h1, h2, h3, h4, h5⟩ := key [] (x + carry) 1 digits_nil (by simp) (.inr rfl) (by omega)
          (by omega) (by omega)
        exact ⟨r, h1, by simp only [h2, val]; omega, h3, h4, h5⟩
      · simp only [if_neg hs]
        obtain ⟨r, h1, h2, h3, h4, h5⟩ := key [] (x + carry) 0 digits_nil (by simp) (.inl rfl) (by omega)
          (by omega) (by omega)
        exact ⟨r, h1, by simp only [h2, val]; omega, h3, h4, h5⟩

theorem addAny_eq {a b : Arr} (ha : Digits a) (hb : Digits b) : ∃ r, addAny a b = .ok r ∧
    val r = val a + val b ∧ Digits r ∧ (Trimmed a → Trimmed b → Trimmed r) := by
  unfold addAny
  split
  · rename_i h
    obtain ⟨r, h1, h2, h3, _, h5⟩ := addLoop_eq ha hb h (.inl rfl)
    refine ⟨r, h1, by omega, h3, fun ta tb => ?_⟩
    cases a with
    | nil =>
      have : b = [] := List.eq_nil_of_length_eq_zero (by simpa using h)
      subst this
      simp only [addLoop, Except.ok.injEq] at h1
      rw [← h1]
      decide
    | cons x a => exact h5 (by simp) ta
  · rename_i h
    obtain ⟨r, h1, h2, h3, _, h5⟩ := addLoop_eq hb ha (by omega) (.inl rfl)
    refine ⟨r, h1, by omega, h3, fun ta tb => ?_⟩
    cases b with
    | nil => simp at h
    | cons x a => exact h5 (by simp) tb

theorem carryOut_eq (fuel : Nat) {carry : Int} (h0 : 0 ≤ carry) (hlt : carry < 10000000 ^ fuel) :
    ∃ r, carryOut fuel carry = .ok r ∧ val r = carry ∧ Digits r ∧ Trimmed r := by
  induction fuel generalizing carry with
  | zero =>
    have : carry = 0 := by simp at hlt; omega
    subst this
    exact ⟨[], rfl, rfl, digits_nil, trimmed_nil⟩
  | succ fuel ih =>
    rw [Int.pow_succ] at hlt
    rw [carryOut]
    split
    · simp only [BASE]
      obtain ⟨r, hr, hv, hd, ht⟩ := ih (carry := carry / 10000000) (by omega) (by omega)
      refine ⟨carry % 10000000 :: r, by rw [hr]; rfl, by rw [val, hv]; omega,
        digits_cons.mpr ⟨by omega, hd⟩, ?_⟩
      cases r with
      | nil => rw [trimmed_single]; simp only [val] at hv; omega
      | cons z r => exact trimmed_cons_cons.mpr ht
    · exact ⟨[], rfl, by simp only [val]; omega, digits_nil, trimmed_nil⟩

theorem addSmall_eq {a : Arr} {carry : Int} (ha : Digits a) (h0 : 0 ≤ carry)
    (hlt : carry < 10000000 ^ 3) : ∃ r, addSmall a carry = .ok r ∧ val r = val a + carry ∧ Digits r ∧
      (Trimmed a → Trimmed r) := by
  induction a generalizing carry with
  | nil =>
    obtain ⟨r, hr, hv, hd, ht⟩ := carryOut_eq 3 h0 hlt
    exact ⟨r, by rw [addSmall]; exact hr, by rw [hv]; simp [val], hd, fun _ => ht⟩
  | cons x a ih =>
    rw [digits_cons] at ha
    rw [addSmall]
    simp only [BASE]
    have hlt' : carry < 1000000000000000000000 := hlt
    obtain ⟨r, hr, hv, hd, ht⟩ := ih (carry := (x - 10000000 + carry) / 10000000 + 1) ha.2 (by omega)
      (show _ < (1000000000000000000000 : Int) by omega)
    refine ⟨(x - 10000000 + carry - (x - 10000000 + carry) / 10000000 * 10000000) :: r, by rw [hr]; rfl,
      by rw [val, hv, val]; omega, digits_cons.mpr ⟨by omega, hd⟩, fun ht' => ?_⟩
    cases r with
    | nil =>
      rw [trimmed_single]
      have h1 := val_nonneg ha.2
      simp only [val] at hv
      cases a with
      | nil => rw [trimmed_single] at ht'; simp only [val] at hv; omega
      | cons y a =>
        exfalso
        have := pow_le_val ha.2 (trimmed_cons_cons.mp ht') (by simp)
        have := pow_pos' (y :: a).length
        omega
    | cons z r =>
      cases a with
      | nil => exact trimmed_cons_cons.mpr (ht trimmed_nil)
      | cons y a => exact trimmed_cons_cons.mpr (ht (trimmed_cons_cons.mp ht'))

/-! ### Subtraction -/

theorem borrowLoop_eq {a : Arr} {borrow : Int} (ha : Digits a) (hb : borrow = 0 ∨ borrow = 1)
    (hle : borrow ≤ val a) : val (borrowLoop a borrow) = val a - borrow ∧ Digits (borrowLoop a borrow) := by
  induction a with
  | nil =>
    simp only [val] at hle
    exact ⟨by simp only [borrowLoop, val]; omega, digits_nil⟩
  | cons x a ih =>
    rw [digits_cons] at ha
    have := val_nonneg ha.2
    simp only [val] at hle
    rw [borrowLoop]
    simp only [BASE]
    split
    · obtain ⟨h1, h2⟩ := ih ha.2 (by omega)
      exact ⟨by rw [val, h1, val]; omega, digits_cons.mpr ⟨by omega, h2⟩⟩
    · exact ⟨by rw [val, val]; omega, digits_cons.mpr ⟨by omega, ha.2⟩⟩

theorem subLoop_eq {a b : Arr} {borrow : Int} (ha : Digits a) (hb : Digits b)
    (hc : borrow = 0 ∨ borrow = 1) (hl : b.length ≤ a.length) (hle : val b + borrow ≤ val a) :
    ∃ r, subLoop a b borrow = .ok r ∧ val r = val a - val b - borrow ∧ Digits r := by
  induction a generalizing b borrow with
  | nil =>
    cases b with
    | cons y b => simp at hl
    | nil =>
      obtain ⟨h1, h2⟩ := borrowLoop_eq (a := []) ha hc (by simpa [val] using hle)
      exact ⟨_, rfl, by rw [h1]; simp [val], h2⟩
  | cons x a ih =>
    cases b with
    | nil =>
      obtain ⟨h1, h2⟩ := borrowLoop_eq ha hc (by simpa [val] using hle)
      exact ⟨_, rfl, by rw [h1]; simp [val], h2⟩
    | cons y b =>
      rw [digits_cons] at ha hb
      simp only [List.length_cons, Nat.add_le_add_iff_right] at hl
      simp only [val] at hle
      rw [subLoop]
      simp only [BASE]
      by_cases hd : x - borrow - y < 0
      · simp only [if_pos hd]
        obtain ⟨r, hr, hv, hdr⟩ := ih (borrow := 1) ha.2 hb.2 (.inr rfl) hl (by omega)
        exact ⟨(x - borrow - y + 10000000) :: r, by rw [hr]; rfl, by simp only [val, hv]; omega,
          digits_cons.mpr ⟨by omega, hdr⟩⟩
      · simp only [if_neg hd]
        obtain ⟨r, hr, hv, hdr⟩ := ih (borrow := 0) ha.2 hb.2 (.inl rfl) hl (by omega)
        exact ⟨(x - borrow - y) :: r, by rw [hr]; rfl, by simp only [val, hv]; omega,
          digits_cons.mpr ⟨by omega, hdr⟩⟩

theorem subtract_eq {a b : Arr} (ha : Digits a) (hb : Digits b) (tb : Trimmed b) (hle : val b ≤ val a) :
    ∃ r, subtract a b = .ok r ∧ val r = val a - val b ∧ Digits r ∧ Trimmed r := by
  obtain ⟨r, hr, hv, hd⟩ := subLoop_eq ha hb (.inl rfl) (length_le ha hb tb hle) (by omega)
  refine ⟨trim r, by rw [subtract, hr]; rfl, by rw [val_trim, hv]; omega, digits_trim hd, trimmed_trim r⟩

theorem tmod_adjusted (d : Int) :
    (if d.tmod 10000000 < 0 then d.tmod 10000000 + 10000000 else d.tmod 10000000) = d % 10000000 := by
  rw [Int.tmod_eq_emod]
  have h2 : ((10000000 : Int) ∣ d) ↔ d % 10000000 = 0 := Int.dvd_iff_emod_eq_zero
  split
  · rename_i h
    split <;> omega
  · rename_i h
    have : (((10000000 : Int).natAbs : Nat) : Int) = 10000000 := rfl
    split <;> omega

theorem subSmallLoop_eq {a : Arr} {carry : Int} (ha : Digits a) (h0 : carry ≤ 0) (hle : -val a ≤ carry) :
    val (subSmallLoop a carry) = val a + carry ∧ Digits (subSmallLoop a carry) := by
  induction a generalizing carry with
  | nil => simp only [val] at hle; exact ⟨by simp only [subSmallLoop, val]; omega, digits_nil⟩
  | cons x a ih =>
    rw [digits_cons] at ha
    simp only [val] at hle
    rw [subSmallLoop]
    simp only [BASE, tmod_adjusted]
    obtain ⟨h1, h2⟩ := ih (carry := (x + carry) / 10000000) ha.2 (by omega) (by omega)
    exact ⟨by rw [val, h1, val]; omega, digits_cons.mpr ⟨by omega, h2⟩⟩

/-! ### Big integers -/

/-- The integer an object stands for. -/
def Big.toInt : Big → Int
  | .small v _ => v
  | .big a sign => if sign then -val a else val a

/-- The form the objects always have. A zero may have either sign. -/
def Big.Ok : Big → Prop
  | .small v sign => -MAX_INT < v ∧ v < MAX_INT ∧ (v < 0 → sign = true) ∧ (0 < v → sign = false)
  | .big a _ => Digits a ∧ Trimmed a ∧ MAX_INT ≤ val a

theorem ofSmall_ok {v : Int} (h1 : -MAX_INT < v) (h2 : v < MAX_INT) : (Big.ofSmall v).Ok :=
  ⟨h1, h2, fun h => by simp [h], fun h => by simp; omega⟩

theorem toInt_ofSmall (v : Int) : (Big.ofSmall v).toInt = v := rfl

theorem negate_ok {b : Big} (h : b.Ok) : b.negate.Ok ∧ b.negate.toInt = -b.toInt := by
  cases b with
  | small v s =>
    obtain ⟨h1, h2, h3, h4⟩ := h
    refine ⟨⟨by omega, by omega, fun h => ?_, fun h => ?_⟩, rfl⟩
    · rw [h4 (by omega)]; rfl
    · rw [h3 (by omega)]; rfl
  | big a s => exact ⟨h, by cases s <;> simp [Big.negate, Big.toInt]⟩

theorem negate_sign (b : Big) : b.negate.sign = !b.sign := by cases b <;> rfl

theorem abs_ok {b : Big} (h : b.Ok) : b.abs.Ok ∧ b.abs.toInt = b.toInt.natAbs := by
  cases b with
  | small v s =>
    obtain ⟨h1, h2, _, _⟩ := h
    exact ⟨ofSmall_ok (by omega) (by omega), rfl⟩
  | big a s =>
    refine ⟨h, ?_⟩
    have := val_nonneg h.1
    cases s <;> simp only [Big.abs, Big.toInt] <;> simp <;> omega

theorem ofNumOrArr {a : Arr} (ha : Digits a) (sign : Bool) :
    ∃ b : Big, (match arrayToSmall a with
      | .n x => Big.ofSmall (if sign then -x else x)
      | .arr value => .big value sign) = b ∧ b.Ok ∧ b.toInt = if sign then -val a else val a := by
  rw [arrayToSmall_eq ha]
  have := val_nonneg ha
  by_cases h : val a < MAX_INT
  · rw [if_pos h]
    have hM : (0 : Int) < MAX_INT := by decide
    refine ⟨_, rfl, ?_, rfl⟩
    cases sign
    · exact ofSmall_ok (by simp only [Bool.false_eq_true, if_false]; omega) (by simpa using h)
    · exact ofSmall_ok (by simp only [if_true]; omega) (by simp only [if_true]; omega)
  · rw [if_neg h]
    refine ⟨_, rfl, ⟨digits_trim ha, trimmed_trim a, by rw [val_trim]; omega⟩, ?_⟩
    simp only [Big.toInt, val_trim]

theorem subtractAny_eq {a b : Arr} (ha : Digits a) (hb : Digits b) (ta : Trimmed a) (tb : Trimmed b)
    (sign : Bool) : ∃ r, subtractAny a b sign = .ok r ∧ r.Ok ∧
      r.toInt = (if sign then -val a else val a) - (if sign then -val b else val b) := by
  unfold subtractAny
  rw [compareAbs_eq ha hb ta tb]
  have fin : ∀ (v : Arr) (s : Bool), Digits v → ∃ r, (match arrayToSmall v with
      | .n x => (.ok (.ofSmall (if s then -x else x)) : R Big)
      | .arr value => .ok (.big value s)) = .ok r ∧ r.Ok ∧ r.toInt = if s then -val v else val v := by
    intro v s hv
    obtain ⟨r, h1, h2, h3⟩ := ofNumOrArr hv s
    refine ⟨r, ?_, h2, h3⟩
    rw [← h1]
    cases arrayToSmall v <;> rfl
  by_cases hc : val b ≤ val a
  · have : cmp (val a) (val b) ≥ 0 := by unfold cmp; split <;> (try split) <;> omega
    rw [if_pos this]
    obtain ⟨v, hv, hval, hd, _⟩ := subtract_eq ha hb tb hc
    rw [hv]
    obtain ⟨r, h1, h2, h3⟩ := fin v sign hd
    refine ⟨r, h1, h2, ?_⟩
    rw [h3, hval]
    cases sign <;> simp <;> omega
  · have : ¬ cmp (val a) (val b) ≥ 0 := by unfold cmp; rw [if_pos (by omega)]; decide
    rw [if_neg this]
    obtain ⟨v, hv, hval, hd, _⟩ := subtract_eq hb ha ta (by omega)
    rw [hv]
    obtain ⟨r, h1, h2, h3⟩ := fin v (!sign) hd
    refine ⟨r, h1, h2, ?_⟩
    rw [h3, hval]
    cases sign <;> simp <;> omega

theorem subtractSmall_eq {a : Arr} (ha : Digits a) {b : Int} (h0 : 0 ≤ b) (hle : b ≤ val a) (sign : Bool) :
    (subtractSmall a b sign).Ok ∧
      (subtractSmall a b sign).toInt = if sign then -(val a - b) else val a - b := by
  obtain ⟨h1, h2⟩ := subSmallLoop_eq (carry := -b) ha (by omega) (by omega)
  obtain ⟨r, h3, h4, h5⟩ := ofNumOrArr h2 sign
  have : subtractSmall a b sign = r := by
    rw [← h3, subtractSmall]
    cases arrayToSmall (subSmallLoop a (-b)) <;> rfl
  rw [this, h5, h1]
  exact ⟨h4, by simp [Int.sub_eq_add_neg]⟩

theorem smallToArray_eq {n : Int} (h0 : 0 ≤ n) (h1 : n < 10000000 ^ 3) :
    val (smallToArray n) = n ∧ Digits (smallToArray n) ∧ (0 < n → Trimmed (smallToArray n)) := by
  have h1' : n < 1000000000000000000000 := h1
  unfold smallToArray
  split
  · exact ⟨by simp [val], digits_cons.mpr ⟨by omega, digits_nil⟩, fun h => trimmed_single.mpr (by omega)⟩
  · split
    · refine ⟨by simp only [val]; omega, ?_, fun h => ?_⟩
      · exact digits_cons.mpr ⟨by omega, digits_cons.mpr ⟨by omega, digits_nil⟩⟩
      · rw [trimmed_cons_cons, trimmed_single]; omega
    · refine ⟨by simp only [val]; omega, ?_, fun h => ?_⟩
      · exact digits_cons.mpr ⟨by omega, digits_cons.mpr ⟨by omega, digits_cons.mpr ⟨by omega, digits_nil⟩⟩⟩
      · rw [trimmed_cons_cons, trimmed_cons_cons, trimmed_single]; omega

end Verif.BigJs
