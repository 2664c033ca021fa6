import Verif.Lemmas.BigInt
/-! Addition, subtraction, comparison and multiplication of big integers. -/
namespace Verif.BigJs

/-- The sign the methods of an object go by. -/
def Big.ownSign : Big → Bool
  | .big _ sign => sign
  | .small v _ => decide (v < 0)

theorem max_lt : (MAX_INT : Int) < 10000000 ^ 3 := by decide

theorem addF_same {t n : Big} (ht : t.Ok) (hn : n.Ok) (hs : t.ownSign = n.sign) (k : Nat) :
    ∃ r, addF (k + 1) t n = .ok r ∧ r.Ok ∧ r.toInt = t.toInt + n.toInt := by
  have hM : (MAX_INT : Int) = 9007199254740992 := rfl
  have hP := max_lt
  cases t with
  | big a s =>
    obtain ⟨da, ta, ma⟩ := ht
    simp only [Big.ownSign] at hs
    rw [addF.eq_def]; simp only; rw [if_neg (by simpa using hs)]
    cases n with
    | small b bs =>
      obtain ⟨b1, b2, b3, b4⟩ := hn
      simp only [Big.sign] at hs
      subst hs
      obtain ⟨r, hr, hv, hd, htr⟩ := addSmall_eq (carry := b.natAbs) da (by omega) (by omega)
      refine ⟨.big r s, by simp only [hr]; rfl, ⟨hd, htr ta, by omega⟩, ?_⟩
      simp only [Big.toInt, hv]
      cases s
      · have : ¬ b < 0 := fun h => by simpa using b3 h
        simp only [Bool.false_eq_true, if_false]; omega
      · have : ¬ 0 < b := fun h => by simpa using b4 h
        simp only [if_true]; omega
    | big b bs =>
      obtain ⟨db, tb, mb⟩ := hn
      simp only [Big.sign] at hs
      subst hs
      obtain ⟨r, hr, hv, hd, htr⟩ := addAny_eq da db
      refine ⟨.big r s, by simp only [hr]; rfl, ⟨hd, htr ta tb, by omega⟩, ?_⟩
      simp only [Big.toInt, hv]
      cases s
      · simp only [Bool.false_eq_true, if_false]
      · simp only [if_true]; omega
  | small a s =>
    obtain ⟨a1, a2, a3, a4⟩ := ht
    simp only [Big.ownSign] at hs
    rw [addF.eq_def]; simp only; rw [if_neg (by simpa using hs)]
    cases n with
    | small b bs =>
      obtain ⟨b1, b2, b3, b4⟩ := hn
      simp only [Big.sign] at hs
      simp only
      split
      · rename_i hp
        simp only [isPrecise, Bool.and_eq_true, decide_eq_true_eq] at hp
        exact ⟨_, rfl, ofSmall_ok hp.1 hp.2, rfl⟩
      · rename_i hp
        simp only [isPrecise, Bool.and_eq_true, decide_eq_true_eq] at hp
        obtain ⟨v1, v2, v3⟩ := smallToArray_eq (n := b.natAbs) (by omega) (by omega)
        obtain ⟨r, hr, hv, hd, htr⟩ := addSmall_eq (carry := a.natAbs) v2 (by omega) (by omega)
        rw [v1] at hv
        by_cases h : a < 0
        · have hb : ¬ 0 < b := fun h1 => by
            have := b4 h1
            rw [this] at hs
            simp [h] at hs
          refine ⟨.big r (decide (a < 0)), by simp only [hr]; rfl, ⟨hd, htr (v3 (by omega)), by omega⟩, ?_⟩
          simp only [Big.toInt, hv, decide_eq_true_eq, h, if_true]
          omega
        · have hb : ¬ b < 0 := fun h1 => by
            have := b3 h1
            rw [this] at hs
            simp [h] at hs
          refine ⟨.big r (decide (a < 0)), by simp only [hr]; rfl, ⟨hd, htr (v3 (by omega)), by omega⟩, ?_⟩
          simp only [Big.toInt, hv, decide_eq_true_eq, h, if_false]
          omega
    | big b bs =>
      obtain ⟨db, tb, mb⟩ := hn
      simp only [Big.sign] at hs
      obtain ⟨r, hr, hv, hd, htr⟩ := addSmall_eq (carry := a.natAbs) db (by omega) (by omega)
      refine ⟨.big r (decide (a < 0)), by simp only [hr]; rfl, ⟨hd, htr tb, by omega⟩, ?_⟩
      subst hs
      by_cases h : a < 0
      · simp only [Big.toInt, hv, decide_eq_true_eq, h, if_true]; omega
      · simp only [Big.toInt, hv, decide_eq_true_eq, h, if_false]; omega

theorem subF_same {t n : Big} (ht : t.Ok) (hn : n.Ok) (hs : t.ownSign = n.sign) (k : Nat) :
    ∃ r, subF (k + 1) t n = .ok r ∧ r.Ok ∧ r.toInt = t.toInt - n.toInt := by
  have hM : (MAX_INT : Int) = 9007199254740992 := rfl
  cases t with
  | big a s =>
    obtain ⟨da, ta, ma⟩ := ht
    simp only [Big.ownSign] at hs
    rw [subF.eq_def]; simp only; rw [if_neg (by simpa using hs)]
    cases n with
    | small b bs =>
      obtain ⟨b1, b2, b3, b4⟩ := hn
      simp only [Big.sign] at hs
      subst hs
      obtain ⟨h1, h2⟩ := subtractSmall_eq (b := b.natAbs) da (by omega) (by omega) s
      refine ⟨_, rfl, h1, ?_⟩
      rw [h2]
      simp only [Big.toInt]
      cases s
      · have : ¬ b < 0 := fun h => by simpa using b3 h
        simp only [Bool.false_eq_true, if_false]; omega
      · have : ¬ 0 < b := fun h => by simpa using b4 h
        simp only [if_true]; omega
    | big b bs =>
      obtain ⟨db, tb, mb⟩ := hn
      simp only [Big.sign] at hs
      subst hs
      obtain ⟨r, hr, hok, hv⟩ := subtractAny_eq da db ta tb s
      exact ⟨r, hr, hok, by simpa only [Big.toInt] using hv⟩
  | small a s =>
    obtain ⟨a1, a2, a3, a4⟩ := ht
    simp only [Big.ownSign] at hs
    rw [subF.eq_def]; simp only; rw [if_neg (by simpa using hs)]
    cases n with
    | small b bs =>
      obtain ⟨b1, b2, b3, b4⟩ := hn
      simp only [Big.sign] at hs
      refine ⟨_, rfl, ?_, rfl⟩
      by_cases h : a < 0
      · have hb : ¬ 0 < b := fun h1 => by
          have := b4 h1
          rw [this] at hs
          simp [h] at hs
        exact ofSmall_ok (by omega) (by omega)
      · have hb : ¬ b < 0 := fun h1 => by
          have := b3 h1
          rw [this] at hs
          simp [h] at hs
        exact ofSmall_ok (by omega) (by omega)
    | big b bs =>
      obtain ⟨db, tb, mb⟩ := hn
      simp only [Big.sign] at hs
      subst hs
      obtain ⟨h1, h2⟩ := subtractSmall_eq (b := a.natAbs) db (by omega) (by omega) (decide (a ≥ 0))
      refine ⟨_, rfl, h1, ?_⟩
      rw [h2]
      by_cases h : a < 0
      · simp only [Big.toInt, decide_eq_true_eq, h, if_true, if_neg (show ¬ a ≥ 0 by omega)]; omega
      · simp only [Big.toInt, decide_eq_true_eq, h, if_false, if_pos (show a ≥ 0 by omega)]; omega

theorem addF_other {t n : Big} (hs : t.ownSign ≠ n.sign) (k : Nat) :
    addF (k + 1) t n = subF k t n.negate := by
  cases t with
  | big a s => rw [addF.eq_def]; simp only; exact if_pos hs
  | small a s => rw [addF.eq_def]; simp only; exact if_pos hs

theorem subF_other {t n : Big} (hs : t.ownSign ≠ n.sign) (k : Nat) :
    subF (k + 1) t n = addF k t n.negate := by
  cases t with
  | big a s => rw [subF.eq_def]; simp only; exact if_pos hs
  | small a s => rw [subF.eq_def]; simp only; exact if_pos hs

theorem other_sign {t n : Big} (hs : t.ownSign ≠ n.sign) : t.ownSign = n.negate.sign := by
  rw [negate_sign]
  cases h1 : t.ownSign <;> cases h2 : n.sign <;> simp_all

theorem add_ok {t n : Big} (ht : t.Ok) (hn : n.Ok) :
    ∃ r, t.add n = .ok r ∧ r.Ok ∧ r.toInt = t.toInt + n.toInt := by
  unfold Big.add
  by_cases hs : t.ownSign = n.sign
  · exact addF_same ht hn hs 1
  · rw [addF_other hs]
    obtain ⟨h1, h2⟩ := negate_ok hn
    obtain ⟨r, hr, hok, hv⟩ := subF_same ht h1 (other_sign hs) 0
    exact ⟨r, hr, hok, by rw [hv, h2]; omega⟩

theorem subtract_ok {t n : Big} (ht : t.Ok) (hn : n.Ok) :
    ∃ r, t.subtract n = .ok r ∧ r.Ok ∧ r.toInt = t.toInt - n.toInt := by
  unfold Big.subtract
  by_cases hs : t.ownSign = n.sign
  · exact subF_same ht hn hs 1
  · rw [subF_other hs]
    obtain ⟨h1, h2⟩ := negate_ok hn
    obtain ⟨r, hr, hok, hv⟩ := addF_same ht h1 (other_sign hs) 0
    exact ⟨r, hr, hok, by rw [hv, h2]; omega⟩

theorem compare_ok {t n : Big} (ht : t.Ok) (hn : n.Ok) : t.compare n = cmp t.toInt n.toInt := by
  have hM : (MAX_INT : Int) = 9007199254740992 := rfl
  cases t with
  | big a s =>
    obtain ⟨da, ta, ma⟩ := ht
    cases n with
    | small b bs =>
      obtain ⟨b1, b2, b3, b4⟩ := hn
      simp only [Big.compare, Big.sign, Big.toInt, cmp]
      cases s <;> cases bs <;>
        simp only [ne_eq, not_true_eq_false, not_false_eq_true, if_true, if_false, Bool.false_eq_true,
          reduceCtorEq] <;> split <;> (try split) <;> omega
    | big b bs =>
      obtain ⟨db, tb, mb⟩ := hn
      simp only [Big.compare, Big.sign, Big.toInt, compareAbs_eq da db ta tb]
      unfold cmp
      cases s <;> cases bs <;>
        simp only [ne_eq, not_true_eq_false, not_false_eq_true, if_true, if_false, Bool.false_eq_true,
          reduceCtorEq] <;> (repeat' split) <;> omega
  | small a s =>
    obtain ⟨a1, a2, a3, a4⟩ := ht
    cases n with
    | small b bs =>
      simp only [Big.compare, Big.toInt, cmp]
      (repeat' split) <;> omega
    | big b bs =>
      obtain ⟨db, tb, mb⟩ := hn
      simp only [Big.compare, Big.toInt, cmp]
      cases bs <;> by_cases h : a < 0 <;> simp [h] <;> (repeat' split) <;> omega

/-! ### Multiplication -/

theorem num_ok {x : Int} (h1 : -MAX_INT ≤ x) (h2 : x ≤ MAX_INT) : num x = .ok x := if_pos ⟨h1, h2⟩

theorem mul_bound {x y : Int} (hx0 : 0 ≤ x) (hx : x < 10000000) (hy0 : 0 ≤ y) (hy : y < 10000000) :
    0 ≤ x * y ∧ x * y ≤ 99999980000001 := by
  constructor
  · exact Int.mul_nonneg hx0 hy0
  · have h1 : x * y ≤ 9999999 * y := Int.mul_le_mul_of_nonneg_right (by omega) hy0
    omega

/-- The row is added at the position: a part as long as `b`, whose first element may have got a carry, and
at least one zero behind it. -/
theorem mulRow_eq {x : Int} (hx0 : 0 ≤ x) (hx : x < 10000000) {b : Arr} (hb : Digits b) {p : Arr}
    (hl : p.length = b.length) (k : Nat) (c : Int) (hc0 : 0 ≤ c) (hc : c ≤ 9999999) (hp : Digits p) :
    ∃ p', mulRow x b (match p with
        | [] => c :: List.replicate k 0
        | y :: p => (y + c) :: (p ++ List.replicate (k + 1) 0)) = .ok (p' ++ List.replicate k 0) ∧
      p'.length = b.length + 1 ∧ Digits p' ∧ val p' = val p + c + x * val b := by
  induction b generalizing p c with
  | nil =>
    have : p = [] := List.eq_nil_of_length_eq_zero hl
    subst this
    exact ⟨[c], rfl, rfl, digits_cons.mpr ⟨by omega, digits_nil⟩, by simp [val]⟩
  | cons y b ih =>
    cases p with
    | nil => simp at hl
    | cons z p =>
      rw [digits_cons] at hb hp
      simp only [List.length_cons, Nat.add_right_cancel_iff] at hl
      obtain ⟨m0, m1⟩ := mul_bound hx0 hx hb.1.1 hb.1.2
      have hnum : num (x * y + (z + c)) = .ok (x * y + (z + c)) :=
        num_ok (by simp only [MAX_INT]; omega) (by simp only [MAX_INT]; omega)
      obtain ⟨p', h1, h2, h3, h4⟩ := ih hb.2 hl ((x * y + (z + c)) / 10000000) (by omega) (by omega) hp.2
      refine ⟨(x * y + (z + c) - (x * y + (z + c)) / 10000000 * 10000000) :: p', ?_, by simp [h2],
        digits_cons.mpr ⟨by omega, h3⟩, ?_⟩
      · cases p with
        | nil =>
          simp only [List.nil_append, List.replicate_succ, mulRow, hnum, BASE, Int.zero_add] at h1 ⊢
          show (do
            let rest ← mulRow x b _
            _) = _
          simp only [h1]
          rfl
        | cons w p =>
          simp only [List.cons_append, mulRow, hnum, BASE] at h1 ⊢
          show (do
            let rest ← mulRow x b _
            _) = _
          simp only [h1]
          rfl
      · simp only [val, h4, Int.mul_add]
        have : x * (10000000 * val b) = 10000000 * (x * val b) := by
          rw [← Int.mul_assoc, Int.mul_comm x, Int.mul_assoc]
        rw [this]
        omega

theorem mulLoop_eq {a b : Arr} (ha : Digits a) (hb : Digits b) {p : Arr} (hl : p.length = b.length)
    (hp : Digits p) : ∃ r, mulLoop a b (p ++ List.replicate a.length 0) = .ok r ∧ Digits r ∧
      val r = val p + val a * val b := by
  induction a generalizing p with
  | nil => exact ⟨p, by simp [mulLoop], hp, by simp [val]⟩
  | cons x a ih =>
    rw [digits_cons] at ha
    obtain ⟨p', h1, h2, h3, h4⟩ := mulRow_eq ha.1.1 ha.1.2 hb hl a.length 0 (Int.le_refl _) (by decide) hp
    have h1' : mulRow x b (p ++ List.replicate (x :: a).length 0) = .ok (p' ++ List.replicate a.length 0) := by
      rw [← h1]
      cases p with
      | nil => rfl
      | cons y p => simp
    rw [mulLoop, h1']
    cases p' with
    | nil => simp at h2
    | cons d p' =>
      rw [digits_cons] at h3
      obtain ⟨r, hr, hd, hv⟩ := ih ha.2 (p := p') (by simpa using h2) h3.2
      refine ⟨d :: r, ?_, digits_cons.mpr ⟨h3.1, hd⟩, ?_⟩
      · show (do
          let rest ← mulLoop a b (p' ++ List.replicate a.length 0)
          Except.ok (d :: rest)) = _
        rw [hr]
        rfl
      · simp only [val] at h4 ⊢
        rw [hv, Int.add_mul, Int.mul_assoc]
        omega

theorem multiplyLong_eq {a b : Arr} (ha : Digits a) (hb : Digits b) :
    ∃ r, multiplyLong a b = .ok r ∧ Digits r ∧ Trimmed r ∧ val r = val a * val b := by
  obtain ⟨r, h1, h2, h3⟩ := mulLoop_eq ha hb (p := List.replicate b.length 0) (by simp) (digits_zeros _)
  refine ⟨trim r, ?_, digits_trim h2, trimmed_trim r, by rw [val_trim, h3, val_zeros]; omega⟩
  rw [multiplyLong, Nat.add_comm, ← List.replicate_append_replicate, h1]
  rfl

theorem multiplySmall_eq {a : Arr} (ha : Digits a) {b : Int} (hb0 : 0 < b) (hb : b ≤ 40000000) :
    ∃ r, multiplySmall a b = .ok r ∧ Digits r ∧ (Trimmed a → Trimmed r) ∧ val r = val a * b := by
  have gen : ∀ (a : Arr) (c : Int), Digits a → 0 ≤ c → c < b →
      ∃ r, multiplySmallLoop b a c = .ok r ∧ Digits r ∧ (Trimmed a → Trimmed r) ∧ val r = val a * b + c := by
    intro a
    induction a with
    | nil =>
      intro c _ h0 h1
      obtain ⟨r, hr, hv, hd, ht⟩ := carryOut_eq 3 h0 (by simp; omega)
      exact ⟨r, by rw [multiplySmallLoop]; exact hr, hd, fun _ => ht, by rw [hv]; simp [val]⟩
    | cons x a ih =>
      intro c ha h0 h1
      rw [digits_cons] at ha
      have m0 : 0 ≤ x * b := Int.mul_nonneg ha.1.1 (Int.le_of_lt hb0)
      have m1 : x * b ≤ 9999999 * b := Int.mul_le_mul_of_nonneg_right (by omega) (by omega)
      have hnum : num (x * b + c) = .ok (x * b + c) :=
        num_ok (by simp only [MAX_INT]; omega) (by simp only [MAX_INT]; omega)
      have hcb : (x * b + c) / 10000000 < b := by
        have : x * b ≤ 9999999 * b := Int.mul_le_mul_of_nonneg_right (by omega) (by omega)
        omega
      obtain ⟨r, hr, hd, ht, hv⟩ := ih ((x * b + c) / 10000000) ha.2 (by omega) hcb
      refine ⟨(x * b + c - (x * b + c) / 10000000 * 10000000) :: r, ?_, digits_cons.mpr ⟨by omega, hd⟩, ?_, ?_⟩
      · rw [multiplySmallLoop, hnum]
        show (do
          let r ← multiplySmallLoop b a ((x * b + c) / 10000000)
          _) = _
        rw [hr]
        rfl
      · intro htx
        have hpos : 0 < val (x :: a) := by
          have h2 := pow_le_val (digits_cons.mpr ha) htx (by simp)
          have h3 := pow_pos' (x :: a).length
          omega
        cases r with
        | nil =>
          rw [trimmed_single]
          simp only [val] at hv hpos
          have hva := val_nonneg ha.2
          have hp : 0 ≤ val a * b := Int.mul_nonneg hva (Int.le_of_lt hb0)
          have ha0 : val a = 0 := by
            rcases Int.lt_or_le 0 (val a) with h | h
            · have := Int.mul_pos h hb0
              omega
            · omega
          have : 0 < x * b := Int.mul_pos (by omega) hb0
          omega
        | cons w r =>
          cases a with
          | nil => exact trimmed_cons_cons.mpr (ht trimmed_nil)
          | cons z a => exact trimmed_cons_cons.mpr (ht (trimmed_cons_cons.mp htx))
      · simp only [val, hv]
        rw [Int.add_mul, Int.mul_assoc]
        omega
  obtain ⟨r, h1, h2, h3, h4⟩ := gen a 0 ha (Int.le_refl _) hb0
  exact ⟨r, h1, h2, h3, by rw [h4]; omega⟩

theorem val_shiftLeft (x : Arr) (n : Nat) : val (shiftLeft x n) = 10000000 ^ n * val x := by
  rw [shiftLeft, val_append, val_zeros, List.length_replicate]
  omega

theorem digits_shiftLeft {x : Arr} (h : Digits x) (n : Nat) : Digits (shiftLeft x n) :=
  digits_append.mpr ⟨digits_zeros n, h⟩

theorem digits_take {x : Arr} (h : Digits x) (n : Nat) : Digits (x.take n) :=
  fun y hy => h y (List.mem_of_mem_take hy)

theorem digits_drop {x : Arr} (h : Digits x) (n : Nat) : Digits (x.drop n) :=
  fun y hy => h y (List.mem_of_mem_drop hy)

theorem addLoop_length {a b : Arr} {c : Int} {r : Arr} (h : addLoop a b c = .ok r) :
    r.length ≤ a.length + 1 := by
  induction a generalizing b c r with
  | nil =>
    cases b with
    | nil =>
      simp only [addLoop, Except.ok.injEq] at h
      subst h
      split <;> simp
    | cons y b => simp [addLoop] at h
  | cons x a ih =>
    cases b with
    | nil =>
      rw [addLoop] at h
      cases hr : addLoop a [] (if x + c = BASE then 1 else 0) with
      | error e => simp only [hr] at h; cases h
      | ok s =>
        simp only [hr] at h
        cases h
        have := ih hr
        simp only [List.length_cons]
        omega
    | cons y b =>
      rw [addLoop] at h
      cases hr : addLoop a b (if x + y + c ≥ BASE then 1 else 0) with
      | error e => simp only [hr] at h; cases h
      | ok s =>
        simp only [hr] at h
        cases h
        have := ih hr
        simp only [List.length_cons]
        omega

theorem addAny_length {a b r : Arr} (h : addAny a b = .ok r) : r.length ≤ max a.length b.length + 1 := by
  unfold addAny at h
  split at h
  · have := addLoop_length h; omega
  · have := addLoop_length h; omega

/-- The product of high and low parts. -/
theorem karatsuba_identity (P a b c d : Int) :
    a * c + P * ((a + b) * (c + d) - a * c - b * d) + P * P * (b * d) = (a + P * b) * (c + P * d) := by
  grind

theorem multiplyKaratsuba_eq (fuel : Nat) {x y : Arr} (hx : Digits x) (hy : Digits y)
    (hf : max x.length y.length ≤ fuel + 29) :
    ∃ r, multiplyKaratsuba (fuel + 1) x y = .ok r ∧ Digits r ∧ Trimmed r ∧ val r = val x * val y := by
  induction fuel generalizing x y with
  | zero =>
    rw [multiplyKaratsuba]
    simp only
    rw [if_pos (by omega)]
    exact multiplyLong_eq hx hy
  | succ fuel ih =>
    rw [multiplyKaratsuba]
    simp only
    by_cases hn : max x.length y.length ≤ 30
    · rw [if_pos hn]
      exact multiplyLong_eq hx hy
    · rw [if_neg hn]
      generalize hm : (max x.length y.length + 1) / 2 = n
      have lxt : (x.take n).length ≤ n := List.length_take_le n x
      have lyt : (y.take n).length ≤ n := List.length_take_le n y
      have lxd : (x.drop n).length ≤ n := by rw [List.length_drop]; omega
      have lyd : (y.drop n).length ≤ n := by rw [List.length_drop]; omega
      obtain ⟨ac, h1, d1, t1, v1⟩ := ih (digits_take hx n) (digits_take hy n) (by omega)
      obtain ⟨bd, h2, d2, t2, v2⟩ := ih (digits_drop hx n) (digits_drop hy n) (by omega)
      obtain ⟨ab, h3, v3, d3, _⟩ := addAny_eq (digits_take hx n) (digits_drop hx n)
      obtain ⟨cd, h4, v4, d4, _⟩ := addAny_eq (digits_take hy n) (digits_drop hy n)
      have l3 := addAny_length h3
      have l4 := addAny_length h4
      obtain ⟨abcd, h5, d5, t5, v5⟩ := ih d3 d4 (by omega)
      have na := val_nonneg (digits_take hx n)
      have nb := val_nonneg (digits_drop hx n)
      have nc := val_nonneg (digits_take hy n)
      have nd := val_nonneg (digits_drop hy n)
      have e : val abcd = val ac + val bd + (val (x.take n) * val (y.drop n) + val (x.drop n) * val (y.take n)) := by
        rw [v5, v3, v4, v1, v2]; grind
      have n1 : 0 ≤ val (x.take n) * val (y.drop n) := Int.mul_nonneg na nd
      have n2 : 0 ≤ val (x.drop n) * val (y.take n) := Int.mul_nonneg nb nc
      have n3 := val_nonneg d1
      have n4 := val_nonneg d2
      obtain ⟨m1, h6, v6, d6, _⟩ := subtract_eq d5 d1 t1 (by omega)
      obtain ⟨m2, h7, v7, d7, _⟩ := subtract_eq d6 d2 t2 (by omega)
      obtain ⟨p1, h8, v8, d8, _⟩ := addAny_eq d1 (digits_shiftLeft d7 n)
      obtain ⟨p2, h9, v9, d9, _⟩ := addAny_eq d8 (digits_shiftLeft d2 (2 * n))
      refine ⟨trim p2, ?_, digits_trim d9, trimmed_trim p2, ?_⟩
      · simp only [h1, h2, h3, h4, h5, h6, h7, h8, h9, bind, Except.bind]
      · have ex : val x = val (x.take n) + 10000000 ^ n * val (x.drop n) := by
          rcases Nat.lt_or_ge x.length n with h | h
          · rw [List.take_of_length_le (by omega), List.drop_of_length_le (by omega)]
            simp [val]
          · conv => lhs; rw [← List.take_append_drop n x]
            rw [val_append, List.length_take, Nat.min_eq_left h]
        have ey : val y = val (y.take n) + 10000000 ^ n * val (y.drop n) := by
          rcases Nat.lt_or_ge y.length n with h | h
          · rw [List.take_of_length_le (by omega), List.drop_of_length_le (by omega)]
            simp [val]
          · conv => lhs; rw [← List.take_append_drop n y]
            rw [val_append, List.length_take, Nat.min_eq_left h]
        rw [val_trim, v9, v8, val_shiftLeft, val_shiftLeft, v7, v6, v5, v3, v4, v1, v2, ex, ey,
          ← karatsuba_identity, Nat.two_mul, Int.pow_add]

theorem mulArr_eq {a b : Arr} (ha : Digits a) (hb : Digits b) :
    ∃ r, mulArr a b = .ok r ∧ Digits r ∧ Trimmed r ∧ val r = val a * val b := by
  unfold mulArr
  split
  · rename_i h
    have hne : a.length + b.length ≠ 0 := by
      intro h0
      have h1 : a.length = 0 := by omega
      have h2 : b.length = 0 := by omega
      rw [h1, h2] at h
      simp [useKaratsuba] at h
    obtain ⟨k, hk⟩ := Nat.exists_eq_succ_of_ne_zero hne
    rw [hk]
    exact multiplyKaratsuba_eq k ha hb (by omega)
  · exact multiplyLong_eq ha hb

theorem sign_mul (s t : Bool) (x y : Int) :
    (if decide (s ≠ t) = true then -(x * y) else x * y) =
      (if s = true then -x else x) * (if t = true then -y else y) := by
  cases s <;> cases t <;> simp [Int.neg_mul, Int.mul_neg]

theorem small_parts {v : Int} {s : Bool} (h : (Big.small v s).Ok) :
    v = if s = true then -(v.natAbs : Int) else v.natAbs := by
  obtain ⟨_, _, h3, h4⟩ := h
  cases s
  · have : ¬ v < 0 := fun h => by simpa using h3 h
    simp only [Bool.false_eq_true, if_false]; omega
  · have : ¬ 0 < v := fun h => by simpa using h4 h
    simp only [if_true]; omega

theorem multiplySmallAndArray_eq {a : Int} (ha : 0 < a) (ha' : a < MAX_INT) {b : Arr} (hb : Digits b)
    (tb : Trimmed b) (sign : Bool) : ∃ r, multiplySmallAndArray a b sign = .ok (.big r sign) ∧ Digits r ∧
      Trimmed r ∧ val r = val b * a := by
  have hP := max_lt
  unfold multiplySmallAndArray
  split
  · rename_i h
    obtain ⟨r, h1, h2, h3, h4⟩ := multiplySmall_eq hb ha (by have h : a < 10000000 := h; omega)
    exact ⟨r, by rw [h1]; rfl, h2, h3 tb, h4⟩
  · obtain ⟨v1, v2, v3⟩ := smallToArray_eq (n := a) (by omega) (by omega)
    obtain ⟨r, h1, h2, h3, h4⟩ := multiplyLong_eq hb v2
    exact ⟨r, by rw [h1]; rfl, h2, h3, by rw [h4, v1]⟩

theorem max_le_mul {x y : Int} (hx : MAX_INT ≤ x) (hy : 0 < y) : MAX_INT ≤ x * y := by
  have h0 : (0 : Int) < MAX_INT := by decide
  have : x * 1 ≤ x * y := Int.mul_le_mul_of_nonneg_left (by omega) (by omega)
  omega

theorem multiply_ok {t n : Big} (ht : t.Ok) (hn : n.Ok) :
    ∃ r, t.multiply n = .ok r ∧ r.Ok ∧ r.toInt = t.toInt * n.toInt := by
  have hM : (MAX_INT : Int) = 9007199254740992 := rfl
  have hP := max_lt
  have zero : (Big.ofSmall 0).Ok := ofSmall_ok (by decide) (by decide)
  cases t with
  | big a s =>
    have hta := ht
    obtain ⟨da, ta, ma⟩ := ht
    cases n with
    | small b bs =>
      have hp := small_parts hn
      obtain ⟨b1, b2, b3, b4⟩ := hn
      rw [Big.multiply]
      by_cases h0 : b = 0
      · rw [if_pos h0]
        exact ⟨_, rfl, zero, by rw [h0, toInt_ofSmall]; simp [Big.toInt]⟩
      rw [if_neg h0]
      by_cases h1 : b = 1
      · rw [if_pos h1]
        exact ⟨_, rfl, hta, by rw [h1]; simp [Big.toInt]⟩
      rw [if_neg h1]
      by_cases h2 : b = -1
      · rw [if_pos h2]
        obtain ⟨k1, k2⟩ := negate_ok hta
        refine ⟨_, rfl, k1, ?_⟩
        rw [k2, h2]
        simp only [Big.toInt, Int.mul_neg, Int.mul_one]
      rw [if_neg h2]
      by_cases h3 : (b.natAbs : Int) < BASE
      · rw [if_pos h3]
        obtain ⟨r, k1, k2, k3, k4⟩ := multiplySmall_eq (b := b.natAbs) da (by omega)
          (by have h3 : (b.natAbs : Int) < 10000000 := h3; omega)
        refine ⟨.big r _, by rw [k1]; rfl, ⟨k2, k3 ta, by rw [k4]; exact max_le_mul ma (by omega)⟩, ?_⟩
        simp only [Big.toInt]
        rw [k4, sign_mul, ← hp]
      · rw [if_neg h3]
        obtain ⟨v1, v2, v3⟩ := smallToArray_eq (n := b.natAbs) (by omega) (by omega)
        obtain ⟨r, k1, k2, k3, k4⟩ := mulArr_eq da v2
        refine ⟨.big r _, by rw [k1]; rfl, ⟨k2, k3, by rw [k4, v1]; exact max_le_mul ma (by omega)⟩, ?_⟩
        simp only [Big.toInt]
        rw [k4, v1, sign_mul, ← hp]
    | big b bs =>
      obtain ⟨db, tb, mb⟩ := hn
      rw [Big.multiply]
      obtain ⟨r, k1, k2, k3, k4⟩ := mulArr_eq da db
      refine ⟨.big r _, by rw [k1]; rfl, ⟨k2, k3, by rw [k4]; exact max_le_mul ma (by omega)⟩, ?_⟩
      simp only [Big.toInt]
      rw [k4, sign_mul]
  | small a s =>
    have hpa := small_parts ht
    obtain ⟨a1, a2, a3, a4⟩ := ht
    cases n with
    | small b bs =>
      have hpb := small_parts hn
      obtain ⟨b1, b2, b3, b4⟩ := hn
      rw [Big.multiply]
      split
      · rename_i hp
        simp only [isPrecise, Bool.and_eq_true, decide_eq_true_eq] at hp
        exact ⟨_, rfl, ofSmall_ok hp.1 hp.2, rfl⟩
      · rename_i hp
        simp only [isPrecise, Bool.and_eq_true, decide_eq_true_eq] at hp
        have ha0 : a ≠ 0 := by rintro rfl; simp at hp; omega
        have hb0 : b ≠ 0 := by rintro rfl; simp at hp; omega
        obtain ⟨v1, v2, v3⟩ := smallToArray_eq (n := b.natAbs) (by omega) (by omega)
        obtain ⟨r, k1, k2, k3, k4⟩ := multiplySmallAndArray_eq (a := a.natAbs) (by omega) (by omega) v2
          (v3 (by omega)) (decide (bs ≠ s))
        rw [v1] at k4
        have habs : (b.natAbs : Int) * a.natAbs = (a * b).natAbs := by
          rw [Int.natAbs_mul, Int.natCast_mul, Int.mul_comm]
        refine ⟨_, k1, ⟨k2, k3, by rw [k4, habs]; omega⟩, ?_⟩
        simp only [Big.toInt]
        rw [k4, sign_mul, ← hpa, ← hpb, Int.mul_comm]
    | big b bs =>
      have hnb := hn
      obtain ⟨db, tb, mb⟩ := hn
      rw [Big.multiply]
      by_cases h0 : a = 0
      · rw [if_pos h0]
        exact ⟨_, rfl, zero, by rw [h0, toInt_ofSmall]; simp [Big.toInt]⟩
      rw [if_neg h0]
      by_cases h1 : a = 1
      · rw [if_pos h1]
        exact ⟨_, rfl, hnb, by rw [h1]; simp [Big.toInt]⟩
      rw [if_neg h1]
      by_cases h2 : a = -1
      · rw [if_pos h2]
        obtain ⟨k1, k2⟩ := negate_ok hnb
        refine ⟨_, rfl, k1, ?_⟩
        rw [k2, h2]
        simp only [Big.toInt, Int.neg_mul, Int.one_mul]
      rw [if_neg h2]
      obtain ⟨r, k1, k2, k3, k4⟩ := multiplySmallAndArray_eq (a := a.natAbs) (by omega) (by omega) db tb
        (decide (bs ≠ s))
      refine ⟨_, k1, ⟨k2, k3, by rw [k4]; exact max_le_mul mb (by omega)⟩, ?_⟩
      simp only [Big.toInt]
      rw [k4, sign_mul, ← hpa, Int.mul_comm]

end Verif.BigJs
