import Verif.Lemmas.BigIntOps
import Verif.Spec.BigInt
/-! Division of big integers. -/
namespace Verif.BigJs

theorem divModSmallLoop_eq {l : Int} (hl : 0 < l) (hl' : l < 10000000) {xs : Arr} (hx : Digits xs) :
    ∀ rem : Int, 0 ≤ rem → rem < l → ∃ q r, divModSmallLoop l xs rem = .ok (q, r) ∧ q.length = xs.length ∧
      Digits q ∧ 0 ≤ r ∧ r < l ∧
      rem * 10000000 ^ xs.length + val xs.reverse = l * val q.reverse + r := by
  induction xs with
  | nil => intro rem h0 h1; exact ⟨[], rem, rfl, rfl, digits_nil, h0, h1, by simp [val]⟩
  | cons x xs ih =>
    intro rem h0 h1
    rw [digits_cons] at hx
    have hnum : num (rem * BASE + x) = .ok (rem * BASE + x) :=
      num_ok (by simp only [MAX_INT, BASE]; omega) (by simp only [MAX_INT, BASE]; omega)
    have hD0 : 0 ≤ rem * BASE + x := by simp only [BASE]; omega
    have e1 : (rem * BASE + x).tdiv l = (rem * BASE + x) / l := Int.tdiv_eq_ediv_of_nonneg hD0
    have e2 : rem * BASE + x - (rem * BASE + x) / l * l = (rem * BASE + x) % l := by
      have := Int.mul_ediv_add_emod (rem * BASE + x) l
      rw [Int.mul_comm ((rem * BASE + x) / l)]
      omega
    have q0 : 0 ≤ (rem * BASE + x) / l := Int.ediv_nonneg hD0 (Int.le_of_lt hl)
    have q1 : (rem * BASE + x) / l < 10000000 := by
      apply Int.ediv_lt_of_lt_mul hl
      have : (rem + 1) * 10000000 ≤ l * 10000000 := Int.mul_le_mul_of_nonneg_right (by omega) (by decide)
      simp only [BASE]
      omega
    obtain ⟨q, r, i1, i2, i3, i4, i5, i6⟩ := ih hx.2 _ (Int.emod_nonneg (rem * BASE + x) (by omega))
      (Int.emod_lt_of_pos (rem * BASE + x) hl)
    refine ⟨(rem * BASE + x) / l :: q, r, ?_, by simp [i2], digits_cons.mpr ⟨⟨q0, q1⟩, i3⟩, i4, i5, ?_⟩
    · rw [divModSmallLoop, hnum]
      show (do
        let p ← divModSmallLoop l xs (rem * BASE + x - (rem * BASE + x).tdiv l * l)
        _) = _
      rw [e1, e2, i1]
      rfl
    · rw [List.reverse_cons, List.reverse_cons, val_append, val_append, List.length_reverse,
        List.length_reverse, i2, List.length_cons, Int.pow_succ]
      have hdm := Int.mul_ediv_add_emod (rem * BASE + x) l
      simp only [val, Int.mul_zero, Int.add_zero, BASE] at *
      generalize (rem * 10000000 + x) / l = Q at *
      generalize (rem * 10000000 + x) % l = M at *
      generalize (10000000 : Int) ^ xs.length = P at *
      grind


/-! ### `divMod1` -/

theorem mulSub_eq {q : Int} (hq0 : 0 ≤ q) (hq : q ≤ 9999999) {ds : Arr} (hd : Digits ds) :
    ∀ {w : Arr} {c b : Int}, Digits w → w.length = ds.length → 0 ≤ c → c ≤ 9999999 → (b = 0 ∨ b = -1) →
    ∃ w' b' k, mulSub q ds w c b = .ok (w', b') ∧ Digits w' ∧ w'.length = ds.length ∧ (b' = 0 ∨ b' = -1) ∧
      0 ≤ k ∧ k ≤ 9999999 ∧ (∀ init, ds = init ++ [0] → k = 0) ∧ (ds = [] → k = c) ∧
      val w' = val w + b - c - q * val ds + 10000000 ^ ds.length * (k - b') := by
  induction ds with
  | nil =>
    intro w c b hw hl h0 h1 hb
    have : w = [] := List.eq_nil_of_length_eq_zero hl
    subst this
    exact ⟨[], b, c, rfl, digits_nil, rfl, hb, h0, h1, by simp, fun _ => rfl, by simp [val]; omega⟩
  | cons d ds ih =>
    intro w c b hw hl h0 h1 hb
    cases w with
    | nil => simp at hl
    | cons x w =>
      rw [digits_cons] at hd hw
      have hl' : w.length = ds.length := by simpa using hl
      obtain ⟨m0, m1⟩ := mul_bound hq0 (show q < 10000000 by omega) hd.1.1 hd.1.2
      have hnum : num (c + q * d) = .ok (c + q * d) :=
        num_ok (by simp only [MAX_INT]; omega) (by simp only [MAX_INT]; omega)
      have hk0 : 0 ≤ (c + q * d) / 10000000 := by omega
      have hk1 : (c + q * d) / 10000000 ≤ 9999999 := by omega
      have fin : ∀ (b1 x' : Int), (b1 = 0 ∨ b1 = -1) → 0 ≤ x' → x' < 10000000 →
          x' = x + b - (c + q * d) + 10000000 * ((c + q * d) / 10000000) - 10000000 * b1 →
          ∃ w' b' k, mulSub q ds w ((c + q * d) / 10000000) b1 = .ok (w', b') ∧ Digits (x' :: w') ∧
            (x' :: w').length = (d :: ds).length ∧ (b' = 0 ∨ b' = -1) ∧
            0 ≤ k ∧ k ≤ 9999999 ∧ (∀ init, d :: ds = init ++ [0] → k = 0) ∧ (d :: ds = [] → k = c) ∧
            val (x' :: w') = val (x :: w) + b - c - q * val (d :: ds) +
              10000000 ^ (d :: ds).length * (k - b') := by
        intro b1 x' hb1 hx0 hx1 hx
        obtain ⟨w', b', k, i1, i2, i3, i4, i5, i6, i7, i9, i8⟩ := ih hd.2 hw.2 hl' hk0 hk1 hb1
        refine ⟨w', b', k, i1, digits_cons.mpr ⟨⟨hx0, hx1⟩, i2⟩, by simp [i3], i4, i5, i6, ?_, by simp, ?_⟩
        · intro init he
          cases init with
          | nil =>
            simp only [List.nil_append, List.cons.injEq] at he
            obtain ⟨rfl, rfl⟩ := he
            rw [i9 rfl]
            omega
          | cons y init =>
            simp only [List.cons_append, List.cons.injEq] at he
            exact i7 init he.2
        · simp only [val, i8, List.length_cons, Int.pow_succ]
          generalize (10000000 : Int) ^ ds.length = P at *
          generalize (c + q * d) / 10000000 = Q at *
          grind
      rw [mulSub, hnum]
      simp only [bind, Except.bind, BASE]
      split
      · rename_i hneg
        obtain ⟨w', b', k, i1, i2⟩ := fin (-1) _ (.inr rfl)
          (show 0 ≤ b + (x - (c + q * d - (c + q * d) / 10000000 * 10000000)) + 10000000 by omega)
          (by omega) (by omega)
        exact ⟨_, b', k, by simp only [i1], i2⟩
      · rename_i hneg
        obtain ⟨w', b', k, i1, i2⟩ := fin 0 _ (.inl rfl)
          (show 0 ≤ b + (x - (c + q * d - (c + q * d) / 10000000 * 10000000)) by omega)
          (by omega) (by omega)
        exact ⟨_, b', k, by simp only [i1], i2⟩

theorem addBack_eq {ds : Arr} (hd : Digits ds) :
    ∀ {w : Arr} {c : Int}, Digits w → w.length = ds.length → (c = 0 ∨ c = 1) →
    ∃ w' c', addBack ds w c = .ok (w', c') ∧ Digits w' ∧ w'.length = ds.length ∧ (c' = 0 ∨ c' = 1) ∧
      val w' = val w + val ds + c - 10000000 ^ ds.length * c' := by
  induction ds with
  | nil =>
    intro w c hw hl hc
    have : w = [] := List.eq_nil_of_length_eq_zero hl
    subst this
    exact ⟨[], c, rfl, digits_nil, rfl, hc, by simp [val]⟩
  | cons d ds ih =>
    intro w c hw hl hc
    cases w with
    | nil => simp at hl
    | cons x w =>
      rw [digits_cons] at hd hw
      have hl' : w.length = ds.length := by simpa using hl
      rw [addBack]
      simp only [bind, Except.bind, BASE]
      split
      · rename_i hneg
        obtain ⟨w', c', i1, i2, i3, i4, i5⟩ := ih hd.2 hw.2 hl' (c := 0) (.inl rfl)
        refine ⟨(c + (x - 10000000 + d) + 10000000) :: w', c', by simp only [i1], digits_cons.mpr ⟨by omega, i2⟩, by simp [i3], i4, ?_⟩
        simp only [val, i5, List.length_cons, Int.pow_succ]
        grind
      · rename_i hneg
        obtain ⟨w', c', i1, i2, i3, i4, i5⟩ := ih hd.2 hw.2 hl' (c := 1) (.inr rfl)
        refine ⟨(c + (x - 10000000 + d)) :: w', c', by simp only [i1], digits_cons.mpr ⟨by omega, i2⟩, by simp [i3], i4, ?_⟩
        simp only [val, i5, List.length_cons, Int.pow_succ]
        grind

/-- Corrections end with the quotient digit, if the guess is not below it. -/
theorem correct_eq {ds : Arr} (hd : Digits ds) (hpos : 0 < val ds) {V : Int} (hV0 : 0 ≤ V)
    (fuel : Nat) : ∀ {q : Int} {w : Arr} {b : Int}, 0 ≤ q → q.toNat < fuel →
      V < (q + 1) * val ds → Digits w → w.length = ds.length → (b = 0 ∨ b = -1) →
      val w = V - q * val ds - 10000000 ^ ds.length * b →
    ∃ w', correct ds fuel q w b = .ok (V / val ds, w') ∧ Digits w' ∧ w'.length = ds.length ∧
      val w' = V % val ds := by
  induction fuel with
  | zero => intro q w b h0 h; omega
  | succ fuel ih =>
    intro q w b h0 hf hlt hw hl hb hv
    have hvlt := val_lt hw
    have hv0 := val_nonneg hw
    rw [hl] at hvlt
    rw [correct.eq_def]
    simp only
    rcases hb with rfl | rfl
    · rw [if_neg (by simp)]
      have hle : q * val ds ≤ V := by omega
      have hq : V / val ds = q := by
        apply Int.le_antisymm
        · exact Int.lt_add_one_iff.mp (Int.ediv_lt_of_lt_mul hpos hlt)
        · exact Int.le_ediv_of_mul_le hpos hle
      refine ⟨w, by rw [hq], hw, hl, ?_⟩
      rw [Int.emod_def, hq, hv, Int.mul_comm q]
      omega
    · rw [if_pos (by simp)]
      have hlt' : V < q * val ds := by omega
      have hq1 : 1 ≤ q := by
        rcases Int.lt_or_le q 1 with h | h
        · have : q = 0 := by omega
          subst this
          omega
        · exact h
      obtain ⟨w', c', i1, i2, i3, i4, i5⟩ := addBack_eq hd hw hl (c := 0) (.inl rfl)
      simp only [i1, bind, Except.bind]
      refine ih (by omega) (by omega) (by rw [Int.sub_add_cancel]; exact hlt') i2 i3 (by omega) ?_
      rw [i5, hv, Int.sub_mul]
      grind

/-- One round of `divMod1` divides the window by the divisor. -/
theorem divStep_eq {init : Arr} {top : Int} (hd : Digits (init ++ [top])) (ht : 0 < top) {w : Arr}
    (hw : Digits w) (hl : w.length = init.length + 2) (hlt : val w < val (init ++ [top]) * 10000000) :
    ∃ w', divStep top (init ++ [top] ++ [0]) w = .ok (val w / val (init ++ [top]), w') ∧ Digits w' ∧
      w'.length = init.length + 2 ∧ val w' = val w % val (init ++ [top]) := by
  have hD : val (init ++ [top] ++ [0]) = val (init ++ [top]) := by
    rw [val_append]; simp [val]
  have hD2 : val (init ++ [top]) = val init + 10000000 ^ init.length * top := by
    rw [val_append]; simp [val]
  rw [digits_append] at hd
  have ht2 := digits_cons.mp hd.2
  have hi0 := val_nonneg hd.1
  have hilt := val_lt hd.1
  have hP := pow_pos' init.length
  have hpos : 0 < val (init ++ [top]) := by
    rw [hD2]
    have := Int.mul_pos hP ht
    omega
  have hds : Digits (init ++ [top] ++ [0]) :=
    digits_append.mpr ⟨digits_append.mpr hd, digits_cons.mpr ⟨by omega, digits_nil⟩⟩
  -- the top digits of the window
  obtain ⟨low, r0, r1, rfl⟩ : ∃ low r0 r1, w = low ++ [r0, r1] := by
    have hne : w ≠ [] := by rintro rfl; simp at hl
    have h1 := List.dropLast_concat_getLast hne
    have hne2 : w.dropLast ≠ [] := by
      intro h
      have := congrArg List.length h
      simp at this
      omega
    have h2 := List.dropLast_concat_getLast hne2
    refine ⟨w.dropLast.dropLast, w.dropLast.getLast hne2, w.getLast hne, ?_⟩
    rw [← List.singleton_append (l := [w.getLast hne]), ← List.append_assoc, h2, h1]
  have hll : low.length = init.length := by simp at hl; omega
  rw [digits_append] at hw
  have hr := digits_cons.mp hw.2
  have hr1 := (digits_cons.mp hr.2).1
  have hlow0 := val_nonneg hw.1
  have hlowlt := val_lt hw.1
  rw [hll] at hlowlt
  have hV : val (low ++ [r0, r1]) = val low + 10000000 ^ init.length * (r1 * 10000000 + r0) := by
    rw [val_append, hll]; simp [val]; grind
  have hV0 : 0 ≤ val (low ++ [r0, r1]) := val_nonneg (digits_append.mpr hw)
  generalize hPd : (10000000 : Int) ^ init.length = P at *
  -- the guess
  have hr1top : r1 ≤ top := by
    rcases Int.lt_or_le top r1 with h | h
    · exfalso
      have h1 : P * ((top + 1) * 10000000) ≤ P * (r1 * 10000000 + r0) :=
        Int.mul_le_mul_of_nonneg_left (by omega) (by omega)
      have h2 : val (init ++ [top]) * 10000000 ≤ P * ((top + 1) * 10000000) := by
        rw [hD2]; grind
      omega
    · exact h
  obtain ⟨g, hg, hg0, hg1, hgV⟩ : ∃ g, quotientGuess top r1 r0 = .ok g ∧ 0 ≤ g ∧ g ≤ 9999999 ∧
      val (low ++ [r0, r1]) < (g + 1) * val (init ++ [top]) := by
    unfold quotientGuess
    by_cases hne : r1 ≠ top
    · rw [if_pos hne, num_ok (by simp only [MAX_INT, BASE]; omega) (by simp only [MAX_INT, BASE]; omega)]
      refine ⟨(r1 * 10000000 + r0) / top, rfl, Int.ediv_nonneg (by omega) (by omega), ?_, ?_⟩
      · apply Int.lt_add_one_iff.mp
        apply Int.ediv_lt_of_lt_mul ht
        have : (r1 + 1) * 10000000 ≤ top * 10000000 := Int.mul_le_mul_of_nonneg_right (by omega) (by decide)
        omega
      · have h1 : r1 * 10000000 + r0 < ((r1 * 10000000 + r0) / top + 1) * top := Int.lt_ediv_add_one_mul_self _ ht
        generalize (r1 * 10000000 + r0) / top = g at *
        have h2 : P * (r1 * 10000000 + r0 + 1) ≤ P * ((g + 1) * top) :=
          Int.mul_le_mul_of_nonneg_left (by omega) (by omega)
        have hg0 : 0 ≤ g + 1 := by
          rcases Int.lt_or_le (g + 1) 0 with h | h
          · have := Int.mul_neg_of_neg_of_pos h ht
            omega
          · exact h
        have h3 : 0 ≤ (g + 1) * val init := Int.mul_nonneg hg0 hi0
        rw [hD2, hV]
        grind
    · rw [if_neg hne]
      refine ⟨9999999, rfl, by decide, by decide, ?_⟩
      omega
  obtain ⟨w', b', k, i1, i2, i3, i4, i5, i6, i7, _, i8⟩ := mulSub_eq hg0 hg1 hds (w := low ++ [r0, r1])
    (c := 0) (b := 0) (digits_append.mpr hw) (by simp; omega) (by omega) (by omega) (.inl rfl)
  have hk : k = 0 := i7 (init ++ [top]) rfl
  subst hk
  obtain ⟨w'', j1, j2, j3, j4⟩ := correct_eq hds (by rw [hD]; exact hpos) hV0 (g + 1).toNat
    (q := g) (w := w') (b := b') hg0 (by omega) (by rw [hD]; exact hgV) i2 i3 i4 (by rw [i8]; grind)
  refine ⟨w'', ?_, j2, by simpa using j3, by rw [j4, hD]⟩
  rw [hD] at j1
  unfold divStep
  rw [List.reverse_append]
  simp only [List.reverse_cons, List.reverse_nil, List.nil_append, List.cons_append]
  rw [hg]
  simp only [bind, Except.bind, i1]
  exact j1


theorem val_split {x : Arr} {n : Nat} (h : n ≤ x.length) :
    val x = val (x.take n) + 10000000 ^ n * val (x.drop n) := by
  conv => lhs; rw [← List.take_append_drop n x]
  rw [val_append, List.length_take, Nat.min_eq_left h]

theorem divLoop_eq {init : Arr} {top : Int} (hd : Digits (init ++ [top])) (ht : 0 < top) (shift : Nat) :
    ∀ {rem : Arr}, Digits rem → shift + init.length + 1 ≤ rem.length →
      val (rem.drop shift) < val (init ++ [top]) →
    ∃ qs r, divLoop top (init ++ [top] ++ [0]) shift rem = .ok (qs, r) ∧ Digits qs ∧ qs.length = shift ∧
      Digits r ∧ val r < val (init ++ [top]) ∧ val rem = val (init ++ [top]) * val qs + val r := by
  have hDlt := val_lt hd
  rw [List.length_append, List.length_singleton] at hDlt
  have hpos : 0 < val (init ++ [top]) := by
    rw [val_append]
    rw [digits_append] at hd
    have := val_nonneg hd.1
    have := Int.mul_pos (pow_pos' init.length) ht
    simp [val]
    omega
  have hdl : (init ++ [top] ++ [0]).length = init.length + 2 := by simp
  induction shift with
  | zero =>
    intro rem hr hl hlt
    exact ⟨[], rem, rfl, digits_nil, rfl, hr, by simpa using hlt, by simp [val]⟩
  | succ s ih =>
    intro rem hr hl hlt
    have hdr := digits_drop hr s
    have hcons : rem.drop s = rem[s]'(by omega) :: rem.drop (s + 1) := List.drop_eq_getElem_cons (by omega)
    have hx : 0 ≤ rem[s]'(by omega) ∧ rem[s]'(by omega) < 10000000 := hr _ (List.getElem_mem _)
    have hVlt : val (rem.drop s) < val (init ++ [top]) * 10000000 := by
      rw [hcons, val]
      omega
    have hsp := val_split (x := rem.drop s) (n := init.length + 2) (by rw [List.length_drop]; omega)
    have hhi : val ((rem.drop s).drop (init.length + 2)) = 0 := by
      have h0 := val_nonneg (digits_drop hdr (init.length + 2))
      have h1 := val_nonneg (digits_take hdr (init.length + 2))
      rcases Int.lt_or_le 0 (val ((rem.drop s).drop (init.length + 2))) with h | h
      · exfalso
        have h2 : (10000000 : Int) ^ (init.length + 2) * 1 ≤
            10000000 ^ (init.length + 2) * val ((rem.drop s).drop (init.length + 2)) :=
          Int.mul_le_mul_of_nonneg_left (by omega) (Int.le_of_lt (pow_pos' _))
        have hpw : (10000000 : Int) ^ (init.length + 2) = 10000000 ^ (init.length + 1) * 10000000 :=
          Int.pow_succ _ _
        generalize 10000000 ^ (init.length + 2) * val ((rem.drop s).drop (init.length + 2)) = T at *
        generalize (10000000 : Int) ^ (init.length + 2) = U at *
        generalize (10000000 : Int) ^ (init.length + 1) = U' at *
        omega
      · omega
    rw [hhi, Int.mul_zero, Int.add_zero] at hsp
    have hwl : ((rem.drop s).take (init.length + 2)).length = init.length + 2 := by
      rw [List.length_take, List.length_drop]; omega
    obtain ⟨w', i1, i2, i3, i4⟩ := divStep_eq hd ht (digits_take hdr (init.length + 2)) hwl (by omega)
    rw [← hsp] at i1 i4
    have hV0 := val_nonneg hdr
    have hq0 : 0 ≤ val (rem.drop s) / val (init ++ [top]) := Int.ediv_nonneg hV0 (Int.le_of_lt hpos)
    have hq1 : val (rem.drop s) / val (init ++ [top]) < 10000000 :=
      Int.ediv_lt_of_lt_mul hpos (by rw [Int.mul_comm]; exact hVlt)
    have hts : (rem.take s).length = s := by rw [List.length_take]; omega
    have hdd : rem.drop (s + (init.length + 2)) = (rem.drop s).drop (init.length + 2) := by
      rw [List.drop_drop]
    have hval' : val (w' ++ rem.drop (s + (init.length + 2))) = val (rem.drop s) % val (init ++ [top]) := by
      rw [val_append, hdd, hhi, i4]
      omega
    have hrem' : Digits (rem.take s ++ w' ++ rem.drop (s + (init.length + 2))) :=
      digits_append.mpr ⟨digits_append.mpr ⟨digits_take hr s, i2⟩, digits_drop hr _⟩
    obtain ⟨qs, r, j1, j2, j3, j4, j5, j6⟩ := ih hrem'
      (by simp only [List.length_append, hts, i3]; omega)
      (by
        rw [List.append_assoc, List.drop_left' hts, hval']
        exact Int.emod_lt_of_pos _ hpos)
    refine ⟨qs ++ [val (rem.drop s) / val (init ++ [top])], r, ?_, ?_, by simp [j3], j4, j5, ?_⟩
    · rw [divLoop, hdl, i1]
      simp only [bind, Except.bind, j1]
    · exact digits_append.mpr ⟨j2, digits_cons.mpr ⟨⟨hq0, hq1⟩, digits_nil⟩⟩
    · rw [val_append qs, j3]
      rw [List.append_assoc, val_append, hts, hval'] at j6
      have hs2 := val_split (x := rem) (n := s) (by omega)
      have hdm := Int.mul_ediv_add_emod (val (rem.drop s)) (val (init ++ [top]))
      simp only [val, Int.mul_zero, Int.add_zero]
      generalize val (rem.drop s) / val (init ++ [top]) = Q at *
      generalize val (rem.drop s) % val (init ++ [top]) = M at *
      generalize (10000000 : Int) ^ s = P at *
      generalize val (init ++ [top]) = D at *
      grind

theorem lambda_bounds {d : Int} (h0 : 0 < d) (h1 : d < 10000000) :
    0 < (10000000 + 2 * d - 1) / (2 * d) ∧ (10000000 + 2 * d - 1) / (2 * d) ≤ 5000000 ∧
      (d + 1) * ((10000000 + 2 * d - 1) / (2 * d)) ≤ 10000000 := by
  have ha := Int.mul_ediv_add_emod (10000000 + 2 * d - 1) (2 * d)
  have hm0 := Int.emod_nonneg (10000000 + 2 * d - 1) (show 2 * d ≠ 0 by omega)
  have hm1 := Int.emod_lt_of_pos (10000000 + 2 * d - 1) (show 0 < 2 * d by omega)
  generalize (10000000 + 2 * d - 1) % (2 * d) = m at *
  have hpos : 0 < (10000000 + 2 * d - 1) / (2 * d) := by
    have : 1 ≤ (10000000 + 2 * d - 1) / (2 * d) := Int.le_ediv_of_mul_le (by omega) (by omega)
    omega
  generalize (10000000 + 2 * d - 1) / (2 * d) = l at *
  -- `2 * d * (l - 1) < 10000000`
  have hk : 2 * d * l = 2 * (d * l) := by rw [Int.mul_assoc]
  rw [hk] at ha
  have hexp : (d + 1) * l = d * l + l := by rw [Int.add_mul, Int.one_mul]
  rw [hexp]
  rcases (show d = 1 ∨ 2 ≤ d by omega) with rfl | hd
  · simp only [Int.one_mul] at *
    omega
  rcases (show l = 1 ∨ l = 2 ∨ 3 ≤ l by omega) with rfl | rfl | hl
  · omega
  · omega
  · have h2 : 0 ≤ (d - 2) * (l - 3) := Int.mul_nonneg (by omega) (by omega)
    have h3 : (d - 2) * (l - 3) = d * l - 3 * d - 2 * l + 6 := by grind
    omega

theorem divMod1_eq {a b : Arr} (ha : Digits a) (hb : Digits b) (ta : Trimmed a) (tb : Trimmed b)
    (hb0 : 0 < val b) (hle : val b ≤ val a) :
    ∃ q m, divMod1 a b = .ok (arrayToSmall q, arrayToSmall m) ∧ Digits q ∧ Digits m ∧
      val q = val a / val b ∧ val m = val a % val b := by
  have hbne : b ≠ [] := by rintro rfl; simp [val] at hb0
  have hane : a ≠ [] := by rintro rfl; simp [val] at hle; omega
  obtain ⟨binit, d, rfl⟩ : ∃ binit d, b = binit ++ [d] :=
    ⟨b.dropLast, b.getLast hbne, (List.dropLast_concat_getLast hbne).symm⟩
  have hlen := length_le ha hb tb hle
  have hd : 0 ≤ d ∧ d < 10000000 := hb d (by simp)
  have hd0 : 0 < d := by
    have : d ≠ 0 := by simpa [Trimmed] using tb
    omega
  obtain ⟨hl0, hl1, hl2⟩ := lambda_bounds hd0 hd.2
  unfold divMod1
  rw [List.getLast?_concat]
  simp only [BASE]
  generalize (10000000 + 2 * d - 1) / (2 * d) = l at *
  obtain ⟨ra, a1, a2, a3, a4⟩ := multiplySmall_eq ha hl0 (show l ≤ 40000000 by omega)
  obtain ⟨rb, b1, b2, b3, b4⟩ := multiplySmall_eq hb hl0 (show l ≤ 40000000 by omega)
  have ta' := a3 ta
  have tb' := b3 tb
  have hbl : (binit ++ [d]).length = binit.length + 1 := by simp
  -- the divisor keeps its length
  have hrb0 : 0 < val rb := by rw [b4]; exact Int.mul_pos hb0 hl0
  have hrbne : rb ≠ [] := by rintro rfl; simp [val] at hrb0
  have hrblt : val rb < 10000000 ^ (binit.length + 1) := by
    rw [b4, val_append]
    have hi := val_lt (digits_append.mp hb).1
    have hP := pow_pos' binit.length
    simp only [val, Int.mul_zero, Int.add_zero]
    have h1 : (val binit + 10000000 ^ binit.length * d) * l <
        (10000000 ^ binit.length * (d + 1)) * l := by
      apply Int.mul_lt_mul_of_pos_right _ hl0
      rw [Int.mul_add]
      omega
    have h2 : 10000000 ^ binit.length * ((d + 1) * l) ≤ 10000000 ^ binit.length * 10000000 :=
      Int.mul_le_mul_of_nonneg_left hl2 (Int.le_of_lt hP)
    rw [Int.mul_assoc] at h1
    rw [Int.pow_succ]
    omega
  have hrbl : rb.length = binit.length + 1 := by
    apply Nat.le_antisymm
    · have h1 := pow_le_val b2 tb' hrbne
      rcases Nat.lt_or_ge (binit.length + 1) rb.length with h | h
      · exfalso
        have h2 := pow_mono (show binit.length + 2 ≤ rb.length by omega)
        rw [Int.pow_succ] at h2
        omega
      · exact h
    · have h1 : val (binit ++ [d]) ≤ val rb := by
        rw [b4]
        have : val (binit ++ [d]) * 1 ≤ val (binit ++ [d]) * l :=
          Int.mul_le_mul_of_nonneg_left (by omega) (by omega)
        omega
      have := length_le b2 hb tb h1
      omega
  obtain ⟨init, top, rfl⟩ : ∃ init top, rb = init ++ [top] :=
    ⟨rb.dropLast, rb.getLast hrbne, (List.dropLast_concat_getLast hrbne).symm⟩
  have hil : init.length = binit.length := by simpa using hrbl
  have htop : 0 ≤ top ∧ top < 10000000 := b2 top (by simp)
  have htop0 : 0 < top := by
    have : top ≠ 0 := by simpa [Trimmed] using tb'
    omega
  -- the remainder has one digit more than `a`
  have hra0 : ra ≠ [] := by
    rintro rfl
    simp only [val] at a4
    have : 0 < val a * l := Int.mul_pos (by omega) hl0
    omega
  have hraub : ra.length ≤ a.length + 1 := by
    rcases Nat.lt_or_ge (a.length + 1) ra.length with h | h
    · exfalso
      have h1 := pow_le_val a2 ta' hra0
      have h2 := pow_mono (show a.length + 2 ≤ ra.length by omega)
      have h3 := val_lt ha
      have h4 : val a * l ≤ val a * 10000000 := Int.mul_le_mul_of_nonneg_left (by omega) (by omega)
      rw [show a.length + 2 = a.length + 1 + 1 from rfl, Int.pow_succ, Int.pow_succ] at h2
      omega
    · exact h
  have hralb : a.length ≤ ra.length := by
    apply length_le a2 ha ta
    rw [a4]
    have : val a * 1 ≤ val a * l := Int.mul_le_mul_of_nonneg_left (by omega) (by omega)
    omega
  obtain ⟨rem, hrem, hremd, hreml, hremv⟩ : ∃ rem, (if ra.length ≤ a.length then ra ++ [0] else ra) = rem ∧
      Digits rem ∧ rem.length = a.length + 1 ∧ val rem = val a * l := by
    by_cases h : ra.length ≤ a.length
    · rw [if_pos h]
      refine ⟨_, rfl, digits_append.mpr ⟨a2, digits_cons.mpr ⟨by omega, digits_nil⟩⟩, by simp; omega, ?_⟩
      rw [val_append, a4]
      simp [val]
    · rw [if_neg h]
      exact ⟨_, rfl, a2, by omega, a4⟩
  rw [hbl] at hlen
  -- the digits of the remainder at the first shift are less than the divisor
  have hfirst : val (rem.drop (a.length + 1 - (binit.length + 1))) < val (init ++ [top]) := by
    have hsp := val_split (x := rem) (n := a.length + 1 - (binit.length + 1)) (by omega)
    have h0 := val_nonneg (digits_take hremd (a.length + 1 - (binit.length + 1)))
    have hav := val_lt ha
    have hP := pow_pos' (a.length + 1 - (binit.length + 1))
    -- `val rem < 10000000 ^ a.length * l ≤ 10000000 ^ s * (10000000 ^ binit.length * l)`
    have h1 : val rem < 10000000 ^ a.length * l := by
      rw [hremv]
      exact Int.mul_lt_mul_of_pos_right hav hl0
    have h2 : (10000000 : Int) ^ a.length =
        10000000 ^ (a.length + 1 - (binit.length + 1)) * 10000000 ^ binit.length := by
      rw [← Int.pow_add]
      congr 1
      omega
    rw [h2, Int.mul_assoc] at h1
    have h3 : 10000000 ^ (a.length + 1 - (binit.length + 1)) *
        val (rem.drop (a.length + 1 - (binit.length + 1))) <
        10000000 ^ (a.length + 1 - (binit.length + 1)) * (10000000 ^ binit.length * l) := by omega
    have h4 := Int.lt_of_mul_lt_mul_left h3 (Int.le_of_lt hP)
    have h5 : 10000000 ^ binit.length * l ≤ val (init ++ [top]) := by
      rw [b4]
      apply Int.mul_le_mul_of_nonneg_right _ (Int.le_of_lt hl0)
      have := pow_le_val hb tb (by simp)
      rw [hbl, Int.pow_succ] at this
      omega
    omega
  obtain ⟨qs, r, j1, j2, j3, j4, j5, j6⟩ := divLoop_eq b2 htop0 (a.length + 1 - (binit.length + 1)) hremd
    (by omega) hfirst
  obtain ⟨m, x, k1, k2, k3, k4, k5, k6⟩ := divModSmallLoop_eq hl0 (by omega) (digits_reverse.mpr j4) 0
    (Int.le_refl _) hl0
  rw [List.reverse_reverse, Int.zero_mul, Int.zero_add] at k6
  have hB := hb0
  have hr0 := val_nonneg j4
  -- the quotient and the remainder
  have e1 : val a * l = val (binit ++ [d]) * l * val qs + val r := by rw [← hremv, j6, b4]
  have hmod : val r = l * (val a - val (binit ++ [d]) * val qs) := by grind
  have hx : x = 0 := by
    have h1 : l * (val a - val (binit ++ [d]) * val qs - val m.reverse) = x := by grind
    rcases Int.lt_or_le 0 (val a - val (binit ++ [d]) * val qs - val m.reverse) with h | h
    · have := Int.mul_le_mul_of_nonneg_left (show 1 ≤ val a - val (binit ++ [d]) * val qs - val m.reverse by omega)
        (Int.le_of_lt hl0)
      omega
    · have := Int.mul_le_mul_of_nonneg_left h (Int.le_of_lt hl0)
      omega
  have hmv : val m.reverse = val a - val (binit ++ [d]) * val qs := by
    have h1 : l * val m.reverse = l * (val a - val (binit ++ [d]) * val qs) := by omega
    exact Int.eq_of_mul_eq_mul_left (by omega) h1
  have hmlt : val m.reverse < val (binit ++ [d]) := by
    have h1 : l * val m.reverse < l * val (binit ++ [d]) := by
      rw [Int.mul_comm l (val (binit ++ [d])), ← b4]
      omega
    exact Int.lt_of_mul_lt_mul_left h1 (Int.le_of_lt hl0)
  have hm0 : 0 ≤ val m.reverse := val_nonneg (digits_reverse.mpr k3)
  have hdiv : val a / val (binit ++ [d]) = val qs ∧ val a % val (binit ++ [d]) = val m.reverse := by
    have : val a = val m.reverse + val (binit ++ [d]) * val qs := by omega
    rw [this]
    exact ⟨by rw [Int.add_mul_ediv_left _ _ (by omega), Int.ediv_eq_zero_of_lt hm0 hmlt]; omega,
      by rw [Int.add_mul_emod_self_left, Int.emod_eq_of_lt hm0 hmlt]⟩
  refine ⟨qs ++ List.replicate (binit.length + 1 - qs.length) 0, m.reverse, ?_, ?_, digits_reverse.mpr k3, ?_,
    hdiv.2.symm⟩
  · have hget : (init ++ [top] ++ [0])[binit.length + 1 - 1]? = some top := by
      rw [Nat.add_sub_cancel, ← hil, List.append_assoc]
      simp
    simp only [a1, b1, bind, Except.bind, hbl, hrem, hget, j1, k1]
  · exact digits_append.mpr ⟨j2, digits_zeros _⟩
  · rw [val_append, val_zeros, hdiv.1]
    omega

/-! ### `divMod2` -/

theorem rat_le_div {a b c : Rat} (hc : 0 < c) (h : a * c ≤ b) : a ≤ b / c :=
  Rat.not_lt.mp fun hlt => Rat.not_lt.mpr h ((Rat.div_lt_iff hc).mp hlt)

theorem rat_div_le {a b c : Rat} (hc : 0 < c) (h : b ≤ a * c) : b / c ≤ a :=
  Rat.not_lt.mp fun hlt => Rat.not_lt.mpr h ((Rat.lt_div_iff hc).mp hlt)

theorem cast_le {a b : Int} (h : a ≤ b) : (a : Rat) ≤ (b : Rat) := Rat.intCast_le_intCast.mpr h

theorem large_pow : (2 : Rat) ^ 100 ≤ 2 ^ 1023 := by decide +kernel

theorem pow_nonneg' (n : Nat) : (0 : Rat) ≤ 2 ^ n := Rat.pow_nonneg (by decide)

theorem rat_pow_add (a : Rat) (m n : Nat) : a ^ (m + n) = a ^ m * a ^ n := by
  induction n with
  | zero => simp
  | succ n ih => rw [← Nat.add_assoc, Rat.pow_succ, Rat.pow_succ, ih, Rat.mul_assoc]

theorem isDouble_mul {m : Int} {e : Nat} (hm : m.natAbs < 2 ^ 53) (he : e ≤ 971) :
    Spec.IsDouble (m * 2 ^ e) := by
  refine ⟨m, e + 1074, hm, by omega, ?_⟩
  have h : (2 : Rat) ^ 1074 ≠ 0 := by decide +kernel
  rw [rat_pow_add]
  generalize (2 : Rat) ^ 1074 = T at *
  grind

theorem isDouble_half {m : Int} (hm : m.natAbs < 2 ^ 53) : Spec.IsDouble (m / 2 ^ 1) := by
  refine ⟨m, 1073, hm, by omega, ?_⟩
  have h : (2 : Rat) ^ 1073 ≠ 0 := by decide +kernel
  have h2 : (2 : Rat) ^ 1074 = 2 ^ 1073 * 2 := Rat.pow_succ 2 1073
  rw [h2]
  generalize (2 : Rat) ^ 1073 = T at *
  have : (2 : Rat) ^ 1 = 2 := rfl
  grind

theorem Rounding.exact {fl : Rat → Rat} (hfl : Spec.Rounding fl) {x : Rat} (h0 : 0 ≤ x)
    (h1 : x ≤ 2 ^ 100) (hd : Spec.IsDouble x) : fl x = x := by
  have hp := large_pow
  have hn := pow_nonneg' 1023
  have := (hfl x (by grind) (by grind)).2 x hd
  unfold Spec.ratDist at this
  split at this <;> split at this <;> grind

theorem Rounding.mono {fl : Rat → Rat} (hfl : Spec.Rounding fl) {x y : Rat} (h0 : 0 ≤ x)
    (hy : y ≤ 2 ^ 100) (h : x ≤ y) : fl x ≤ fl y := by
  have hp := large_pow
  have hn := pow_nonneg' 1023
  obtain ⟨dx, nx⟩ := hfl x (by grind) (by grind)
  obtain ⟨dy, ny⟩ := hfl y (by grind) (by grind)
  have h1 := nx _ dy
  have h2 := ny _ dx
  by_cases he : x = y
  · rw [he]
    exact Rat.le_refl
  unfold Spec.ratDist at h1 h2
  refine Rat.not_lt.mp fun hlt => ?_
  split at h1 <;> split at h1 <;> split at h2 <;> split at h2 <;> grind

theorem small_le {m : Int} (h : m ≤ 2 ^ 99) : (m : Rat) ≤ 2 ^ 100 :=
  Rat.le_trans (cast_le h) (by decide +kernel)

theorem cast_nonneg {m : Int} (h : 0 ≤ m) : (0 : Rat) ≤ (m : Rat) := cast_le h

theorem fl_int {fl : Rat → Rat} (hfl : Spec.Rounding fl) {m : Int} (h0 : 0 ≤ m) (h : m.natAbs < 2 ^ 53) :
    fl m = m := by
  have := isDouble_mul (e := 0) h (by omega)
  rw [show (m : Rat) * 2 ^ 0 = m by simp] at this
  exact Rounding.exact hfl (cast_nonneg h0) (small_le (by omega)) this

theorem two_top {w : Arr} (h : 2 ≤ w.length) : ∃ low r0 r1, w = low ++ [r0, r1] := by
  have hne : w ≠ [] := by rintro rfl; simp at h
  have h1 := List.dropLast_concat_getLast hne
  have hne2 : w.dropLast ≠ [] := by
    intro h
    have := congrArg List.length h
    simp at this
    omega
  have h2 := List.dropLast_concat_getLast hne2
  refine ⟨w.dropLast.dropLast, w.dropLast.getLast hne2, w.getLast hne, ?_⟩
  rw [← List.singleton_append (l := [w.getLast hne]), ← List.append_assoc, h2, h1]

theorem guessOf_eq {fl : Rat → Rat} (hfl : Spec.Rounding fl) {part b : Arr} (hp : Digits part)
    (hb : Digits b) (tp : Trimmed part) (tb : Trimmed b) (hbl : 2 ≤ b.length) (hle : val b ≤ val part)
    (hlt : val part < val b * 10000000) :
    ∃ g, guessOf fl part b = .ok g ∧ val part / val b ≤ g ∧ g ≤ 40000000 := by
  have hlen := length_le hp hb tb hle
  have hb0 : 0 < val b := by
    have h1 := pow_le_val hb tb (by rintro rfl; simp at hbl)
    have h2 := pow_pos' b.length
    omega
  have hlen2 : part.length ≤ b.length + 1 := by
    rcases Nat.lt_or_ge (b.length + 1) part.length with h | h
    · exfalso
      have h1 := pow_le_val hp tp (by rintro rfl; simp at h)
      have h2 := pow_mono (show b.length + 2 ≤ part.length by omega)
      have h3 := val_lt hb
      rw [show b.length + 2 = b.length + 1 + 1 from rfl, Int.pow_succ, Int.pow_succ] at h2
      omega
    · exact h
  obtain ⟨plow, x0, x1, rfl⟩ := two_top (w := part) (by omega)
  obtain ⟨blow, y0, y1, rfl⟩ := two_top hbl
  rw [digits_append] at hp hb
  have hx0 := (digits_cons.mp hp.2).1
  have hx1 := (digits_cons.mp (digits_cons.mp hp.2).2).1
  have hy0 := (digits_cons.mp hb.2).1
  have hy1 := (digits_cons.mp (digits_cons.mp hb.2).2).1
  have hy1' : y1 ≠ 0 := by
    have : (blow ++ [y0, y1]).getLast? = some y1 := by simp
    intro h
    exact tb (by rw [this, h])
  have hpl0 := val_nonneg hp.1
  have hpl1 := val_lt hp.1
  have hbl0 := val_nonneg hb.1
  have hbl1 := val_lt hb.1
  have hpv : val (plow ++ [x0, x1]) = val plow + 10000000 ^ plow.length * (x1 * 10000000 + x0) := by
    rw [val_append]; simp [val]; grind
  have hbv : val (blow ++ [y0, y1]) = val blow + 10000000 ^ blow.length * (y1 * 10000000 + y0) := by
    rw [val_append]; simp [val]; grind
  have hq := Int.ediv_mul_le (val (plow ++ [x0, x1])) (show val (blow ++ [y0, y1]) ≠ 0 by omega)
  have hq0 : 0 ≤ val (plow ++ [x0, x1]) / val (blow ++ [y0, y1]) := Int.ediv_nonneg (by omega) (by omega)
  have hqpos : 1 ≤ val (plow ++ [x0, x1]) / val (blow ++ [y0, y1]) := Int.le_ediv_of_mul_le hb0 (by omega)
  have hq1 : val (plow ++ [x0, x1]) / val (blow ++ [y0, y1]) < 10000000 :=
    Int.ediv_lt_of_lt_mul hb0 (by rw [Int.mul_comm]; exact hlt)
  generalize val (plow ++ [x0, x1]) / val (blow ++ [y0, y1]) = q at *
  have hX : num (x1 * BASE + x0) = .ok (x1 * 10000000 + x0) :=
    num_ok (by simp only [MAX_INT, BASE]; omega) (by simp only [MAX_INT, BASE]; omega)
  have hY : num (y1 * BASE + y0) = .ok (y1 * 10000000 + y0) :=
    num_ok (by simp only [MAX_INT, BASE]; omega) (by simp only [MAX_INT, BASE]; omega)
  have hXb : 0 ≤ x1 * 10000000 + x0 ∧ x1 * 10000000 + x0 ≤ 99999999999999 := by omega
  have hYb : 10000000 ≤ y1 * 10000000 + y0 := by omega
  have hP := pow_pos' blow.length
  unfold guessOf
  rw [List.reverse_append, List.reverse_append]
  simp only [List.reverse_cons, List.reverse_nil, List.nil_append, List.cons_append, hX, hY, bind, Except.bind]
  generalize x1 * 10000000 + x0 = X at *
  generalize y1 * 10000000 + y0 = Y at *
  have hYpos : (0 : Rat) < (Y : Rat) := by
    have := Rat.intCast_lt_intCast.mpr (show (0 : Int) < Y by omega)
    simpa using this
  have hqb : q * (10000000 ^ blow.length * Y) ≤ q * val (blow ++ [y0, y1]) :=
    Int.mul_le_mul_of_nonneg_left (by omega) hq0
  refine ⟨_, rfl, ?_⟩
  by_cases h : (plow ++ [x0, x1]).length > (blow ++ [y0, y1]).length
  · -- one digit more
    have hl : plow.length = blow.length + 1 := by simp at h hlen2; omega
    rw [if_pos h]
    rw [hl, Int.pow_succ] at hpl1 hpv
    generalize (10000000 : Int) ^ blow.length = P at *
    have hqH : q * Y < (X + 1) * 10000000 := by
      have h1 : P * (q * Y) < P * ((X + 1) * 10000000) := by grind
      exact Int.lt_of_mul_lt_mul_left h1 (Int.le_of_lt hP)
    have hXY : X ≤ Y := by
      have h1 : P * X < P * (Y + 1) := by
        rw [Int.mul_add, Int.mul_one]
        have : P * 10000000 * X = 10000000 * (P * X) := by grind
        omega
      exact Int.lt_add_one_iff.mp (Int.lt_of_mul_lt_mul_left h1 (Int.le_of_lt hP))
    have hcast : ((X : Rat) + 1) * ((10000000 : Int) : Rat) = (((X + 1) * 10000000 : Int) : Rat) := by
      simp [Rat.intCast_mul, Rat.intCast_add]
    have hk0 : 0 ≤ (X + 1) * 10000000 := by omega
    have hkH : (X + 1) * 10000000 ≤ 1000000000000000000000 := by omega
    have hYH : (X + 1) * 10000000 ≤ (Y + 1) * 10000000 := by omega
    show q ≤ (fl (fl (((X : Rat) + 1) * ((10000000 : Int) : Rat)) / Y)).ceil ∧
      (fl (fl (((X : Rat) + 1) * ((10000000 : Int) : Rat)) / Y)).ceil ≤ 40000000
    rw [hcast]
    generalize (X + 1) * 10000000 = H at *
    have e1 : ((H / 131072 * 131072 : Int) : Rat) = ((H / 131072 : Int) : Rat) * 2 ^ 17 := by
      rw [Rat.intCast_mul]; rfl
    have e2 : (((H / 131072 + 1) * 131072 : Int) : Rat) = ((H / 131072 + 1 : Int) : Rat) * 2 ^ 17 := by
      rw [Rat.intCast_mul]; rfl
    have hlo : ((H / 131072 * 131072 : Int) : Rat) ≤ fl H := by
      have := isDouble_mul (m := H / 131072) (e := 17) (by omega) (by decide)
      rw [← e1] at this
      rw [← Rounding.exact hfl (cast_nonneg (by omega)) (small_le (by omega)) this]
      exact Rounding.mono hfl (cast_nonneg (by omega)) (small_le (by omega)) (cast_le (by omega))
    have hhi : fl H ≤ (((H / 131072 + 1) * 131072 : Int) : Rat) := by
      have := isDouble_mul (m := H / 131072 + 1) (e := 17) (by omega) (by decide)
      rw [← e2] at this
      rw [← Rounding.exact hfl (cast_nonneg (by omega)) (small_le (by omega)) this]
      exact Rounding.mono hfl (cast_nonneg (by omega)) (small_le (by omega)) (cast_le (by omega))
    generalize fl (H : Rat) = F at *
    have hF : F / Y ≤ ((40000000 : Int) : Rat) := by
      apply rat_div_le hYpos
      rw [← Rat.intCast_mul]
      exact Rat.le_trans hhi (cast_le (by omega))
    have hF' : F / Y ≤ 2 ^ 100 := Rat.le_trans hF (small_le (by decide))
    have hF0 : 0 ≤ F / Y := by
      apply rat_le_div hYpos
      have : (0 : Rat) ≤ ((H / 131072 * 131072 : Int) : Rat) := cast_nonneg (by omega)
      grind
    constructor
    · have h1 : ((2 * q - 1 : Int) : Rat) / 2 ^ 1 ≤ F / Y := by
        apply rat_le_div hYpos
        have h2 : ((2 * q - 1) * Y : Int) ≤ 2 * (H / 131072 * 131072) := by
          have : (2 * q - 1) * Y = 2 * (q * Y) - Y := by grind
          omega
        have h3 := cast_le h2
        rw [Rat.intCast_mul, Rat.intCast_mul] at h3
        have h4 : ((2 : Int) : Rat) = 2 := rfl
        rw [h4] at h3
        grind
      have h1' : (0 : Rat) ≤ ((2 * q - 1 : Int) : Rat) / 2 ^ 1 := by
        apply rat_le_div (by decide)
        have : (0 : Rat) ≤ ((2 * q - 1 : Int) : Rat) := cast_nonneg (by omega)
        grind
      have h2 := Rounding.mono hfl h1' hF' h1
      rw [Rounding.exact hfl h1' (Rat.le_trans h1 hF') (isDouble_half (by omega))] at h2
      have h3 : (q - 1 : Int) < (fl (F / Y)).ceil := by
        rw [Rat.lt_ceil_iff]
        have h5 : ((q - 1 : Int) : Rat) < ((2 * q - 1 : Int) : Rat) / 2 ^ 1 := by
          rw [Rat.lt_div_iff (by decide)]
          have : ((q - 1 : Int) : Rat) * 2 ^ 1 = (((q - 1) * 2 : Int) : Rat) := by
            rw [Rat.intCast_mul]; rfl
          rw [this]
          exact Rat.intCast_lt_intCast.mpr (by omega)
        exact Rat.not_le.mp fun h => Rat.not_le.mpr h5 (Rat.le_trans h2 h)
      omega
    · rw [Rat.ceil_le_iff]
      have h2 := Rounding.mono hfl hF0 (small_le (by decide)) hF
      rw [fl_int hfl (by decide) (by decide)] at h2
      exact h2
  · -- as many digits
    have hl : plow.length = blow.length := by simp at h hlen; omega
    rw [if_neg h]
    rw [hl] at hpl1 hpv
    generalize (10000000 : Int) ^ blow.length = P at *
    have hqX : q * Y ≤ X := by
      have h1 : P * (q * Y) < P * (X + 1) := by grind
      exact Int.lt_add_one_iff.mp (Int.lt_of_mul_lt_mul_left h1 (Int.le_of_lt hP))
    have h1' : (X : Rat) / Y ≤ ((40000000 : Int) : Rat) := by
      apply rat_div_le hYpos
      rw [← Rat.intCast_mul]
      exact cast_le (by omega)
    constructor
    · have h1 : ((q : Int) : Rat) ≤ X / Y := by
        apply rat_le_div hYpos
        rw [← Rat.intCast_mul]
        exact cast_le hqX
      have h2 := Rounding.mono hfl (cast_nonneg hq0) (Rat.le_trans h1' (small_le (by decide))) h1
      rw [fl_int hfl hq0 (by omega)] at h2
      exact Rat.intCast_le_intCast.mp (Rat.le_trans h2 Rat.le_ceil)
    · rw [Rat.ceil_le_iff]
      have h1 : 0 ≤ (X : Rat) / Y := by
        apply rat_le_div hYpos
        have := cast_nonneg hXb.1
        grind
      have h2 := Rounding.mono hfl h1 (small_le (by decide)) h1'
      rw [fl_int hfl (by decide) (by decide)] at h2
      exact h2

theorem guessLoop_eq {part b : Arr} (hp : Digits part) (hb : Digits b) (tp : Trimmed part)
    (tb : Trimmed b) (hb0 : 0 < val b) (hle : val b ≤ val part) (g : Nat) :
    val part / val b ≤ g → g ≤ 40000000 → ∃ check, guessLoop b part g = .ok (val part / val b, check) ∧
      Digits check ∧ Trimmed check ∧ val check = val b * (val part / val b) := by
  have hq1 : 1 ≤ val part / val b := Int.le_ediv_of_mul_le hb0 (by omega)
  have hqle := Int.ediv_mul_le (val part) (show val b ≠ 0 by omega)
  have hqlt := Int.lt_ediv_add_one_mul_self (val part) hb0
  induction g with
  | zero => intro h; omega
  | succ g ih =>
    intro h hg
    obtain ⟨check, c1, c2, c3, c4⟩ := multiplySmall_eq hb (b := ((g + 1 : Nat) : Int)) (by omega) (by omega)
    rw [guessLoop, c1]
    simp only [bind, Except.bind]
    rw [compareAbs_eq c2 hp (c3 tb) tp, c4]
    generalize hQ : val part / val b = Q at *
    by_cases he : Q = ((g + 1 : Nat) : Int)
    · rw [if_pos]
      · exact ⟨check, by rw [he], c2, c3 tb, by rw [c4, he]⟩
      · rw [he, Int.mul_comm] at hqle
        unfold cmp
        split
        · decide
        · split
          · decide
          · omega
    · have hgt : val part < val b * ((g + 1 : Nat) : Int) := by
        have : (Q + 1) * val b ≤ ((g + 1 : Nat) : Int) * val b :=
          Int.mul_le_mul_of_nonneg_right (by omega) (by omega)
        rw [Int.mul_comm (val b)]
        omega
      rw [if_neg, if_neg (by omega)]
      · exact ih (by omega) (by omega)
      · unfold cmp
        rw [if_neg (by omega), if_neg (by omega)]
        decide

theorem divMod2Loop_eq {fl : Rat → Rat} (hfl : Spec.Rounding fl) {b : Arr} (hb : Digits b)
    (tb : Trimmed b) (hbl : 2 ≤ b.length) {xs : Arr} (hx : Digits xs) :
    ∀ {part : Arr}, Digits part → Trimmed part → val part < val b →
    ∃ q p, divMod2Loop fl b xs part = .ok (q, p) ∧ q.length = xs.length ∧ Digits q ∧ Digits p ∧
      Trimmed p ∧ val p < val b ∧
      val part * 10000000 ^ xs.length + val xs.reverse = val b * val q.reverse + val p := by
  have hb0 : 0 < val b := by
    have h1 := pow_le_val hb tb (by rintro rfl; simp at hbl)
    have h2 := pow_pos' b.length
    omega
  induction xs with
  | nil => intro part hp tp hlt; exact ⟨[], part, rfl, rfl, digits_nil, hp, tp, hlt, by simp [val]⟩
  | cons x xs ih =>
    intro part hp tp hlt
    rw [digits_cons] at hx
    have hd : Digits (trim (x :: part)) := digits_trim (digits_cons.mpr ⟨hx.1, hp⟩)
    have ht := trimmed_trim (x :: part)
    have hv : val (trim (x :: part)) = x + 10000000 * val part := by rw [val_trim, val]
    have hv0 := val_nonneg hd
    have hub : val (trim (x :: part)) < val b * 10000000 := by omega
    rw [divMod2Loop]
    simp only
    rw [compareAbs_eq hd hb ht tb]
    by_cases hc : val (trim (x :: part)) < val b
    · rw [if_pos (by rw [cmp, if_pos hc]; decide)]
      obtain ⟨q, p, i1, i2, i3, i4, i5, i6, i7⟩ := ih hx.2 hd ht hc
      refine ⟨0 :: q, p, by simp only [i1, bind, Except.bind], by simp [i2],
        digits_cons.mpr ⟨by omega, i3⟩, i4, i5, i6, ?_⟩
      rw [List.reverse_cons, List.reverse_cons, val_append, val_append, List.length_reverse,
        List.length_reverse, i2, List.length_cons, Int.pow_succ]
      rw [hv] at i7
      simp only [val, Int.mul_zero, Int.add_zero]
      generalize (10000000 : Int) ^ xs.length = P at *
      grind
    · rw [if_neg (by rw [cmp, if_neg hc]; split <;> decide)]
      obtain ⟨g, g1, g2, g3⟩ := guessOf_eq hfl hd hb ht tb hbl (by omega) hub
      have hq1 : 1 ≤ val (trim (x :: part)) / val b := Int.le_ediv_of_mul_le hb0 (by omega)
      obtain ⟨check, c1, c2, c3, c4⟩ := guessLoop_eq hd hb ht tb hb0 (by omega) g.toNat (by omega) (by omega)
      have hqle := Int.mul_ediv_add_emod (val (trim (x :: part))) (val b)
      have hm0 := Int.emod_nonneg (val (trim (x :: part))) (show val b ≠ 0 by omega)
      have hm1 := Int.emod_lt_of_pos (val (trim (x :: part))) hb0
      obtain ⟨s, s1, s2, s3, s4⟩ := subtract_eq hd c2 c3 (by rw [c4]; omega)
      rw [c4] at s2
      obtain ⟨q, p, i1, i2, i3, i4, i5, i6, i7⟩ := ih hx.2 s3 s4 (by omega)
      have hqlt : val (trim (x :: part)) / val b < 10000000 :=
        Int.ediv_lt_of_lt_mul hb0 (by rw [Int.mul_comm]; exact hub)
      refine ⟨val (trim (x :: part)) / val b :: q, p, by simp only [g1, c1, s1, i1, bind, Except.bind],
        by simp [i2], digits_cons.mpr ⟨by omega, i3⟩, i4, i5, i6, ?_⟩
      rw [List.reverse_cons, List.reverse_cons, val_append, val_append, List.length_reverse,
        List.length_reverse, i2, List.length_cons, Int.pow_succ]
      simp only [val, Int.mul_zero, Int.add_zero]
      generalize val (trim (x :: part)) / val b = Q at *
      generalize (10000000 : Int) ^ xs.length = P at *
      grind

theorem divMod2_eq {fl : Rat → Rat} (hfl : Spec.Rounding fl) {a b : Arr} (ha : Digits a) (hb : Digits b)
    (tb : Trimmed b) (hbl : 2 ≤ b.length) :
    ∃ q m, divMod2 fl a b = .ok (arrayToSmall q, arrayToSmall m) ∧ Digits q ∧ Digits m ∧
      val q = val a / val b ∧ val m = val a % val b := by
  have hb0 : 0 < val b := by
    have h1 := pow_le_val hb tb (by rintro rfl; simp at hbl)
    have h2 := pow_pos' b.length
    omega
  obtain ⟨q, p, i1, i2, i3, i4, i5, i6, i7⟩ := divMod2Loop_eq hfl hb tb hbl (digits_reverse.mpr ha)
    digits_nil trimmed_nil (by simpa [val] using hb0)
  rw [List.reverse_reverse] at i7
  simp only [val, Int.zero_mul, Int.zero_add] at i7
  have hp0 := val_nonneg i4
  refine ⟨q.reverse, p, by rw [divMod2, i1]; rfl, digits_reverse.mpr i3, i4, ?_, ?_⟩
  · rw [i7, Int.add_comm, Int.add_mul_ediv_left _ _ (by omega), Int.ediv_eq_zero_of_lt hp0 i6]; omega
  · rw [i7, Int.add_comm, Int.add_mul_emod_self_left, Int.emod_eq_of_lt hp0 i6]

/-! ### `divmod` -/

theorem signed_ok {a : Arr} (ha : Digits a) (sign : Bool) :
    ((arrayToSmall a).signed sign).Ok ∧
      ((arrayToSmall a).signed sign).toInt = if sign then -val a else val a := by
  obtain ⟨b, h1, h2, h3⟩ := ofNumOrArr ha sign
  have : (arrayToSmall a).signed sign = b := by
    rw [← h1]
    cases arrayToSmall a <;> rfl
  rw [this]
  exact ⟨h2, h3⟩

theorem tdiv_signed (s t : Bool) {A B : Int} (hA : 0 ≤ A) :
    (if s = true then -A else A).tdiv (if t = true then -B else B) =
      (if decide (s ≠ t) = true then -(A / B) else A / B) ∧
    (if s = true then -A else A).tmod (if t = true then -B else B) =
      (if s = true then -(A % B) else A % B) := by
  cases s <;> cases t <;>
    simp [Int.neg_tdiv, Int.tdiv_neg, Int.tdiv_eq_ediv_of_nonneg hA, Int.neg_tmod, Int.tmod_neg,
      Int.tmod_eq_emod_of_nonneg hA]

theorem divModArr_ok {fl : Rat → Rat} (hfl : Spec.Rounding fl) {a b : Arr} (ha : Digits a) (hb : Digits b)
    (ta : Trimmed a) (tb : Trimmed b) (ma : MAX_INT ≤ val a) (hbl : 2 ≤ b.length) (s t : Bool) :
    ∃ q r, divModArr fl a s b t = .ok (q, r) ∧ q.Ok ∧ r.Ok ∧
      q.toInt = (if decide (s ≠ t) = true then -(val a / val b) else val a / val b) ∧
      r.toInt = (if s = true then -(val a % val b) else val a % val b) := by
  have hb0 : 0 < val b := by
    have h1 := pow_le_val hb tb (by rintro rfl; simp at hbl)
    have h2 := pow_pos' b.length
    omega
  have ha0 := val_nonneg ha
  unfold divModArr
  simp only
  rw [compareAbs_eq ha hb ta tb]
  unfold cmp
  by_cases h1 : val a < val b
  · rw [if_pos h1, if_pos rfl]
    refine ⟨_, _, rfl, ofSmall_ok (by decide) (by decide), ⟨ha, ta, ma⟩, ?_, ?_⟩
    · rw [Int.ediv_eq_zero_of_lt ha0 h1, toInt_ofSmall]
      simp
    · rw [Int.emod_eq_of_lt ha0 h1]
      rfl
  rw [if_neg h1]
  by_cases h2 : val a = val b
  · rw [if_pos h2, if_neg (by decide), if_pos rfl]
    refine ⟨_, _, rfl, ?_, ofSmall_ok (by decide) (by decide), ?_, ?_⟩
    · split <;> exact ofSmall_ok (by decide) (by decide)
    · rw [h2, Int.ediv_self (by omega), toInt_ofSmall]
      cases s <;> cases t <;> rfl
    · rw [h2, Int.emod_self, toInt_ofSmall]
      simp
  rw [if_neg h2, if_neg (by decide), if_neg (by decide)]
  obtain ⟨q, m, k1, k2, k3, k4, k5⟩ : ∃ q m, (if a.length + b.length ≤ 200 then divMod1 a b else divMod2 fl a b) =
      .ok (arrayToSmall q, arrayToSmall m) ∧ Digits q ∧ Digits m ∧
      val q = val a / val b ∧ val m = val a % val b := by
    split
    · exact divMod1_eq ha hb ta tb hb0 (by omega)
    · exact divMod2_eq hfl ha hb tb hbl
  obtain ⟨s1, s2⟩ := signed_ok k2 (decide (s ≠ t))
  obtain ⟨s3, s4⟩ := signed_ok k3 s
  refine ⟨_, _, ?_, s1, s3, ?_, ?_⟩
  · by_cases hc : a.length + b.length ≤ 200
    · rw [if_pos hc] at k1 ⊢
      rw [k1]
      rfl
    · rw [if_neg hc] at k1 ⊢
      rw [k1]
      rfl
  · rw [s2, k4]
  · rw [s4, k5]

theorem small_tdiv_bounds {a b : Int} (h1 : -MAX_INT < a) (h2 : a < MAX_INT) :
    (-MAX_INT < a.tdiv b ∧ a.tdiv b < MAX_INT) ∧ (-MAX_INT < a.tmod b ∧ a.tmod b < MAX_INT) := by
  have h3 : (a.tdiv b).natAbs ≤ a.natAbs := by
    rw [Int.natAbs_tdiv]
    exact Nat.div_le_self _ _
  have h4 : (a.tmod b).natAbs ≤ a.natAbs := by
    rw [Int.natAbs_tmod]
    exact Nat.mod_le _ _
  omega

/-- Division rounds towards zero, the remainder has the sign of the dividend. -/
theorem divmod_ok {fl : Rat → Rat} (hfl : Spec.Rounding fl) {t n : Big} (ht : t.Ok) (hn : n.Ok)
    (h0 : n.toInt ≠ 0) : ∃ q r, t.divmod fl n = .ok (q, r) ∧ q.Ok ∧ r.Ok ∧
      q.toInt = t.toInt.tdiv n.toInt ∧ r.toInt = t.toInt.tmod n.toInt := by
  have hM : (MAX_INT : Int) = 9007199254740992 := rfl
  have hP := max_lt
  cases t with
  | small a s =>
    have hta := ht
    obtain ⟨a1, a2, _, _⟩ := ht
    cases n with
    | small b bs =>
      simp only [Big.toInt] at h0
      obtain ⟨⟨b1, b2⟩, b3, b4⟩ := small_tdiv_bounds (b := b) a1 a2
      refine ⟨_, _, by rw [Big.divmod, if_neg h0], ofSmall_ok b1 b2, ofSmall_ok b3 b4, rfl, rfl⟩
    | big b bs =>
      obtain ⟨db, tb, mb⟩ := hn
      refine ⟨_, _, rfl, ofSmall_ok (by decide) (by decide), hta, ?_, ?_⟩
      · rw [toInt_ofSmall]
        simp only [Big.toInt]
        symm
        rw [← Int.natAbs_eq_zero, Int.natAbs_tdiv]
        apply Nat.div_eq_of_lt
        split <;> omega
      · simp only [Big.toInt]
        have hz : a.tdiv (if bs = true then -val b else val b) = 0 := by
          rw [← Int.natAbs_eq_zero, Int.natAbs_tdiv]
          apply Nat.div_eq_of_lt
          split <;> omega
        have := Int.mul_tdiv_add_tmod a (if bs = true then -val b else val b)
        rw [hz] at this
        omega
  | big a s =>
    have hta := ht
    obtain ⟨da, ta, ma⟩ := ht
    cases n with
    | small b bs =>
      have hpb := small_parts hn
      obtain ⟨b1, b2, b3, b4⟩ := hn
      simp only [Big.toInt] at h0
      have ha0 := val_nonneg da
      rw [Big.divmod, if_neg h0]
      by_cases h1 : b = 1
      · rw [if_pos h1]
        refine ⟨_, _, rfl, hta, ofSmall_ok (by decide) (by decide), ?_, ?_⟩
        · simp only [Big.toInt, h1, Int.tdiv_one]
        · simp only [Big.toInt, h1, Int.tmod_one]
          rfl
      rw [if_neg h1]
      by_cases h2 : b = -1
      · rw [if_pos h2]
        obtain ⟨k1, k2⟩ := negate_ok hta
        refine ⟨_, _, rfl, k1, ofSmall_ok (by decide) (by decide), ?_, ?_⟩
        · rw [k2]
          simp only [Big.toInt, h2, Int.tdiv_neg, Int.tdiv_one]
        · simp only [Big.toInt, h2, Int.tmod_neg, Int.tmod_one]
          rfl
      rw [if_neg h2]
      obtain ⟨t1, t2⟩ := tdiv_signed s bs (A := val a) (B := b.natAbs) ha0
      rw [← hpb] at t1 t2
      by_cases h3 : (b.natAbs : Int) < BASE
      · rw [if_pos h3]
        have h3' : (b.natAbs : Int) < 10000000 := h3
        obtain ⟨q, r, i1, i2, i3, i4, i5, i6⟩ := divModSmallLoop_eq (l := b.natAbs) (by omega) h3'
          (digits_reverse.mpr da) 0 (Int.le_refl _) (by omega)
        rw [List.reverse_reverse, Int.zero_mul, Int.zero_add] at i6
        have hq : val q.reverse = val a / b.natAbs ∧ r = val a % b.natAbs := by
          rw [i6]
          constructor
          · rw [Int.add_comm, Int.add_mul_ediv_left _ _ (by omega), Int.ediv_eq_zero_of_lt i4 i5]; omega
          · rw [Int.add_comm, Int.add_mul_emod_self_left, Int.emod_eq_of_lt i4 i5]
        obtain ⟨s1, s2⟩ := signed_ok (digits_reverse.mpr i3) (decide (s ≠ bs))
        refine ⟨_, .ofSmall (if s = true then -r else r), by rw [i1]; rfl, s1, ?_, ?_, ?_⟩
        · split <;> exact ofSmall_ok (by omega) (by omega)
        · rw [s2, hq.1]
          simp only [Big.toInt]
          exact t1.symm
        · rw [toInt_ofSmall, hq.2]
          simp only [Big.toInt]
          exact t2.symm
      · rw [if_neg h3]
        have h3' : ¬ (b.natAbs : Int) < 10000000 := h3
        obtain ⟨v1, v2, v3⟩ := smallToArray_eq (n := b.natAbs) (by omega) (by omega)
        have hl2 : 2 ≤ (smallToArray b.natAbs).length := by
          unfold smallToArray
          rw [if_neg h3']
          split <;> simp
        generalize smallToArray (b.natAbs : Int) = w at *
        obtain ⟨q, r, k1, k2, k3, k4, k5⟩ := divModArr_ok hfl da v2 ta (v3 (by omega)) ma hl2 s bs
        refine ⟨q, r, by rw [← k1], k2, k3, ?_, ?_⟩
        · rw [k4, v1]
          simp only [Big.toInt]
          exact t1.symm
        · rw [k5, v1]
          simp only [Big.toInt]
          exact t2.symm
    | big b bs =>
      obtain ⟨db, tb, mb⟩ := hn
      have hbl : 2 ≤ b.length := by
        rcases Nat.lt_or_ge b.length 2 with h | h
        · exfalso
          have h1 := val_lt db
          have h2 := pow_mono (show b.length ≤ 1 by omega)
          rw [Int.pow_succ, Int.pow_zero] at h2
          omega
        · exact h
      obtain ⟨q, r, k1, k2, k3, k4, k5⟩ := divModArr_ok hfl da db ta tb ma hbl s bs
      obtain ⟨t1, t2⟩ := tdiv_signed s bs (A := val a) (B := val b) (val_nonneg da)
      refine ⟨q, r, by rw [Big.divmod]; exact k1, k2, k3, ?_, ?_⟩
      · rw [k4]; simp only [Big.toInt]; exact t1.symm
      · rw [k5]; simp only [Big.toInt]; exact t2.symm

theorem divmod_zero (fl : Rat → Rat) (t : Big) {n : Big} (hn : n.Ok) (h0 : n.toInt = 0) :
    t.divmod fl n = .error (.expect "Cannot divide by zero") := by
  cases n with
  | small b bs =>
    simp only [Big.toInt] at h0
    cases t <;> rw [Big.divmod, if_pos h0]
  | big b bs =>
    exfalso
    obtain ⟨db, tb, mb⟩ := hn
    have hM : (0 : Int) < MAX_INT := by decide
    simp only [Big.toInt] at h0
    cases bs
    · simp at h0; omega
    · simp at h0; omega

end Verif.BigJs
