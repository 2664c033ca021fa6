import Verif.Model.BigBase
import Verif.Spec.BigBase
import Verif.Props.BigText
/-! Lemmas on writing and reading big integers to any base. -/
namespace Verif.BigJs
open Spec

/-! ### Digits to a base that may be negative -/

theorem denotes_append (base : Int) (a : List Nat) (d : Nat) :
    denotes base (a ++ [d]) = base * denotes base a + d := by
  induction a with
  | nil => simp [denotes]
  | cons x a ih =>
    rw [List.cons_append, denotes, ih, denotes, List.length_append, List.length_singleton, Int.pow_succ]
    grind

theorem last_unique {base x y : Int} {d e : Nat} (hd : d < base.natAbs) (he : e < base.natAbs)
    (h : base * x + d = base * y + e) : x = y ∧ d = e := by
  have h1 : base * (x - y) = (e : Int) - d := by rw [Int.mul_sub]; omega
  have h2 : base.natAbs * (x - y).natAbs = ((e : Int) - d).natAbs := by rw [← Int.natAbs_mul, h1]
  have h3 : (x - y).natAbs = 0 := by
    refine Decidable.byContradiction fun hk => ?_
    have : base.natAbs * 1 ≤ base.natAbs * (x - y).natAbs := Nat.mul_le_mul_left _ (by omega)
    omega
  rw [h3, Nat.mul_zero] at h2
  omega

theorem denotes_zero {base : Int} (a : List Nat) (ha : ∀ d ∈ a, d < base.natAbs) (h : denotes base a = 0) :
    ∀ d ∈ a, d = 0 := by
  induction hn : a.length generalizing a with
  | zero => rw [List.length_eq_zero_iff.mp hn]; simp
  | succ n ih =>
    rcases List.eq_nil_or_concat a with rfl | ⟨b, x, rfl⟩
    · simp at hn
    · rw [List.concat_eq_append] at *
      rw [denotes_append] at h
      have hx := ha x (by simp)
      obtain ⟨h1, h2⟩ := last_unique (base := base) (y := 0) (e := 0) hx (by omega) (by simpa using h)
      intro d hd
      rcases List.mem_append.mp hd with hd | hd
      · exact ih b (fun d hd => ha d (by simp [hd])) h1 (by simpa using hn) d hd
      · simp at hd; omega

theorem digits_unique_aux {base : Int} (a b : List Nat) (ha : ∀ d ∈ a, d < base.natAbs)
    (hb : ∀ d ∈ b, d < base.natAbs) (za : a.head? ≠ some 0) (zb : b.head? ≠ some 0)
    (h : denotes base a = denotes base b) : a = b := by
  have zero : ∀ c : List Nat, (∀ d ∈ c, d < base.natAbs) → c.head? ≠ some 0 → denotes base c = 0 → c = [] := by
    intro c hc hz h0
    cases c with
    | nil => rfl
    | cons x c => exact absurd (denotes_zero _ hc h0 x (by simp)) (by simpa using hz)
  induction hn : a.length generalizing a b with
  | zero =>
    rw [List.length_eq_zero_iff.mp hn] at h ⊢
    exact (zero b hb zb (by rw [← h]; rfl)).symm
  | succ n ih =>
    rcases List.eq_nil_or_concat a with rfl | ⟨a', x, rfl⟩
    · simp at hn
    rcases List.eq_nil_or_concat b with rfl | ⟨b', y, rfl⟩
    · exact zero _ ha za (by rw [h]; rfl)
    · simp only [List.concat_eq_append] at *
      rw [denotes_append, denotes_append] at h
      obtain ⟨h1, h2⟩ := last_unique (ha x (by simp)) (hb y (by simp)) h
      have hh : ∀ (c : List Nat) (z : Nat), (c ++ [z]).head? ≠ some 0 → c.head? ≠ some 0 := by
        intro c z hc
        cases c with
        | nil => simp
        | cons w c => simpa using hc
      rw [h2, ih a' b' (fun d hd => ha d (by simp [hd])) (fun d hd => hb d (by simp [hd])) (hh _ _ za) (hh _ _ zb) h1
        (by simpa using hn)]

/-! ### Writing -/

theorem small_of {b : Big} (hb : b.Ok) (h : b.toInt.natAbs < 2 ^ 53) : ∃ v s, b = .small v s := by
  have hM : (MAX_INT : Int) = 9007199254740992 := rfl
  cases b with
  | small v s => exact ⟨v, s, rfl⟩
  | big a s =>
    obtain ⟨_, _, hm⟩ := hb
    cases s <;> simp only [Big.toInt, Bool.false_eq_true, if_false, if_true] at h <;> omega

theorem stringify_place {b : Big} (hb : b.Ok) (h0 : 0 ≤ b.toInt) (h : b.toInt < 2 ^ 53) :
    stringify b = place b.toInt.toNat := by
  obtain ⟨v, s, rfl⟩ := small_of hb (by omega)
  simp only [Big.toInt] at *
  rw [place]
  by_cases hv : v < 36
  · rw [if_pos (by omega), stringify_digit h0 hv]
  · rw [if_neg (by omega), stringify, if_neg (by omega), intText_digit h0, numeral_ten]

theorem compareAbs_ge {a b : Big} (ha : a.Ok) (hb : b.Ok) :
    decide (a.compareAbs b ≥ 0) = decide (b.toInt.natAbs ≤ a.toInt.natAbs) := by
  have hM : (MAX_INT : Int) = 9007199254740992 := rfl
  apply decide_eq_decide.mpr
  have hbig : ∀ (v : Arr) (s : Bool), (Big.big v s).toInt.natAbs = (val v).natAbs := by
    intro v s; cases s <;> simp [Big.toInt]
  cases a with
  | small x s =>
    cases b with
    | small y t =>
      simp only [Big.compareAbs, Big.toInt]
      split
      · omega
      · split <;> omega
    | big y t =>
      obtain ⟨_, _, hm⟩ := hb
      obtain ⟨h1, h2, _, _⟩ := ha
      rw [hbig]
      simp only [Big.compareAbs, Big.toInt]
      omega
  | big x s =>
    obtain ⟨d1, t1, m1⟩ := ha
    cases b with
    | small y t =>
      obtain ⟨h1, h2, _, _⟩ := hb
      rw [hbig]
      simp only [Big.compareAbs, Big.toInt]
      omega
    | big y t =>
      obtain ⟨d2, t2, m2⟩ := hb
      rw [hbig, hbig]
      simp only [Big.compareAbs]
      rw [compareAbs_eq d1 d2 t1 t2]
      unfold cmp
      split
      · omega
      · split <;> omega

theorem groups_eq : ∀ {a : Arr}, a ≠ [] → Digits a → Trimmed a → a = (groups (val a).toNat).map (fun d : Nat => (d : Int))
  | [], h, _, _ => absurd rfl h
  | [x], _, hd, _ => by
    rw [digits_cons] at hd
    rw [groups, dif_pos (by simp only [val]; omega)]
    simp only [val, List.map_cons, List.map_nil]
    congr 1
    omega
  | x :: y :: a, _, hd, ht => by
    have hd' := digits_cons.mp hd
    have ht' : Trimmed (y :: a) := by
      unfold Trimmed at ht ⊢
      rwa [List.getLast?_cons_cons] at ht
    have ih := groups_eq (by simp) hd'.2 ht'
    have h0 := val_nonneg hd'.2
    have hpos : 0 < val (y :: a) := by
      refine Decidable.byContradiction fun hn => ?_
      have h : val (y :: a) = 0 := by omega
      rw [h, show groups (0 : Int).toNat = [0] by rw [groups]; simp] at ih
      rw [ih] at ht'
      exact ht' rfl
    have hv : val (x :: y :: a) = x + 10000000 * val (y :: a) := rfl
    rw [hv, groups, dif_neg (by omega), List.map_cons,
      show (x + 10000000 * val (y :: a)).toNat / 10000000 = (val (y :: a)).toNat by omega, ← ih]
    congr 1
    omega

theorem stringify_any {b : Big} (hb : b.Ok) (h0 : 0 ≤ b.toInt) : stringify b = placeAny b.toInt.toNat := by
  have hM : (MAX_INT : Int) = 9007199254740992 := rfl
  by_cases h : b.toInt < 2 ^ 53
  · rw [stringify_place hb h0 h, placeAny, if_pos (by omega)]
  · cases b with
    | small v s => obtain ⟨_, h2, _⟩ := hb; simp only [Big.toInt] at h; omega
    | big a s =>
      obtain ⟨h1, h2, h3⟩ := hb
      have hval : (Big.big a s).toInt = val a := by
        cases s with
        | false => rfl
        | true => simp only [Big.toInt, if_true] at h0; omega
      rw [hval, placeAny, if_neg (by omega)]
      have hmap : a.map intText = (groups (val a).toNat).map (numeral 10) := by
        have hne : a ≠ [] := by rintro rfl; simp [val] at h3; omega
        conv => lhs; rw [groups_eq hne h1 h2]
        rw [List.map_map]
        refine List.map_congr_left fun d _ => ?_
        rw [Function.comp_apply, intText_digit (by omega), numeral_ten, Int.toNat_natCast]
      rw [← hmap]
      cases a with
      | nil => rfl
      | cons x a =>
        cases a with
        | nil =>
          have := (digits_cons.mp h1).1
          simp only [val] at h3
          omega
        | cons y a => rfl

theorem anyBaseLoop_any {fl : Rat → Rat} (hfl : Rounding fl) {base : Big} (hb : base.Ok) (hb2 : 2 ≤ base.toInt.natAbs)
    (fuel : Nat) : ∀ {t : Big}, t.Ok → (0 < base.toInt → 0 ≤ t.toInt) →
    2 * t.toInt.natAbs + (if t.toInt < 0 then 1 else 0) < fuel →
    ∃ ds : List Nat, anyBaseLoop fl base fuel t = .ok (ds.map placeAny) ∧ AreDigits base.toInt t.toInt ds.reverse := by
  have hbind : ∀ {α β : Type} (a : α) (f : α → R β), (Except.ok a >>= f) = f a := fun _ _ => rfl
  induction fuel with
  | zero => intro t _ _ h; omega
  | succ fuel ih =>
    intro t ht hpos hf
    rw [anyBaseLoop.eq_def]
    dsimp only
    rw [isNegative_eq ht, compareAbs_ge ht hb, ← Bool.decide_or]
    have step : ∀ {q : Big} {d : Nat}, q.Ok → d < base.toInt.natAbs → q.toInt ≠ 0 → (0 < base.toInt → 0 ≤ q.toInt) →
        t.toInt = base.toInt * q.toInt + d → 2 * q.toInt.natAbs + (if q.toInt < 0 then 1 else 0) < fuel →
        ∃ ds : List Nat, anyBaseLoop fl base fuel q = .ok (ds.map placeAny) ∧
          AreDigits base.toInt t.toInt (d :: ds).reverse := by
      intro q d hq hd hq0 hqp he hqf
      obtain ⟨ds, h1, h2, h3, h4, h5⟩ := ih hq hqp hqf
      refine ⟨ds, h1, by simp, ?_, ?_, ?_⟩
      · intro x hx
        rw [List.reverse_cons, List.mem_append] at hx
        rcases hx with hx | hx
        · exact h3 x hx
        · simp at hx; omega
      · intro hz
        rw [List.reverse_cons, List.head?_append] at hz
        have : ds.reverse.head? = some 0 := by
          cases hr : ds.reverse with
          | nil => exact absurd hr h2
          | cons a b => rw [hr] at hz; simpa using hz
        rw [h4 this] at h5
        simp [denotes] at h5
        exact absurd h5.symm hq0
      · rw [List.reverse_cons, denotes_append, h5, he]
    by_cases hgo : t.toInt < 0 ∨ base.toInt.natAbs ≤ t.toInt.natAbs
    · rw [if_pos (decide_eq_true hgo)]
      obtain ⟨q, r, j1, j2, j3, j4, j5⟩ := divmod_ok hfl ht hb (by omega)
      rw [j1, hbind]
      dsimp only
      have hdm := Int.mul_tdiv_add_tmod t.toInt base.toInt
      have hrlt : r.toInt.natAbs < base.toInt.natAbs := by
        rw [j5, Int.natAbs_tmod]; exact Nat.mod_lt _ (by omega)
      have hqn : q.toInt.natAbs = t.toInt.natAbs / base.toInt.natAbs := by rw [j4, Int.natAbs_tdiv]; rfl
      have hmul : base.toInt.natAbs * q.toInt.natAbs + r.toInt.natAbs = t.toInt.natAbs := by
        rw [hqn, j5, Int.natAbs_tmod]; exact Nat.div_add_mod _ _
      have h2q : 2 * q.toInt.natAbs ≤ base.toInt.natAbs * q.toInt.natAbs := Nat.mul_le_mul_right _ hb2
      have hsign : (0 ≤ t.toInt → 0 ≤ r.toInt) ∧ (t.toInt ≤ 0 → r.toInt ≤ 0) := by
        rw [j5]
        exact ⟨fun h => Int.tmod_nonneg _ h, fun h => by
          have := Int.tmod_nonneg base.toInt (a := -t.toInt) (by omega)
          rw [Int.neg_tmod] at this; omega⟩
      rw [← j4, ← j5] at hdm
      rw [isNegative_eq j3]
      by_cases hr : r.toInt < 0
      · rw [if_pos (decide_eq_true hr)]
        have ht0 : t.toInt < 0 := by omega
        have hbneg : base.toInt < 0 := by omega
        have hq0 : 0 ≤ q.toInt := by
          rw [j4]; exact Int.tdiv_nonneg_of_nonpos_of_nonpos (by omega) (by omega)
        obtain ⟨d, d1, d2, d3⟩ := subtract_ok hb j3
        obtain ⟨n, n1, n2, n3⟩ := next_ok j2
        rw [d1, hbind, n1, hbind]
        obtain ⟨a1, a2⟩ := abs_ok d2
        have hd0 : d.abs.toInt = r.toInt - base.toInt := by rw [a2, d3]; omega
        obtain ⟨ds, k1, k2⟩ := step (q := n) (d := (r.toInt - base.toInt).toNat) n2 (by omega) (by omega) (by omega)
          (by rw [n3, Int.mul_add]; omega) (by rw [n3, if_neg (by omega)]; rw [if_pos ht0] at hf; omega)
        rw [k1, hbind]
        refine ⟨_ :: ds, ?_, k2⟩
        rw [List.map_cons, stringify_any a1 (by omega), hd0]
      · rw [if_neg (by simp [hr])]
        have hq0 : q.toInt ≠ 0 := by
          intro h
          have : q.toInt.natAbs = 0 := by omega
          rw [this] at hmul
          rcases hgo with h | h <;> omega
        have hqp : 0 < base.toInt → 0 ≤ q.toInt := by
          intro h; rw [j4]; exact Int.tdiv_nonneg (hpos h) (by omega)
        have hlt : 2 * q.toInt.natAbs + (if q.toInt < 0 then 1 else 0) < fuel := by
          by_cases hn : t.toInt < 0
          · rw [if_pos hn] at hf
            have : 0 ≤ q.toInt := by
              rw [j4]; exact Int.tdiv_nonneg_of_nonpos_of_nonpos (by omega) (by omega)
            rw [if_neg (by omega)]
            omega
          · split <;> omega
        obtain ⟨ds, k1, k2⟩ := step (q := q) (d := r.toInt.toNat) j2 (by omega) hq0 hqp (by omega) hlt
        rw [k1, hbind]
        refine ⟨_ :: ds, ?_, k2⟩
        rw [List.map_cons, stringify_any j3 (by omega)]
    · rw [if_neg (by simpa using hgo)]
      refine ⟨[t.toInt.toNat], ?_, by simp, ?_, ?_, ?_⟩
      · rw [List.map_singleton, stringify_any ht (by omega)]
      · intro d hd; simp at hd; omega
      · intro h; simp at h ⊢; omega
      · simp [denotes]; omega

/-! ### Reading -/

/-- The digits that a text to a base may have: those below the absolute value of the base; to base 1 and to
base -1 also the digit 1. -/
def Allowed (absBase d : Nat) : Prop := d < absBase ∨ (d = 1 ∧ absBase = 1)

theorem checkAny_append {n : Nat} {a b : List Char} (ha : checkAnyDigits n a = .ok ()) :
    checkAnyDigits n (a ++ b) = checkAnyDigits n b := by
  induction a with
  | nil => rfl
  | cons c a ih =>
    rw [List.cons_append, checkAnyDigits]
    rw [checkAnyDigits] at ha
    by_cases h1 : lower c = '-'
    · rw [if_pos h1] at ha ⊢; exact ih ha
    rw [if_neg h1] at ha ⊢
    by_cases h2 : isDecimal (lower c) = true
    · rw [if_pos h2] at ha ⊢
      by_cases h3 : (lower c).toNat - 48 ≥ n
      · rw [if_pos h3] at ha ⊢
        by_cases h4 : lower c = '1' ∧ n = 1
        · rw [if_pos h4] at ha ⊢; exact ih ha
        · rw [if_neg h4] at ha; cases ha
      · rw [if_neg h3] at ha ⊢; exact ih ha
    rw [if_neg h2] at ha ⊢
    by_cases h5 : isLetter (lower c) = true
    · rw [if_pos h5] at ha ⊢
      by_cases h3 : (lower c).toNat - 87 ≥ n
      · rw [if_pos h3] at ha; cases ha
      · rw [if_neg h3] at ha ⊢; exact ih ha
    · rw [if_neg h5] at ha ⊢; exact ih ha

theorem digitValue_digit {d : Nat} (h : d < 36) : digitValue (digit d) = some d := by
  have : ∀ d : Fin 36, digitValue (digit d.val) = some d.val := by decide +kernel
  exact this ⟨d, h⟩

theorem lower_digit {d : Nat} (h : d < 36) : lower (digit d) = digit d := by
  have : ∀ d : Fin 36, lower (digit d.val) = digit d.val := by decide +kernel
  exact this ⟨d, h⟩

theorem decimal_char {c : Char} (h : '0' ≤ c ∧ c ≤ '9') : lower c = c ∧ isDecimal c = true ∧ c ≠ '-' ∧ c ≠ '>' ∧
    c.toNat - 48 < 10 := by
  have : ∀ c : Char, ('0' ≤ c ∧ c ≤ '9') → (lower c = c ∧ isDecimal c = true ∧ c ≠ '-' ∧ c ≠ '>' ∧ c.toNat - 48 < 10) := by
    intro c
    refine ascii_or (P := fun c => ('0' ≤ c ∧ c ≤ '9') → (lower c = c ∧ isDecimal c = true ∧ c ≠ '-' ∧ c ≠ '>' ∧ c.toNat - 48 < 10))
      (by decide +kernel) (fun c hc h => ?_) c
    rw [le_char, le_char, show ('9' : Char).toNat = 57 from rfl] at h
    omega
  exact this c h

theorem check_decimals {n : Nat} (hn : 10 ≤ n) : ∀ {s : List Char}, AllDigits s → checkAnyDigits n s = .ok () := by
  intro s
  induction s with
  | nil => intro _; rfl
  | cons c s ih =>
    intro h
    obtain ⟨h1, h2, h3, _, h4⟩ := decimal_char (h c (by simp))
    rw [checkAnyDigits]
    rw [h1, if_neg h3, if_pos h2, if_neg (by omega)]
    exact ih (fun c hc => h c (by simp [hc]))

theorem check_place {n d : Nat} (h : Allowed n d) : checkAnyDigits n (place d) = .ok () := by
  rw [place]
  by_cases hd : d < 36
  · rw [if_pos hd]
    obtain ⟨_, _, h1, _, h2, h3⟩ := digit_seen _ _ (digitValue_digit hd)
    rw [lower_digit hd] at h2 h3
    rw [checkAnyDigits]
    rw [lower_digit hd, if_neg h2]
    rcases h with h | ⟨h, hn⟩
    · rcases h3 with ⟨h3, h4, _⟩ | ⟨h3, h4, h5, _⟩
      · rw [if_pos h3, if_neg (by omega)]; rfl
      · rw [if_neg (by simp [h3]), if_pos h4, if_neg (by omega)]; rfl
    · subst h; subst hn; rfl
  · rw [if_neg hd]
    have hn : 10 ≤ n := by rcases h with h | h <;> omega
    have h1 : checkAnyDigits n ['<'] = .ok () := rfl
    rw [List.cons_append, ← List.singleton_append, checkAny_append h1,
      checkAny_append (check_decimals hn (numeral_number d).1)]
    rfl

theorem check_places {n : Nat} (ds : List Nat) (h : ∀ d ∈ ds, Allowed n d) :
    checkAnyDigits n (ds.map place).flatten = .ok () := by
  induction ds with
  | nil => rfl
  | cons d ds ih =>
    rw [List.map_cons, List.flatten_cons, checkAny_append (check_place (h d (by simp))),
      ih (fun d hd => h d (by simp [hd]))]

theorem upToBracket_eq {s : List Char} (h : '>' ∉ s) (rest : List Char) :
    upToBracket (s ++ '>' :: rest) = .ok (s, rest) := by
  induction s with
  | nil => rfl
  | cons c s ih =>
    rw [List.cons_append, upToBracket, if_neg (by intro hc; exact h (by simp [hc])), ih (by intro hc; exact h (by simp [hc]))]
    rfl

theorem collectAny_ok {fl : Rat → Rat} (hfl : Rounding fl) (ds : List Nat) : ∀ {fuel : Nat},
    (ds.map place).flatten.length ≤ fuel → ∃ bs : List Big, collectAnyDigits fl fuel (ds.map place).flatten = .ok bs ∧
      (∀ b ∈ bs, b.Ok) ∧ bs.map Big.toInt = ds.map (fun d : Nat => (d : Int)) := by
  have hbind : ∀ {α β : Type} (a : α) (f : α → R β), (Except.ok a >>= f) = f a := fun _ _ => rfl
  have hM : (MAX_INT : Int) = 9007199254740992 := rfl
  induction ds with
  | nil => intro fuel _; exact ⟨[], by cases fuel <;> rfl, by simp, rfl⟩
  | cons d ds ih =>
    intro fuel hf
    rw [List.map_cons, List.flatten_cons] at hf ⊢
    rw [List.length_append] at hf
    by_cases hd : d < 36
    · have hp : place d = [digit d] := by rw [place, if_pos hd]
      rw [hp] at hf ⊢
      cases fuel with
      | zero => simp at hf
      | succ fuel =>
        obtain ⟨bs, h1, h2, h3⟩ := ih (fuel := fuel) (by simp at hf; simpa using (by omega))
        obtain ⟨_, _, _, _, _, hc⟩ := digit_seen _ _ (digitValue_digit hd)
        rw [lower_digit hd] at hc
        refine ⟨.ofSmall d :: bs, ?_, ?_, ?_⟩
        · rw [List.singleton_append, collectAnyDigits.eq_def]
          dsimp only
          rw [lower_digit hd, h1]
          rcases hc with ⟨c1, c2, c3⟩ | ⟨c1, c2, c3, c4⟩
          · rw [if_pos c1, show ((digit d).toNat : Int) - 48 = d by omega]
            rfl
          · rw [if_neg (by simp [c1]), if_pos c2, show ((digit d).toNat : Int) - 87 = d by omega]
            rfl
        · intro b hb
          rcases List.mem_cons.mp hb with rfl | hb
          · exact ofSmall_ok (by omega) (by omega)
          · exact h2 b hb
        · rw [List.map_cons, List.map_cons, h3, toInt_ofSmall]
    · have hp : place d = '<' :: numeral 10 d ++ ['>'] := by rw [place, if_neg hd]
      rw [hp] at hf ⊢
      cases fuel with
      | zero => simp at hf
      | succ fuel =>
        obtain ⟨bs, h1, h2, h3⟩ := ih (fuel := fuel) (by simp at hf; simpa using (by omega))
        obtain ⟨b, b1, b2, b3, _⟩ := Props.C83_numerals fl hfl d
        have hnum : intNumeral 10 (d : Int) = numeral 10 d := by rw [intNumeral, if_neg (by omega), Int.natAbs_natCast]
        rw [hnum] at b1
        have hno : '>' ∉ numeral 10 d := by
          intro hc
          exact (decimal_char ((numeral_number d).1 _ hc)).2.2.2.1 rfl
        refine ⟨b :: bs, ?_, ?_, ?_⟩
        · rw [List.cons_append, List.cons_append, collectAnyDigits.eq_def]
          dsimp only
          rw [show lower '<' = '<' by decide, if_neg (by decide), if_neg (by decide), if_pos rfl, List.append_assoc,
            List.singleton_append, upToBracket_eq hno, hbind]
          dsimp only
          rw [b1, hbind, h1]
          rfl
        · intro x hx
          rcases List.mem_cons.mp hx with rfl | hx
          · exact b2
          · exact h2 x hx
        · rw [List.map_cons, List.map_cons, h3, b3]

/-- What follows a digit is read after it. -/
theorem collect_place {fl : Rat → Rat} (hfl : Rounding fl) (d : Nat) (rest : List Char) (fuel : Nat) :
    ∃ b : Big, b.Ok ∧ b.toInt = d ∧ collectAnyDigits fl (fuel + 1) (place d ++ rest) =
      (do let ds ← collectAnyDigits fl fuel rest; .ok (b :: ds)) := by
  have hbind : ∀ {α β : Type} (a : α) (f : α → R β), (Except.ok a >>= f) = f a := fun _ _ => rfl
  have hM : (MAX_INT : Int) = 9007199254740992 := rfl
  by_cases hd : d < 36
  · have hp : place d = [digit d] := by rw [place, if_pos hd]
    obtain ⟨_, _, _, _, _, hc⟩ := digit_seen _ _ (digitValue_digit hd)
    rw [lower_digit hd] at hc
    refine ⟨.ofSmall d, ofSmall_ok (by omega) (by omega), rfl, ?_⟩
    rw [hp, List.singleton_append, collectAnyDigits.eq_def]
    dsimp only
    rw [lower_digit hd]
    rcases hc with ⟨c1, c2, c3⟩ | ⟨c1, c2, c3, c4⟩
    · rw [if_pos c1, show ((digit d).toNat : Int) - 48 = d by omega]
    · rw [if_neg (by simp [c1]), if_pos c2, show ((digit d).toNat : Int) - 87 = d by omega]
  · have hp : place d = '<' :: numeral 10 d ++ ['>'] := by rw [place, if_neg hd]
    obtain ⟨b, b1, b2, b3, _⟩ := Props.C83_numerals fl hfl d
    have hnum : intNumeral 10 (d : Int) = numeral 10 d := by rw [intNumeral, if_neg (by omega), Int.natAbs_natCast]
    rw [hnum] at b1
    have hno : '>' ∉ numeral 10 d := by
      intro hc
      exact (decimal_char ((numeral_number d).1 _ hc)).2.2.2.1 rfl
    refine ⟨b, b2, b3, ?_⟩
    rw [hp, List.cons_append, List.cons_append, collectAnyDigits.eq_def]
    dsimp only
    rw [show lower '<' = '<' by decide, if_neg (by decide), if_neg (by decide), if_pos rfl, List.append_assoc,
      List.singleton_append, upToBracket_eq hno, hbind]
    dsimp only
    rw [b1, hbind]

/-- Digits and commas. -/
def Commas (s : List Char) : Prop := ∀ c ∈ s, ('0' ≤ c ∧ c ≤ '9') ∨ c = ','

theorem commas_groups (l : List Nat) : Commas ((l.map (numeral 10)).intersperse [',']).flatten := by
  intro c hc
  obtain ⟨s, hs, hcs⟩ := List.mem_flatten.mp hc
  have : ∀ (l : List (List Char)) (s : List Char), s ∈ l.intersperse [','] → s ∈ l ∨ s = [','] := by
    intro l
    induction l with
    | nil => intro s h; simp at h
    | cons a l ih =>
      intro s h
      cases l with
      | nil => simp at h; simp [h]
      | cons b l =>
        rw [List.intersperse_cons₂] at h
        rcases List.mem_cons.mp h with rfl | h
        · simp
        · rcases List.mem_cons.mp h with rfl | h
          · simp
          · rcases ih s h with h | h
            · exact .inl (List.mem_cons_of_mem _ h)
            · exact .inr h
  rcases this _ s hs with h | rfl
  · obtain ⟨n, _, rfl⟩ := List.mem_map.mp h
    exact .inl ((numeral_number n).1 c hcs)
  · exact .inr (by simpa using hcs)

theorem groups_long {n : Nat} (h : 10000000 ≤ n) : ∃ a b l, groups n = a :: b :: l := by
  rw [groups, dif_neg (by omega)]
  cases hg : groups (n / 10000000) with
  | nil =>
    rw [groups] at hg
    split at hg <;> simp at hg
  | cons b l => exact ⟨_, _, _, rfl⟩

/-- Numbers with a comma between them cannot be read. -/
theorem parseText_commas (fl : Rat → Rat) {s t : List Char} (hs : AllDigits s) (hne : s ≠ []) (ht : Commas t) :
    parseText fl (s ++ ',' :: t) = .error (.expect "Invalid integer") := by
  have hall : Commas (s ++ ',' :: t) := by
    intro c hc
    rcases List.mem_append.mp hc with h | h
    · exact .inl (hs c h)
    · rcases List.mem_cons.mp h with h | h
      · exact .inr h
      · exact ht c h
  have hch : ∀ c : Char, ('0' ≤ c ∧ c ≤ '9') ∨ c = ',' → Plainly c ∧ c ≠ 'e' ∧ c ≠ 'E' ∧ c ≠ '-' ∧ c ≠ '+' := by
    intro c
    refine ascii_or (P := fun c => (('0' ≤ c ∧ c ≤ '9') ∨ c = ',') →
      Plainly c ∧ c ≠ 'e' ∧ c ≠ 'E' ∧ c ≠ '-' ∧ c ≠ '+') (by decide +kernel) (fun c hc h => ?_) c
    rcases h with h | h
    · rw [le_char, le_char, show ('9' : Char).toNat = 57 from rfl] at h
      omega
    · rw [h] at hc
      exact absurd hc (by decide)
  have hlead : ∀ u : List Char, AllDigits u → leadingDigits 10 (u ++ ',' :: t) = leadingDigits 10 u ∧
      (leadingDigits 10 u).length = u.length := by
    intro u
    induction u with
    | nil => intro _; exact ⟨rfl, rfl⟩
    | cons c u ih =>
      intro h
      obtain ⟨i1, i2⟩ := ih (fun x hx => h x (by simp [hx]))
      have hv : ∃ d, digitValue c = some d ∧ d < 10 := by
        have : ∀ c : Char, ('0' ≤ c ∧ c ≤ '9') → (digitValue c).any (fun d => decide (d < 10)) = true := by
          intro c
          refine ascii_or (P := fun c => ('0' ≤ c ∧ c ≤ '9') → (digitValue c).any (fun d => decide (d < 10)) = true)
            (by decide +kernel) (fun c hc h => ?_) c
          rw [le_char, le_char, show ('9' : Char).toNat = 57 from rfl] at h
          omega
        have h2 := this c (h c (by simp))
        cases hv : digitValue c with
        | none => rw [hv] at h2; simp at h2
        | some d => exact ⟨d, rfl, by rw [hv] at h2; simpa using h2⟩
      obtain ⟨d, d1, d2⟩ := hv
      rw [List.cons_append, leadingDigits, leadingDigits, d1]
      simp only [if_pos d2, i1, List.length_cons, i2, true_and]
  obtain ⟨l1, l2⟩ := hlead s hs
  have hun : unsignedDecimal (s ++ ',' :: t) = none := by
    unfold unsignedDecimal
    simp only [l1, l2, List.drop_left']
    split
    · rename_i h
      simp at h
    · split
      · rfl
      · rfl
  have hnum : stringToNumber fl (s ++ ',' :: t) = none := by
    have := stringToNumber_plain fl .none (u := s ++ ',' :: t) (by simp) (by
      intro c hc
      cases s with
      | nil => exact absurd rfl hne
      | cons a s =>
        simp only [List.cons_append, List.head?_cons, Option.mem_def, Option.some.injEq] at hc
        subst hc
        have := hch a (hall a (by simp))
        exact ⟨this.2.2.2.1, this.2.2.2.2⟩) (by
      intro c hc
      exact (hch c (hall c (by simpa [Sign.text] using hc))).1)
    rw [show Sign.none.text ++ (s ++ ',' :: t) = s ++ ',' :: t from rfl, hun] at this
    exact this
  rw [parseText, hnum]
  simp only [parseLong]
  have hhead : ¬ (s ++ ',' :: t).head? = some '-' := by
    intro h
    exact (hch '-' (hall _ (List.mem_of_head? h))).2.2.2.1 rfl
  rw [if_neg hhead, splitE_none (fun c hc => ⟨(hch c (hall c hc)).2.1, (hch c (hall c hc)).2.2.1⟩)]
  exact parseDigits_bad (c := ',') (by simp) (by decide) _

theorem collect_array (fl : Rat → Rat) {d : Nat} (hd : 2 ^ 53 ≤ d) (rest : List Char) (fuel : Nat) :
    collectAnyDigits fl (fuel + 1) (placeAny d ++ rest) = .error (.expect "Invalid integer") := by
  have hbind : ∀ {α β : Type} (a : α) (f : α → R β), (Except.ok a >>= f) = f a := fun _ _ => rfl
  obtain ⟨a, b, l, hg⟩ := groups_long (n := d) (by omega)
  have hno : '>' ∉ (((groups d).map (numeral 10)).intersperse [',']).flatten := by
    intro hc
    rcases commas_groups _ _ hc with h | h
    · exact absurd h (by decide)
    · exact absurd h (by decide)
  rw [placeAny, if_neg (by omega), List.cons_append, List.cons_append, collectAnyDigits.eq_def]
  dsimp only
  rw [show lower '<' = '<' by decide, if_neg (by decide), if_neg (by decide), if_pos rfl, List.append_assoc,
    List.singleton_append, upToBracket_eq hno, hbind]
  dsimp only
  have : (((groups d).map (numeral 10)).intersperse [',']).flatten =
      numeral 10 a ++ ',' :: (((b :: l).map (numeral 10)).intersperse [',']).flatten := by
    rw [hg, List.map_cons, List.map_cons, List.intersperse_cons₂]
    rfl
  rw [this, parseText_commas fl (numeral_number a).1 (numeral_number a).2.1 (commas_groups _)]
  rfl

/-- A digit from `2^53` on makes the text unreadable. -/
theorem collectAny_bad {fl : Rat → Rat} (hfl : Rounding fl) (ds : List Nat) : ∀ {fuel : Nat},
    (ds.map placeAny).flatten.length ≤ fuel → (∃ d ∈ ds, 2 ^ 53 ≤ d) →
    collectAnyDigits fl fuel (ds.map placeAny).flatten = .error (.expect "Invalid integer") := by
  induction ds with
  | nil => rintro fuel _ ⟨d, h, _⟩; cases h
  | cons d ds ih =>
    intro fuel hf he
    rw [List.map_cons, List.flatten_cons] at hf ⊢
    rw [List.length_append] at hf
    have hlen : 1 ≤ (placeAny d).length := by
      unfold placeAny place
      repeat' split
      all_goals simp
    cases fuel with
    | zero => omega
    | succ fuel =>
      by_cases hd : d < 2 ^ 53
      · have hp : placeAny d = place d := by rw [placeAny, if_pos hd]
        obtain ⟨b, _, _, h⟩ := collect_place hfl d (ds.map placeAny).flatten fuel
        rw [hp, h, ih (by omega) (by
          obtain ⟨x, hx, hx2⟩ := he
          rcases List.mem_cons.mp hx with rfl | hx
          · omega
          · exact ⟨x, hx, hx2⟩)]
        rfl
      · exact collect_array fl (by omega) _ _

theorem check_commas {n : Nat} (hn : 10 ≤ n) : ∀ {s : List Char}, Commas s → checkAnyDigits n s = .ok () := by
  intro s
  induction s with
  | nil => intro _; rfl
  | cons c s ih =>
    intro h
    have hs := ih (fun c hc => h c (by simp [hc]))
    rcases h c (by simp) with hc | rfl
    · obtain ⟨h1, h2, h3, _, h4⟩ := decimal_char hc
      rw [checkAnyDigits]
      rw [h1, if_neg h3, if_pos h2, if_neg (by omega)]
      exact hs
    · have h1 : checkAnyDigits n [','] = .ok () := rfl
      rw [← List.singleton_append, checkAny_append h1]
      exact hs

theorem check_placeAny {n d : Nat} (hn : 10 ≤ n) (h : d < n) : checkAnyDigits n (placeAny d) = .ok () := by
  rw [placeAny]
  split
  · exact check_place (.inl h)
  · have h1 : checkAnyDigits n ['<'] = .ok () := rfl
    rw [List.cons_append, ← List.singleton_append, checkAny_append h1, checkAny_append (check_commas hn (commas_groups _))]
    rfl

theorem check_placesAny {n : Nat} (hn : 10 ≤ n) (ds : List Nat) (h : ∀ d ∈ ds, d < n) :
    checkAnyDigits n (ds.map placeAny).flatten = .ok () := by
  induction ds with
  | nil => rfl
  | cons d ds ih =>
    rw [List.map_cons, List.flatten_cons, checkAny_append (check_placeAny hn (h d (by simp))),
      ih (fun d hd => h d (by simp [hd]))]

/-- The number that digits denote, the least significant first. -/
def little (base : Int) : List Int → Int
  | [] => 0
  | d :: ds => d + base * little base ds

theorem little_reverse (base : Int) (ds : List Nat) :
    little base (ds.map fun d : Nat => (d : Int)).reverse = denotes base ds := by
  induction hn : ds.length generalizing ds with
  | zero => rw [List.length_eq_zero_iff.mp hn]; rfl
  | succ n ih =>
    rcases List.eq_nil_or_concat ds with rfl | ⟨a, x, rfl⟩
    · simp at hn
    · rw [List.concat_eq_append] at *
      rw [denotes_append, List.map_append, List.reverse_append, ← ih a (by simpa using hn)]
      simp only [List.map_cons, List.map_nil, List.reverse_cons, List.reverse_nil, List.nil_append,
        List.singleton_append, little]
      omega

theorem fromAnyLoop_ok {base : Big} (hb : base.Ok) (bs : List Big) (hbs : ∀ b ∈ bs, b.Ok) :
    ∀ {v pow : Big}, v.Ok → pow.Ok → ∃ r, fromArrayLoop base bs v pow = .ok r ∧ r.Ok ∧
      r.toInt = v.toInt + pow.toInt * little base.toInt (bs.map Big.toInt) := by
  have hbind : ∀ {α β : Type} (a : α) (f : α → R β), (Except.ok a >>= f) = f a := fun _ _ => rfl
  induction bs with
  | nil => intro v pow hv hp; exact ⟨v, rfl, hv, by simp [little]⟩
  | cons d bs ih =>
    intro v pow hv hp
    obtain ⟨p, p1, p2, p3⟩ := multiply_ok (hbs d (by simp)) hp
    obtain ⟨w, w1, w2, w3⟩ := add_ok hv p2
    obtain ⟨q, q1, q2, q3⟩ := multiply_ok hp hb
    obtain ⟨r, r1, r2, r3⟩ := ih (fun b hb => hbs b (by simp [hb])) w2 q2
    refine ⟨r, by rw [fromArrayLoop, p1, hbind, w1, hbind, q1, hbind, r1], r2, ?_⟩
    rw [r3, w3, p3, q3, List.map_cons, little]
    grind

theorem fromAny_ok {base : Big} (hb : base.Ok) (bs : List Big) (hbs : ∀ b ∈ bs, b.Ok) (ds : List Nat)
    (h : bs.map Big.toInt = ds.map fun d : Nat => (d : Int)) (neg : Bool) :
    ∃ r, parseBaseFromArray bs base neg = .ok r ∧ r.Ok ∧
      r.toInt = if neg then -denotes base.toInt ds else denotes base.toInt ds := by
  obtain ⟨r, h1, h2, h3⟩ := fromAnyLoop_ok hb bs.reverse (fun b hb => hbs b (by simpa using hb))
    (v := .ofSmall 0) (pow := .ofSmall 1) (ofSmall_ok (by decide) (by decide)) (ofSmall_ok (by decide) (by decide))
  rw [List.map_reverse, h, little_reverse] at h3
  have hv : r.toInt = denotes base.toInt ds := by rw [h3]; simp [toInt_ofSmall]
  rw [parseBaseFromArray, h1]
  cases neg with
  | false => exact ⟨r, rfl, h2, by simp [hv]⟩
  | true =>
    obtain ⟨n1, n2⟩ := negate_ok h2
    exact ⟨r.negate, rfl, n1, by rw [n2, hv]; rfl⟩

theorem place_head (d : Nat) (rest : List Char) : (place d ++ rest).head? ≠ some '-' := by
  rw [place]
  by_cases hd : d < 36
  · rw [if_pos hd]
    obtain ⟨_, _, h, _⟩ := digit_seen _ _ (digitValue_digit hd)
    simpa using h
  · rw [if_neg hd]; simp

end Verif.BigJs
