import Verif.Spec.BigCompare
import Verif.Props.BigNumber
import Verif.Props.BigInt
/-! C131: big integers compared and combined with numbers and texts. -/
namespace Verif.Props
open BigJs Spec

/-- The method gives the answer to a question. -/
def GivesAnswer (r : R Bool) (p : Prop) : Prop := (p → r = .ok true) ∧ (¬ p → r = .ok false)

theorem answers_cmp (k : CompareMethod) (m n : Int) : GivesAnswer (.ok (k.ofOrder (cmp m n))) (Asked k m n) := by
  have e1 : (m : Rat) = n ↔ m = n := Rat.intCast_inj
  have e2 : (m : Rat) < n ↔ m < n := Rat.intCast_lt_intCast
  have e3 : (n : Rat) < m ↔ n < m := Rat.intCast_lt_intCast
  have e4 : (m : Rat) ≤ n ↔ m ≤ n := Rat.intCast_le_intCast
  have e5 : (n : Rat) ≤ m ↔ n ≤ m := Rat.intCast_le_intCast
  unfold GivesAnswer Asked CompareMethod.ofOrder cmp
  cases k <;> simp only [ne_eq, e1, e2, e3, e4, e5] <;> constructor <;> intro h <;> congr 1 <;>
    (repeat' split) <;> simp <;> omega

/-- If the value given is read as an integer, the method compares with it. -/
theorem compareWith_int {fl : Rat → Rat} {a : Big} (ha : a.Ok) (k : CompareMethod) {v : BigArg} {n : Int}
    (hv : ∀ s t, v ≠ .num (.inf s) t) (h : GivesInt (parseValue fl v) n) :
    GivesAnswer (a.compareWith fl k v) (Asked k a.toInt n) := by
  obtain ⟨b, h1, h2, h3, -⟩ := h
  have hc : a.compareArg fl v = .ok (cmp a.toInt n) := by
    rw [← h3, ← compare_ok ha h2]
    unfold Big.compareArg
    split
    · rename_i s t
      exact absurd rfl (hv s t)
    · rw [h1]
      rfl
  rw [Big.compareWith, hc]
  exact answers_cmp k _ _

theorem compareWith_throws {fl : Rat → Rat} (a : Big) (k : CompareMethod) {v : BigArg}
    (hv : ∀ s t, v ≠ .num (.inf s) t) (h : Throws (parseValue fl v)) :
    ∃ msg, a.compareWith fl k v = .error (.expect msg) := by
  obtain ⟨msg, h1⟩ := h
  refine ⟨msg, ?_⟩
  have hc : a.compareArg fl v = .error (.expect msg) := by
    unfold Big.compareArg
    split
    · rename_i s t
      exact absurd rfl (hv s t)
    · rw [h1]
      rfl
  rw [Big.compareWith, hc]
  rfl

theorem isDouble_small {n : Int} (h : n.natAbs < 2 ^ 53) : IsDouble n := by
  have := isDouble_mul (m := n) (e := 0) h (by decide)
  rwa [Rat.pow_zero, Rat.mul_one] at this

/-- Infinities are compared as numbers beyond all integers. -/
theorem compareWith_inf (fl : Rat → Rat) (a : Big) (k : CompareMethod) (negative : Bool) (text : List Char) (m y : Rat)
    (hy : if negative then y < m else m < y) :
    GivesAnswer (a.compareWith fl k (.num (.inf negative) text)) (Asked k m y) := by
  have hr : a.compareWith fl k (.num (.inf negative) text) = .ok (k.ofOrder (if negative then 1 else -1)) := rfl
  rw [hr]
  unfold GivesAnswer Asked CompareMethod.ofOrder
  cases negative <;> cases k <;> simp at hy ⊢ <;> grind

/-- **C131, exactly.** A big integer is compared

* with numbers that are integers below `2^53` in size as the integers are;
* with larger numbers as with the integer `bigint(x)`, which need not be the number (C84);
* with the infinities as with numbers above or below it;
* with decimal literals as with the integer they are read as (C83).

With numbers that are no integers, `NaN` and literals that are rejected, the methods throw. -/
theorem C131_exact (fl : Rat → Rat) (hfl : Rounding fl) (e : Arith) (m : Int) (he : e.value = some m)
    (k : CompareMethod) : ∃ a, evalBig fl e = .ok a ∧
    (∀ (n : Int) text, n.natAbs < 2 ^ 53 → GivesAnswer (a.compareWith fl k (.num (.fin n) text)) (Asked k m n)) ∧
    (∀ (x : Rat) text z, GivesInt (parseNumber fl x text) z →
      GivesAnswer (a.compareWith fl k (.num (.fin x) text)) (Asked k m z)) ∧
    (∀ (x : Rat) text, IsDouble x → (∀ n : Int, x ≠ n) →
      ∃ msg, a.compareWith fl k (.num (.fin x) text) = .error (.expect msg)) ∧
    (∀ text, ∃ msg, a.compareWith fl k (.num .nan text) = .error (.expect msg)) ∧
    (∀ (negative : Bool) text (y : Rat), (if negative then y < m else (m : Rat) < y) →
      GivesAnswer (a.compareWith fl k (.num (.inf negative) text)) (Asked k m y)) ∧
    (∀ (l : Literal) z, GivesInt (parseText fl l.text) z →
      GivesAnswer (a.compareWith fl k (.str l.text)) (Asked k m z)) ∧
    (∀ l : Literal, Throws (parseText fl l.text) →
      ∃ msg, a.compareWith fl k (.str l.text) = .error (.expect msg)) := by
  have h := evalBig_ok hfl e
  rw [he] at h
  obtain ⟨a, h1, h2, h3⟩ := h
  subst h3
  refine ⟨a, h1, ?_, ?_, ?_, ?_, ?_, ?_, ?_⟩
  · intro n text hn
    exact compareWith_int h2 k (by simp) ((C84_exact fl hfl n (isDouble_small hn) text).1 n rfl hn)
  · intro x text z hz
    exact compareWith_int h2 k (by simp) hz
  · intro x text hd hx
    exact compareWith_throws a k (by simp) ((C84_exact fl hfl x hd text).2.1 hx)
  · intro text
    exact compareWith_throws a k (by simp) (C84_special fl text).1
  · intro negative text y hy
    exact compareWith_inf fl a k negative text _ y hy
  · intro l z hz
    exact compareWith_int h2 k (by simp) hz
  · intro l hl
    exact compareWith_throws a k (by simp) hl

/-- Numbers are in the order of what is rounded to one of them and what is not. -/
theorem order_rounded {fl : Rat → Rat} (hfl : Rounding fl) {M Z X : Nat} (hd : IsDouble (X : Rat))
    (hX : (X : Rat) ≤ 2 ^ 1023) (hZ : (Z : Rat) ≤ 2 ^ 1023) (hz : fl (Z : Nat) = (X : Rat))
    (hM : (M : Rat) ≤ 2 ^ 1023 → fl (M : Nat) ≠ (X : Rat)) : (M < Z ↔ M < X) ∧ (Z < M ↔ X < M) := by
  by_cases hb : (M : Rat) ≤ 2 ^ 1023
  · have hx := rounds_exact hfl (x := (X : Rat)) (by exact_mod_cast Nat.zero_le X) hX hd
    have hne := hM hb
    have up : ∀ {a b : Nat}, (b : Rat) ≤ 2 ^ 1023 → a ≤ b → fl (a : Nat) ≤ fl (b : Nat) := fun hb h =>
      rounds_mono hfl (by exact_mod_cast Nat.zero_le _) hb (natCast_le h)
    have hneZ : M ≠ Z := fun h => hne (by rw [h, hz])
    have hneX : M ≠ X := fun h => hne (by rw [h, hx])
    have a1 : M < Z → ¬ X < M := fun h h' => by
      have p := up hZ (Nat.le_of_lt h)
      have q := up hb (Nat.le_of_lt h')
      grind
    have a2 : Z < M → ¬ M < X := fun h h' => by
      have p := up hb (Nat.le_of_lt h)
      have q := up hX (Nat.le_of_lt h')
      grind
    omega
  · have p : X < M := Nat.lt_of_not_le fun h => hb (by have := natCast_le h; grind)
    have q : Z < M := Nat.lt_of_not_le fun h => hb (by have := natCast_le h; grind)
    omega

/-- **C131, in part.** A big integer is compared with a number as the numbers are, if the number is an integer of
at most `2^1023`, and, if that is `2^53` or more, if the big integer is not rounded to it. Missing: see
`C131_refuted`. -/
theorem C131_right_partial (fl : Rat → Rat) (hfl : Rounding fl) (e : Arith) (m : Int) (he : e.value = some m)
    (k : CompareMethod) (x : Int) (text : List Char) (hd : IsDouble x) (hs : ((x.natAbs : Nat) : Rat) ≤ 2 ^ 1023)
    (h : x.natAbs < 2 ^ 53 ∨ IsText fl x text ∧
      ((m < 0 ↔ x < 0) → fl (m.natAbs : Nat) ≠ (x.natAbs : Nat))) :
    ∃ a, evalBig fl e = .ok a ∧ GivesAnswer (a.compareWith fl k (.num (.fin x) text)) (Asked k m x) := by
  obtain ⟨a, h1, h2, h3, -⟩ := C131_exact fl hfl e m he k
  refine ⟨a, h1, ?_⟩
  rcases h with h | ⟨ht, hne⟩
  · exact h2 x text h
  by_cases hlt : x.natAbs < 2 ^ 53
  · exact h2 x text hlt
  obtain ⟨z, k1, k2, k3, k4, k5⟩ := C84_back_partial fl hfl x hd text ht (by rw [abs_cast]; exact hs) x rfl
  have hans := h3 x text z k1
  rw [abs_cast] at k2
  have hxz : z < 0 ↔ x < 0 := k3.trans ⟨fun h => by exact_mod_cast h, fun h => by exact_mod_cast h⟩
  have hd' : IsDouble (x.natAbs : Nat) := by
    rw [← abs_cast]
    split
    · exact isDouble_neg hd
    · exact hd
  have hz' : ((z.natAbs : Nat) : Rat) ≤ 2 ^ 1023 := by
    have := natCast_le k5
    rwa [Rat.natCast_pow] at this
  have hord : (m < z ↔ m < x) ∧ (z < m ↔ x < m) := by
    by_cases hm : m < 0 ↔ x < 0
    · obtain ⟨p, q⟩ := order_rounded hfl (M := m.natAbs) (Z := z.natAbs) (X := x.natAbs) hd' hs hz' k2
        (fun _ => hne hm)
      by_cases hx : x < 0
      · have := hm.mpr hx
        have := hxz.mpr hx
        constructor <;> constructor <;> intro _ <;> omega
      · have : ¬ m < 0 := fun h => hx (hm.mp h)
        have : ¬ z < 0 := fun h => hx (hxz.mp h)
        constructor <;> constructor <;> intro _ <;> omega
    · by_cases hx : x < 0
      · have : ¬ m < 0 := fun h => hm ⟨fun _ => hx, fun _ => h⟩
        have := hxz.mpr hx
        omega
      · have : ¬ z < 0 := fun h => hx (hxz.mp h)
        have : m < 0 := Int.not_le.mp fun h => hm ⟨fun h' => by omega, fun h' => absurd h' hx⟩
        omega
  have hasked : Asked k m z ↔ Asked k m x := by
    have e1 : ∀ n : Int, (m : Rat) = n ↔ m = n := fun _ => Rat.intCast_inj
    have e2 : ∀ n : Int, (m : Rat) < n ↔ m < n := fun _ => Rat.intCast_lt_intCast
    have e3 : ∀ n : Int, (n : Rat) < m ↔ n < m := fun _ => Rat.intCast_lt_intCast
    have e4 : ∀ n : Int, (m : Rat) ≤ n ↔ m ≤ n := fun _ => Rat.intCast_le_intCast
    have e5 : ∀ n : Int, (n : Rat) ≤ m ↔ n ≤ m := fun _ => Rat.intCast_le_intCast
    unfold Asked
    cases k <;> simp only [ne_eq, e1, e2, e3, e4, e5] <;> omega
  unfold GivesAnswer at hans ⊢
  rwa [hasked] at hans

/-- The second case is met by the number `2**60` and the big integer `2^60 - 2^53`, which is another number. -/
example : ∃ fl, Rounding fl ∧ ∃ text, IsText fl ((2 ^ 60 : Int) : Rat) text ∧
    fl ((2 ^ 60 - 2 ^ 53 : Int).natAbs : Nat) ≠ ((2 ^ 60 : Int).natAbs : Nat) := by
  obtain ⟨fl, hfl⟩ := rounding_exists
  have hd : ∀ (m : Int) (e : Nat), m.natAbs < 2 ^ 53 → e ≤ 971 → IsDouble (m * 2 ^ e) := fun m e => isDouble_mul
  have h1 := hd 1 60 (by decide) (by decide)
  have h2 := hd 127 53 (by decide) (by decide)
  rw [show ((1 : Int) : Rat) * 2 ^ 60 = (((2 ^ 60 : Int).natAbs : Nat) : Rat) by decide +kernel] at h1
  rw [show ((127 : Int) : Rat) * 2 ^ 53 = (((2 ^ 60 - 2 ^ 53 : Int).natAbs : Nat) : Rat) by decide +kernel] at h2
  refine ⟨fl, hfl, ?_⟩
  obtain ⟨text, ht⟩ := C84_text_exists fl hfl (2 ^ 60) (by decide) h1 (by decide +kernel)
  refine ⟨text, ht, ?_⟩
  rw [rounds_exact hfl (by decide +kernel) (by decide +kernel) h2]
  decide +kernel

/-- **C131 fails** from `2^53` on and for fractions: the big integer `2^60` is not equal to the number `2**60`,
and whether a big integer is greater than `0.5` cannot be asked. -/
theorem C131_refuted (fl : Rat → Rat) (hfl : Rounding fl) (text : List Char) (ht : IsText fl (2 ^ 60) text) :
    ∃ a, evalBig fl (.lit (2 ^ 60)) = .ok a ∧ a.compareWith fl .equals (.num (.fin (2 ^ 60)) text) = .ok false ∧
      ∀ text', ∃ msg, a.compareWith fl .greater (.num (.fin (1 / 2)) text') = .error (.expect msg) := by
  obtain ⟨a, h1, -, h2, -⟩ := C131_exact fl hfl (.lit (2 ^ 60)) (2 ^ 60) rfl .equals
  obtain ⟨a', h1', -, -, h3, -⟩ := C131_exact fl hfl (.lit (2 ^ 60)) (2 ^ 60) rfl .greater
  rw [h1] at h1'
  cases h1'
  have hd : IsDouble (2 ^ 60) := by
    have := isDouble_mul (m := 1) (e := 60) (by decide) (by decide)
    rwa [show ((1 : Int) : Rat) * 2 ^ 60 = 2 ^ 60 by decide +kernel] at this
  refine ⟨a, h1, ?_, fun text' => h3 _ text' ?_ ?_⟩
  · obtain ⟨ds, n, j, -, -, hg⟩ := (C84_exact fl hfl _ hd text).2.2 (by decide +kernel) (by decide +kernel) ht
    refine (h2 _ text _ hg).2 fun heq => C84_refuted fl hfl text ht ?_
    have heq' : (2 ^ 60 : Int) = signed (decide ((2 : Rat) ^ 60 < 0)) (positional 10 ds * 10 ^ j) :=
      Rat.intCast_inj.mp heq
    rw [heq']
    exact hg
  · exact ⟨1, 1073, by decide, by decide, by decide +kernel⟩
  · intro n hn
    have h2 : ((1 / 2 : Rat)).den = ((n : Int) : Rat).den := by rw [hn]
    rw [Rat.den_intCast] at h2
    exact absurd h2 (by decide +kernel)

/-- The methods called as in an expression; `fl` rounds to doubles, and numbers have the texts `texts`. -/
def evalMixed (fl : Rat → Rat) (texts : Int → List Char) : Mixed → R Big
  | .lit n => parseText fl (intNumeral 10 n)
  | .both o a b => do
    let x ← evalMixed fl texts a
    let y ← evalMixed fl texts b
    x.calculate fl o (.big y)
  | .number o a n => do
    let x ← evalMixed fl texts a
    x.calculate fl o (.num (.fin n) (texts n))
  | .text o a l _ => do
    let x ← evalMixed fl texts a
    x.calculate fl o (.str l.text)

/-- The numbers are below `2^53` in size, and the texts are decimal literals of the integers, which are below
`2^53` in size or read digit by digit. -/
def Readable : Mixed → Prop
  | .lit _ => True
  | .both _ a b => Readable a ∧ Readable b
  | .number _ a n => Readable a ∧ n.natAbs < 2 ^ 53
  | .text _ a l n => Readable a ∧ l.Valid ∧ l.value = n ∧ (n.natAbs < 2 ^ 53 ∨ ByDigits l)

theorem run_ok {fl : Rat → Rat} (hfl : Rounding fl) (o : ArithMethod) {x y : Big} (hx : x.Ok) (hy : y.Ok) :
    Evaluated (o.run fl x y) (MethodValue o x.toInt y.toInt) := by
  cases o with
  | add => exact add_ok hx hy
  | subtract => exact subtract_ok hx hy
  | multiply => exact multiply_ok hx hy
  | divide =>
    show Evaluated (do let (q, _) ← x.divmod fl y; .ok q) (MethodValue .divide x.toInt y.toInt)
    unfold MethodValue
    by_cases h0 : y.toInt = 0
    · simp only [h0, if_true]
      rw [divmod_zero fl x hy h0]
      rfl
    · obtain ⟨q, r, j1, j2, j3, j4, j5⟩ := divmod_ok hfl hx hy h0
      simp only [h0, if_false]
      rw [j1]
      exact ⟨q, rfl, j2, by rw [j4, tdiv_spec]; simp⟩
  | mod =>
    show Evaluated (do let (_, r) ← x.divmod fl y; .ok r) (MethodValue .mod x.toInt y.toInt)
    unfold MethodValue
    by_cases h0 : y.toInt = 0
    · simp only [h0, if_true]
      rw [divmod_zero fl x hy h0]
      rfl
    · obtain ⟨q, r, j1, j2, j3, j4, j5⟩ := divmod_ok hfl hx hy h0
      simp only [h0, if_false]
      rw [j1]
      exact ⟨r, rfl, j3, by rw [j5, tmod_spec]; simp⟩

theorem calculate_ok {fl : Rat → Rat} (hfl : Rounding fl) (o : ArithMethod) {x : Big} (hx : x.Ok) {v : BigArg} {n : Int}
    (h : GivesInt (parseValue fl v) n) : Evaluated (x.calculate fl o v) (MethodValue o x.toInt n) := by
  obtain ⟨b, h1, h2, h3, -⟩ := h
  rw [Big.calculate, h1, ← h3]
  exact run_ok hfl o hx h2

theorem evalMixed_ok {fl : Rat → Rat} (hfl : Rounding fl) (texts : Int → List Char) (e : Mixed) (hr : Readable e) :
    Evaluated (evalMixed fl texts e) e.value := by
  have one : ∀ {r : R Big} {v : Option Int} (f : Int → Option Int) (g : Big → R Big),
      (∀ x : Big, x.Ok → Evaluated (g x) (f x.toInt)) → Evaluated r v →
      Evaluated (do let x ← r; g x) (do let x ← v; f x) := by
    intro r v f g h hr
    cases v with
    | none =>
      simp only [Evaluated] at hr
      rw [hr]
      rfl
    | some n =>
      obtain ⟨b, h1, h2, h3⟩ := hr
      have := h b h2
      rw [h3] at this
      rw [h1]
      exact this
  induction e with
  | lit n =>
    obtain ⟨b, h1, h2, h3, -⟩ := C83_numerals fl hfl n
    exact ⟨b, h1, h2, h3⟩
  | both o a b iha ihb =>
    refine one _ _ (fun x hx => one _ _ (fun y hy => ?_) (ihb hr.2)) (iha hr.1)
    exact run_ok hfl o hx hy
  | number o a n iha =>
    refine one _ _ (fun x hx => ?_) (iha hr.1)
    exact calculate_ok hfl o hx ((C84_exact fl hfl n (isDouble_small hr.2) _).1 n rfl hr.2)
  | text o a l n iha =>
    refine one _ _ (fun x hx => ?_) (iha hr.1)
    exact calculate_ok hfl o hx (C83_reads_partial fl hfl l hr.2.1 n hr.2.2.1 hr.2.2.2)

/-- **C131, arithmetic.** Expressions whose operands on the right are expressions, numbers below `2^53` in size or
texts of integers that are read (C83) are evaluated to the integers they denote, or throw if they divide by zero. -/
theorem C131_arith_partial (fl : Rat → Rat) (hfl : Rounding fl) (texts : Int → List Char) (e : Mixed)
    (hr : Readable e) :
    match e.value with
    | some n => ∃ b, evalMixed fl texts e = .ok b ∧ b.toText = .ok (intNumeral 10 n)
    | none => evalMixed fl texts e = .error (.expect "Cannot divide by zero") := by
  have h := evalMixed_ok hfl texts e hr
  cases hv : e.value with
  | none => rw [hv] at h; exact h
  | some n =>
    rw [hv] at h
    obtain ⟨b, h1, h2, h3⟩ := h
    exact ⟨b, h1, by rw [toText_ok h2, h3]⟩

/-- Ten to the thirty, written with an exponent, is divided by 7, and the quotient is reduced by `"12"`. -/
example : Readable (.text .subtract (.number .divide (.text .multiply (.lit 1) ⟨.none, [1], false, [],
      some ⟨false, .none, [3, 0]⟩⟩ (10 ^ 30)) 7) ⟨.none, [1, 2], false, [], none⟩ 12) ∧
    (Mixed.text .subtract (.number .divide (.text .multiply (.lit 1) ⟨.none, [1], false, [],
      some ⟨false, .none, [3, 0]⟩⟩ (10 ^ 30)) 7) ⟨.none, [1, 2], false, [], none⟩ 12).value =
      some 142857142857142857142857142845 := by
  refine ⟨⟨⟨⟨trivial, ?_, by decide +kernel, .inr ?_⟩, by decide⟩, ?_, by decide +kernel, .inl (by decide)⟩, by decide +kernel⟩
  · simp [Literal.Valid]
  · decide +kernel
  · simp [Literal.Valid]

end Verif.Props
