import Verif.Lemmas.BigIntText
import Verif.Lemmas.Rounding
/-! C76 and C77: the big integers of JavaScript tracers. -/
namespace Verif.Props
open BigJs Spec

/-- **C76.** The big integer made of the decimal digits of a number, as for every `U256` a tracer is given,
is written with the same decimal digits (`toString`, `toJSON`), and to every base from 2 to 36 with the
digits of the number; the loop that finds those needs no more rounds than the number. The same holds for
negative numbers. -/
theorem C76_text (n : Int) : ∃ b, parseStringValue (intNumeral 10 n) = some (.ok b) ∧
    b.toText = .ok (intNumeral 10 n) ∧
    ∀ base : Nat, 2 ≤ base → base ≤ 36 → ∀ fl fuel, n.natAbs < fuel →
      b.toBase fl fuel base = .ok (intNumeral base n) := by
  obtain ⟨b, h1, h2, h3⟩ := parse_numeral n
  refine ⟨b, h1, by rw [toText_ok h2, h3], fun base hb hb' fl fuel hf => ?_⟩
  rw [toBase_ok fl h2 hb hb' (by rw [h3]; exact hf), h3]

/-- The digits are those of Lean's `toString`, and different numbers have different digits. -/
theorem numeral_repr (n : Nat) : String.ofList (numeral 10 n) = toString n := by
  rw [numeral_ten, Nat.toString_eq_ofList_toDigits]
  rfl

/-- The largest word. -/
example : (match parseStringValue
      "115792089237316195423570985008687907853269984665640564039457584007913129639935".toList with
    | some (.ok b) =>
      b.toText.toOption == some
        "115792089237316195423570985008687907853269984665640564039457584007913129639935".toList &&
      (b.toBase id 70 16).toOption == some (List.replicate 64 'f')
    | _ => false) = true := by decide +kernel

/-- The methods `negate`, `abs`, `add`, `subtract`, `multiply`, `divide` and `mod` called as in an
expression, on big integers made of decimal digits; `fl` rounds to doubles. -/
def evalBig (fl : Rat → Rat) : Arith → R Big
  | .lit n => (parseStringValue (intNumeral 10 n)).getD (.error .todo)
  | .neg a => do
    let x ← evalBig fl a
    .ok x.negate
  | .abs a => do
    let x ← evalBig fl a
    .ok x.abs
  | .add a b => do
    let x ← evalBig fl a
    let y ← evalBig fl b
    x.add y
  | .sub a b => do
    let x ← evalBig fl a
    let y ← evalBig fl b
    x.subtract y
  | .mul a b => do
    let x ← evalBig fl a
    let y ← evalBig fl b
    x.multiply y
  | .div a b => do
    let x ← evalBig fl a
    let y ← evalBig fl b
    let (q, _) ← x.divmod fl y
    .ok q
  | .mod a b => do
    let x ← evalBig fl a
    let y ← evalBig fl b
    let (_, r) ← x.divmod fl y
    .ok r

/-- What evaluating gives for what an expression denotes: an integer, or the error. -/
def Evaluated (r : R Big) : Option Int → Prop
  | some n => ∃ b, r = .ok b ∧ b.Ok ∧ b.toInt = n
  | none => r = .error (.expect "Cannot divide by zero")

theorem tdiv_spec (x y : Int) : x.tdiv y = x.sign * y.sign * (x.natAbs / y.natAbs : Nat) := by
  match x, y with
  | .ofNat m, .ofNat n =>
    cases m <;> cases n <;> simp [Int.sign] <;> rfl
  | .ofNat m, .negSucc n => cases m <;> simp [Int.sign, Int.tdiv] <;> rfl
  | .negSucc m, .ofNat n => cases n <;> simp [Int.sign, Int.tdiv] <;> rfl
  | .negSucc m, .negSucc n => simp [Int.sign, Int.tdiv]

theorem tmod_spec (x y : Int) : x.tmod y = x.sign * (x.natAbs % y.natAbs : Nat) := by
  match x, y with
  | .ofNat m, .ofNat n => cases m <;> simp [Int.sign] <;> rfl
  | .ofNat m, .negSucc n => cases m <;> simp [Int.sign, Int.tmod] <;> rfl
  | .negSucc m, .ofNat n => simp [Int.sign, Int.tmod]
  | .negSucc m, .negSucc n => simp [Int.sign, Int.tmod]

theorem evalBig_ok {fl : Rat → Rat} (hfl : Rounding fl) (e : Arith) : Evaluated (evalBig fl e) e.value := by
  have two : ∀ {a b : Arith} (f : Int → Int → Option Int) (g : Big → Big → R Big),
      (∀ x y : Big, x.Ok → y.Ok → Evaluated (g x y) (f x.toInt y.toInt)) →
      Evaluated (evalBig fl a) a.value → Evaluated (evalBig fl b) b.value →
      Evaluated (do let x ← evalBig fl a; let y ← evalBig fl b; g x y)
        (do let x ← a.value; let y ← b.value; f x y) := by
    intro a b f g h ha hb
    cases hva : a.value with
    | none =>
      rw [hva] at ha
      simp only [Evaluated] at ha
      rw [ha]
      rfl
    | some x =>
      rw [hva] at ha
      obtain ⟨bx, h1, h2, h3⟩ := ha
      cases hvb : b.value with
      | none =>
        rw [hvb] at hb
        simp only [Evaluated] at hb
        rw [h1, hb]
        rfl
      | some y =>
        rw [hvb] at hb
        obtain ⟨cy, k1, k2, k3⟩ := hb
        rw [h1, k1]
        have := h bx cy h2 k2
        rw [h3, k3] at this
        exact this
  induction e with
  | lit n =>
    obtain ⟨b, h1, h2, h3⟩ := parse_numeral n
    exact ⟨b, by rw [evalBig, h1]; rfl, h2, h3⟩
  | neg a ih =>
    rw [evalBig, Arith.value]
    cases hv : a.value with
    | none => rw [hv] at ih; simp only [Evaluated] at ih; rw [ih]; rfl
    | some n =>
      rw [hv] at ih
      obtain ⟨x, h1, h2, h3⟩ := ih
      obtain ⟨k1, k2⟩ := negate_ok h2
      exact ⟨x.negate, by rw [h1]; rfl, k1, by rw [k2, h3]⟩
  | abs a ih =>
    rw [evalBig, Arith.value]
    cases hv : a.value with
    | none => rw [hv] at ih; simp only [Evaluated] at ih; rw [ih]; rfl
    | some n =>
      rw [hv] at ih
      obtain ⟨x, h1, h2, h3⟩ := ih
      obtain ⟨k1, k2⟩ := abs_ok h2
      exact ⟨x.abs, by rw [h1]; rfl, k1, by rw [k2, h3]⟩
  | add a b iha ihb => exact two (fun x y => some (x + y)) Big.add (fun _ _ => add_ok) iha ihb
  | sub a b iha ihb => exact two (fun x y => some (x - y)) Big.subtract (fun _ _ => subtract_ok) iha ihb
  | mul a b iha ihb => exact two (fun x y => some (x * y)) Big.multiply (fun _ _ => multiply_ok) iha ihb
  | div a b iha ihb =>
    refine two (fun x y => if y = 0 then none else some (x.sign * y.sign * (x.natAbs / y.natAbs)))
      (fun x y => do let (q, _) ← x.divmod fl y; .ok q) (fun x y hx hy => ?_) iha ihb
    by_cases h0 : y.toInt = 0
    · simp only [h0, if_true]
      rw [divmod_zero fl x hy h0]
      rfl
    · obtain ⟨q, r, j1, j2, j3, j4, j5⟩ := divmod_ok hfl hx hy h0
      simp only [h0, if_false]
      rw [j1]
      exact ⟨q, rfl, j2, by rw [j4, tdiv_spec]; simp⟩
  | mod a b iha ihb =>
    refine two (fun x y => if y = 0 then none else some (x.sign * (x.natAbs % y.natAbs)))
      (fun x y => do let (_, r) ← x.divmod fl y; .ok r) (fun x y hx hy => ?_) iha ihb
    by_cases h0 : y.toInt = 0
    · simp only [h0, if_true]
      rw [divmod_zero fl x hy h0]
      rfl
    · obtain ⟨q, r, j1, j2, j3, j4, j5⟩ := divmod_ok hfl hx hy h0
      simp only [h0, if_false]
      rw [j1]
      exact ⟨r, rfl, j3, by rw [j5, tmod_spec]; simp⟩

/-- **C77.** Arithmetic with big integers is that of the integers, whatever their sizes and signs: every
expression of `negate`, `abs`, `add`, `subtract`, `multiply`, `divide` and `mod` that does not divide by
zero can be evaluated, and what it gives is written as the integer the expression denotes; the others
throw. This holds however numbers are rounded to doubles. -/
theorem C77_arith (fl : Rat → Rat) (hfl : Rounding fl) (e : Arith) :
    match e.value with
    | some n => ∃ b, evalBig fl e = .ok b ∧ b.toText = .ok (intNumeral 10 n)
    | none => evalBig fl e = .error (.expect "Cannot divide by zero") := by
  have h := evalBig_ok hfl e
  cases hv : e.value with
  | none => rw [hv] at h; exact h
  | some n =>
    rw [hv] at h
    obtain ⟨b, h1, h2, h3⟩ := h
    exact ⟨b, h1, by rw [toText_ok h2, h3]⟩

/-- **C77.** `compare` orders the results of expressions like the integers they denote. -/
theorem C77_compare (fl : Rat → Rat) (hfl : Rounding fl) (e f : Arith) (m n : Int) (he : e.value = some m)
    (hf : f.value = some n) : ∃ a b, evalBig fl e = .ok a ∧ evalBig fl f = .ok b ∧
    (a.compare b = -1 ↔ m < n) ∧ (a.compare b = 0 ↔ m = n) ∧ (a.compare b = 1 ↔ n < m) := by
  have h := evalBig_ok hfl e
  have k := evalBig_ok hfl f
  rw [he] at h
  rw [hf] at k
  obtain ⟨a, h1, h2, h3⟩ := h
  obtain ⟨b, k1, k2, k3⟩ := k
  refine ⟨a, b, h1, k1, ?_⟩
  rw [compare_ok h2 k2, h3, k3, cmp]
  split
  · exact ⟨by omega, by omega, by omega⟩
  · split
    · exact ⟨by omega, by omega, by omega⟩
    · exact ⟨by omega, by omega, by omega⟩

/-- **C77, rounding.** Where the library divides numbers and rounds the quotient to an integer, the integer
is that of the exact quotient, although doubles cannot hold the quotient: so integer division models it. -/
theorem C77_quotients (fl : Rat → Rat) (hfl : Rounding fl) (a b : Int) (ha : a.natAbs ≤ 2 ^ 53)
    (hb : b.natAbs ≤ 2 ^ 53) (h0 : b ≠ 0) :
    truncate (fl (a / b)) = a.tdiv b ∧
    (0 < b → (fl (a / b)).floor = a / b ∧ (fl (a / b)).ceil = -(-a / b)) :=
  ⟨truncate_fl hfl ha hb h0, fun h => ⟨floor_fl hfl ha (by omega) (by omega), ceil_fl hfl ha (by omega) (by omega)⟩⟩

/-- There is such a rounding. -/
theorem C77_rounding : ∃ fl, Rounding fl := rounding_exists

/-- The square of the largest number of 64 bits, its difference from a larger number, and what is
left of the opposite of that number when it is divided. -/
example : (match parseStringValue "18446744073709551615".toList,
      parseStringValue "340282366920938463463374607431768211456".toList with
    | some (.ok x), some (.ok y) =>
      ((x.multiply x).bind Big.toText).toOption == some "340282366920938463426481119284349108225".toList &&
      (((x.multiply x).bind fun p => p.subtract y).bind Big.toText).toOption ==
        some "-36893488147419103231".toList &&
      (match x.multiply x with
        | .ok p => p.compare y == -1
        | _ => false) &&
      (match y.negate.divmod id x with
        | .ok (q, r) => q.toText.toOption == some "-18446744073709551617".toList &&
          r.toText.toOption == some "-1".toList
        | _ => false)
    | _, _ => false) = true := by decide +kernel

end Verif.Props
