/-! What further operations on integers should give. -/
namespace Verif.Spec

/-- The bits of an integer in two's complement, continued without end. -/
def bitOf (n : Int) (i : Nat) : Bool := decide (n / 2 ^ i % 2 = 1)

/-- An integer is determined by its bits. -/
theorem bitOf_ext {m n : Int} (h : ∀ i, bitOf m i = bitOf n i) : m = n := by
  have step : ∀ k : Nat, ∀ m n : Int, m.natAbs + n.natAbs ≤ k → (∀ i, bitOf m i = bitOf n i) → m = n := by
    intro k
    induction k with
    | zero => intro m n hk _; omega
    | succ k ih =>
      intro m n hk h
      have h0 := h 0
      simp only [bitOf, Int.pow_zero, Int.ediv_one, decide_eq_decide] at h0
      have half : ∀ i, bitOf (m / 2) i = bitOf (n / 2) i := by
        intro i
        have := h (i + 1)
        simp only [bitOf] at this ⊢
        rw [show (2 : Int) ^ (i + 1) = 2 * 2 ^ i by rw [Int.pow_succ, Int.mul_comm],
          ← Int.ediv_ediv_of_nonneg (by decide), ← Int.ediv_ediv_of_nonneg (by decide)] at this
        exact this
      by_cases hc : (m = 0 ∨ m = -1) ∧ (n = 0 ∨ n = -1)
      · omega
      · have := ih (m / 2) (n / 2) (by omega) half
        omega
  exact step _ m n (Nat.le_refl _) h

/-- Two integers combined bit by bit. -/
def bitByBit (f : Bool → Bool → Bool) (x y : Int) : Int :=
  if _h : (x = 0 ∨ x = -1) ∧ (y = 0 ∨ y = -1) then (if f (decide (x = -1)) (decide (y = -1)) then -1 else 0)
  else 2 * bitByBit f (x / 2) (y / 2) + (if f (decide (x % 2 = 1)) (decide (y % 2 = 1)) then 1 else 0)
termination_by x.natAbs + y.natAbs
decreasing_by omega

/-- The quotient of the division that rounds towards zero. -/
def quotient (x y : Int) : Int := x.sign * y.sign * (x.natAbs / y.natAbs : Nat)

/-- Its remainder, which has the sign of the dividend. -/
def remainder (x y : Int) : Int := x.sign * (x.natAbs % y.natAbs : Nat)

/-- A number times a power of two, rounded down. -/
def shifted (x n : Int) : Int := if n < 0 then x / 2 ^ n.natAbs else x * 2 ^ n.natAbs

/-- Methods without an argument. -/
inductive UnOp where
  | negate | abs | square | next | prev | not
  deriving DecidableEq, Repr

/-- Methods and functions of two big integers. -/
inductive BinOp where
  | add | subtract | multiply | divide | mod | pow | shiftLeft | shiftRight | and | or | xor | gcd | lcm | max | min
  deriving DecidableEq, Repr

/-- Expressions on big integers: decimal digits, methods without an argument, with one, shifts by a number
and `modPow`. -/
inductive Expr where
  | lit (n : Int)
  | un (o : UnOp) (a : Expr)
  | bin (o : BinOp) (a b : Expr)
  | shift (left : Bool) (a : Expr) (n : Int)
  | modPow (a e m : Expr)
  deriving Repr

/-- What the methods give for integers; `none` if they throw. -/
structure Meaning where
  un : UnOp → Int → Int
  bin : BinOp → Int → Int → Option Int
  shift : Bool → Int → Int → Option Int
  modPow : Int → Int → Int → Option Int

/-- What an expression denotes. -/
def Expr.value (m : Meaning) : Expr → Option Int
  | .lit n => some n
  | .un o a => do return m.un o (← a.value m)
  | .bin o a b => do m.bin o (← a.value m) (← b.value m)
  | .shift left a n => do m.shift left (← a.value m) n
  | .modPow a e k => do m.modPow (← a.value m) (← e.value m) (← k.value m)

/-- Methods without an argument. -/
def unMeaning : UnOp → Int → Int
  | .negate, x => -x
  | .abs, x => x.natAbs
  | .square, x => x * x
  | .next, x => x + 1
  | .prev, x => x - 1
  | .not, x => -x - 1

/-- Arithmetic. A power with a negative exponent is the quotient of one and a power. Shifts take any
integer, and round down. -/
def ideal : Meaning where
  un := unMeaning
  bin
    | .add, x, y => some (x + y)
    | .subtract, x, y => some (x - y)
    | .multiply, x, y => some (x * y)
    | .divide, x, y => if y = 0 then none else some (quotient x y)
    | .mod, x, y => if y = 0 then none else some (remainder x y)
    | .pow, x, n =>
      if 0 ≤ n then some (x ^ n.natAbs) else if x = 0 then none else some (quotient 1 (x ^ n.natAbs))
    | .shiftLeft, x, n => some (shifted x n)
    | .shiftRight, x, n => some (shifted x (-n))
    | .and, x, y => some (bitByBit (fun a b => a && b) x y)
    | .or, x, y => some (bitByBit (fun a b => a || b) x y)
    | .xor, x, y => some (bitByBit (fun a b => a != b) x y)
    | .gcd, x, y => some (Nat.gcd x.natAbs y.natAbs)
    | .lcm, x, y => some (Nat.lcm x.natAbs y.natAbs)
    | .max, x, y => some (if y ≤ x then x else y)
    | .min, x, y => some (if x ≤ y then x else y)
  shift left x n := some (shifted x (if left then n else -n))
  modPow x e m := if m = 0 ∨ e < 0 then none else some (remainder (x ^ e.natAbs) m)

/-- What the library makes of it: exponents are bounded, negative powers of zero are zero, a shift by a big
integer and by numbers above ten millions throws, the least common multiple of zero and zero throws, and
`modPow` is 1 for exponents that are not positive. -/
def actual : Meaning where
  un := unMeaning
  bin
    | .pow, x, n =>
      if 0 ≤ n then (if 2 ^ 53 ≤ n ∧ 2 ≤ x.natAbs then none else some (x ^ n.natAbs))
      else if x = 0 then some 0 else some (quotient 1 (x ^ n.natAbs))
    | .shiftLeft, _, _ => none
    | .shiftRight, _, _ => none
    | .lcm, x, y => if x = 0 ∧ y = 0 then none else some (Nat.lcm x.natAbs y.natAbs)
    | o, x, y => ideal.bin o x y
  shift left x n := if 10000000 < n.natAbs then none else some (shifted x (if left then n else -n))
  modPow x e m := if m = 0 then none else if e ≤ 0 then some 1 else some (remainder (x ^ e.natAbs) m)

/-- An expression without the cases in which the library does something else: every exponent is below `2^53`
(and that of `modPow` positive) or the base is not large, no negative power of zero is taken, shifts are by
numbers of at most ten millions, and no least common multiple of zero and zero is taken. -/
def Plain : Expr → Prop
  | .lit _ => True
  | .un _ a => Plain a
  | .bin o a b => Plain a ∧ Plain b ∧ ∀ x y, a.value ideal = some x → b.value ideal = some y →
    match o with
    | .pow => (y < 2 ^ 53 ∨ x.natAbs < 2) ∧ (0 ≤ y ∨ x ≠ 0)
    | .shiftLeft => False
    | .shiftRight => False
    | .lcm => x ≠ 0 ∨ y ≠ 0
    | _ => True
  | .shift _ a n => Plain a ∧ n.natAbs ≤ 10000000
  | .modPow a e m => Plain a ∧ Plain e ∧ Plain m ∧ ∀ y z, e.value ideal = some y → m.value ideal = some z →
    0 < y ∨ y = 0 ∧ 2 ≤ z.natAbs

end Verif.Spec
