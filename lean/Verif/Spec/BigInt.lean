/-! What big integers of JavaScript tracers should be: integers, written with digits. -/
namespace Verif.Spec

/-- The digit that stands for a number below 36: `0` to `9`, then `a` to `z`. -/
def digit (d : Nat) : Char := if d < 10 then Char.ofNat (48 + d) else Char.ofNat (87 + d)

/-- The digits of a number to a base from 2 on, the most significant first, without leading zeros. -/
def numeral (base n : Nat) : List Char :=
  if _h : base < 2 ∨ n < base then [digit n] else numeral base (n / base) ++ [digit (n % base)]
termination_by n
decreasing_by exact Nat.div_lt_self (by omega) (by omega)

/-- The text of an integer to a base. -/
def intNumeral (base : Nat) (n : Int) : List Char :=
  if n < 0 then '-' :: numeral base n.natAbs else numeral base n.natAbs

/-- The finite doubles: integers of at most 53 bits times a power of two from 2^-1074 to 2^971. -/
def IsDouble (x : Rat) : Prop :=
  ∃ (m : Int) (e : Nat), m.natAbs < 2 ^ 53 ∧ e ≤ 2045 ∧ x = m * 2 ^ e / 2 ^ 1074

/-- The distance of two numbers. -/
def ratDist (a b : Rat) : Rat := if a ≤ b then b - a else a - b

/-- A rounding to doubles: it takes every number that is not too large to a double, and no double is
nearer. Which one is taken of two that are equally near is left open. -/
def Rounding (fl : Rat → Rat) : Prop :=
  ∀ x, -((2 : Rat) ^ 1023) ≤ x → x ≤ (2 : Rat) ^ 1023 →
    IsDouble (fl x) ∧ ∀ d, IsDouble d → ratDist (fl x) x ≤ ratDist d x

/-- Arithmetic expressions on integers. -/
inductive Arith where
  | lit (n : Int)
  | neg (a : Arith)
  | abs (a : Arith)
  | add (a b : Arith)
  | sub (a b : Arith)
  | mul (a b : Arith)
  | div (a b : Arith)
  | mod (a b : Arith)
  deriving Repr

/-- The integer an expression denotes, if it does not divide by zero. Division rounds towards zero, and the
remainder has the sign of the dividend. -/
def Arith.value : Arith → Option Int
  | .lit n => some n
  | .neg a => a.value.map fun x => -x
  | .abs a => a.value.map fun x => (x.natAbs : Int)
  | .add a b => do return (← a.value) + (← b.value)
  | .sub a b => do return (← a.value) - (← b.value)
  | .mul a b => do return (← a.value) * (← b.value)
  | .div a b => do
    let x ← a.value
    let y ← b.value
    if y = 0 then none else some (x.sign * y.sign * (x.natAbs / y.natAbs))
  | .mod a b => do
    let x ← a.value
    let y ← b.value
    if y = 0 then none else some (x.sign * (x.natAbs % y.natAbs))

end Verif.Spec
