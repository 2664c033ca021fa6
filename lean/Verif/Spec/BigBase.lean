import Verif.Spec.BigRead
/-! Specification of writing numbers to any base, also a negative one: independent of the library. -/
namespace Verif.Spec

/-- A digit as text: a character for those below 36, the decimal number in angle brackets for others. -/
def place (d : Nat) : List Char := if d < 36 then [digit d] else '<' :: numeral 10 d ++ ['>']

/-- The digits of a number to the base of ten millions, the least significant first. -/
def groups (n : Nat) : List Nat := if _h : n < 10000000 then [n] else n % 10000000 :: groups (n / 10000000)
termination_by n
decreasing_by exact Nat.div_lt_self (by omega) (by omega)

/-- A digit as it is written to any base: from `2^53` on the library keeps it as an array, and writes the elements
of that. -/
def placeAny (d : Nat) : List Char :=
  if d < 2 ^ 53 then place d else '<' :: (((groups d).map (numeral 10)).intersperse [',']).flatten ++ ['>']

/-- The number that digits denote to a base, the most significant first. -/
def denotes (base : Int) : List Nat → Int
  | [] => 0
  | d :: ds => d * base ^ ds.length + denotes base ds

/-- The digits of a number to a base: all below the absolute value of the base, and without leading zeros. -/
def AreDigits (base n : Int) (ds : List Nat) : Prop :=
  ds ≠ [] ∧ (∀ d ∈ ds, d < base.natAbs) ∧ (ds.head? = some 0 → ds = [0]) ∧ denotes base ds = n

end Verif.Spec
