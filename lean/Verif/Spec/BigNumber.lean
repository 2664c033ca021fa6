import Verif.Spec.BigText
import Verif.Spec.BigInt
/-! The texts of numbers in JavaScript (ECMAScript, `Number::toString` to base ten). -/
namespace Verif.Spec

/-- Digits with the point after the `n`-th one. -/
def shown (ds : List Nat) (n : Int) : Rat := (positional 10 ds : Nat) * (10 : Rat) ^ (n - ds.length)

/-- Digits that stand for a positive number `x`: the first one is not zero, and rounding gives `x`. Numbers
above `2^1023` are left out; they round to doubles from `2^1023` on. -/
structure StandsFor (fl : Rat → Rat) (x : Rat) (ds : List Nat) (n : Int) : Prop where
  digits : ∀ d ∈ ds, d < 10
  first : 10 ^ (ds.length - 1) ≤ positional 10 ds
  small : shown ds n ≤ 2 ^ 1023
  rounds : fl (shown ds n) = x

/-- As few digits as possible stand for the number. If there are several such, any may be taken. -/
def Shortest (fl : Rat → Rat) (x : Rat) (ds : List Nat) (n : Int) : Prop :=
  ds ≠ [] ∧ StandsFor fl x ds n ∧ ∀ ds' n', ds' ≠ [] → StandsFor fl x ds' n' → ds.length ≤ ds'.length

/-- How the digits are written: with zeros at the end, with a point, or with an exponent. -/
def digitsText (ds : List Nat) (n : Int) : List Char :=
  if ds.length ≤ n ∧ n ≤ 21 then (ds ++ List.replicate (n - ds.length).toNat 0).map digit
  else if 0 < n ∧ n ≤ 21 then (ds.take n.toNat).map digit ++ '.' :: (ds.drop n.toNat).map digit
  else if -6 < n ∧ n ≤ 0 then '0' :: '.' :: (List.replicate (-n).toNat 0 ++ ds).map digit
  else (ds.take 1).map digit ++ ((if ds.length = 1 then [] else '.' :: (ds.drop 1).map digit) ++
    'e' :: (if 0 < n - 1 then '+' else '-') :: numeral 10 (n - 1).natAbs)

/-- The text of a number other than zero. -/
def IsText (fl : Rat → Rat) (x : Rat) (text : List Char) : Prop :=
  ∃ ds n, Shortest fl (if x < 0 then -x else x) ds n ∧ text = (if x < 0 then ['-'] else []) ++ digitsText ds n

end Verif.Spec
