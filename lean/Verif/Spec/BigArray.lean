/-! What a list of digits denotes. -/
namespace Verif.Spec

/-- The sum of the digits times the powers of the base, the last digit having power zero. Digits and base can
be any integers. -/
def weigh (base : Int) : List Int → Int
  | [] => 0
  | d :: ds => d * base ^ ds.length + weigh base ds

/-- The digits of `n` to the base `base`, the most significant first, none for zero. `fuel` is more than
the number of digits. -/
def digitsTo (base : Nat) : (fuel : Nat) → (n : Nat) → List Int
  | 0, _ => []
  | fuel + 1, n => if n = 0 then [] else digitsTo base fuel (n / base) ++ [((n % base : Nat) : Int)]

end Verif.Spec
