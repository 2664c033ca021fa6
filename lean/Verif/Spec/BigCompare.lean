import Verif.Spec.BigText
import Verif.Model.BigCompare
/-! What methods of big integers should do with numbers and texts. -/
namespace Verif.Spec
open BigJs

/-- What a comparing method asks of two numbers. -/
def Asked : CompareMethod → Rat → Rat → Prop
  | .equals, m, x => m = x
  | .notEquals, m, x => m ≠ x
  | .greater, m, x => x < m
  | .lesser, m, x => m < x
  | .greaterOrEquals, m, x => x ≤ m
  | .lesserOrEquals, m, x => m ≤ x

/-- What an arithmetic method denotes, if it does not divide by zero: quotients are rounded towards zero, and
remainders have the sign of the dividend. -/
def MethodValue : ArithMethod → Int → Int → Option Int
  | .add, x, y => some (x + y)
  | .subtract, x, y => some (x - y)
  | .multiply, x, y => some (x * y)
  | .divide, x, y => if y = 0 then none else some (x.sign * y.sign * (x.natAbs / y.natAbs))
  | .mod, x, y => if y = 0 then none else some (x.sign * (x.natAbs % y.natAbs))

/-- Expressions whose operations have an expression, a number or a text on the right side. Of a text also the
integer is given that it should stand for. -/
inductive Mixed where
  | lit (n : Int)
  | both (o : ArithMethod) (a b : Mixed)
  | number (o : ArithMethod) (a : Mixed) (n : Int)
  | text (o : ArithMethod) (a : Mixed) (l : Literal) (n : Int)

/-- The integer an expression denotes, if it does not divide by zero. -/
def Mixed.value : Mixed → Option Int
  | .lit n => some n
  | .both o a b => do
    let x ← a.value
    let y ← b.value
    MethodValue o x y
  | .number o a n => do
    let x ← a.value
    MethodValue o x n
  | .text o a _ n => do
    let x ← a.value
    MethodValue o x n

end Verif.Spec
