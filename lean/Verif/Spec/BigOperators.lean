import Verif.Spec.BigMath
import Verif.Spec.BigText
import Verif.Model.BigOperators
/-! What the comparing operators ask of two numbers (C133). -/
namespace Verif.Spec
open BigJs

/-- What an operator asks. -/
def OperatorAsks : CompareOperator → Rat → Rat → Prop
  | .lt, m, n => m < n
  | .gt, m, n => m > n
  | .le, m, n => m ≤ n
  | .ge, m, n => m ≥ n
  | .eq, m, n => m = n
  | .ne, m, n => m ≠ n

/-- What is written on one side of an operator: a calculation with big integers, or a number. -/
inductive Side where
  | calculated (e : Expr)
  | number (x : Rat)

/-- The number it stands for, exactly. -/
def Side.value : Side → Option Rat
  | .calculated e => match e.value actual with
    | some n => some (n : Rat)
    | none => none
  | .number x => some x

/-- Numbers are doubles, and calculations give integers of at most `2^1023` in size. -/
def Side.Fits : Side → Prop
  | .calculated e => ∃ n, e.value actual = some n ∧ n.natAbs ≤ 2 ^ 1023
  | .number x => IsDouble x

/-- Whether the operand is an object. -/
def Side.isObject : Side → Bool
  | .calculated _ => true
  | .number _ => false

/-- `x` is a double, and none is nearer to `m`. -/
def NearestTo (x m : Rat) : Prop := IsDouble x ∧ ∀ d, IsDouble d → ratDist x m ≤ ratDist d m

/-- When an operator can be wrong about numbers: if they are in this order, but turned into the same number. -/
def Blurred : CompareOperator → Rat → Rat → Prop
  | .lt, m, n | .ge, m, n => m < n
  | .gt, m, n | .le, m, n => n < m
  | .eq, m, n | .ne, m, n => m ≠ n

end Verif.Spec
