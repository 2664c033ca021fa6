import Verif.Model.BigText
/-! Big integers as operands of the comparing operators of JavaScript (not of the methods, which are in
`Model/BigCompare`). The operators are those of the engine and are modelled after ECMAScript; what they get from a big
integer is its `valueOf`. -/
namespace Verif.BigJs

/-- An operand: a big integer or a plain finite number. ECMAScript; numbers are rational here. -/
inductive Operand where
  | big (b : Big)
  | num (x : Rat)

/-- `ToPrimitive`: an object with `valueOf` gives what that returns, which is a number here. `none` is `NaN`.
/repo/src/tracing/js/bigint.js:1 `BigInteger.prototype.valueOf`, `SmallInteger.prototype.valueOf`. -/
def Operand.primitive (fl : Rat → Rat) : Operand → R (Option Rat)
  | .big b => b.valueOf fl
  | .num x => .ok (some x)

/-- The comparing operators `<`, `>`, `<=`, `>=`, `==`, `!=`. ECMAScript. -/
inductive CompareOperator where
  | lt | gt | le | ge | eq | ne
  deriving DecidableEq, Repr

/-- The operator on two numbers. ECMAScript. -/
def CompareOperator.onNumbers : CompareOperator → Rat → Rat → Bool
  | .lt, x, y => decide (x < y)
  | .gt, x, y => decide (y < x)
  | .le, x, y => decide (x ≤ y)
  | .ge, x, y => decide (y ≤ x)
  | .eq, x, y => decide (x = y)
  | .ne, x, y => decide (x ≠ y)

/-- The operator on two operands. Two objects are equal only if they are the same object; here they are different
ones, as the results of two calculations are. Everything is unequal to `NaN`. ECMAScript, with the `valueOf` of
/repo/src/tracing/js/bigint.js:1. -/
def CompareOperator.apply (fl : Rat → Rat) : CompareOperator → Operand → Operand → R Bool
  | .eq, .big _, .big _ => .ok false
  | .ne, .big _, .big _ => .ok true
  | op, left, right => do
    let x ← left.primitive fl
    let y ← right.primitive fl
    match x, y with
    | some x, some y => .ok (op.onNumbers x y)
    | _, _ => .ok (decide (op = .ne))

end Verif.BigJs
