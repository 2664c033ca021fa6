import Verif.Model.BigArray
/-!
The methods of the library of big integers given numbers and texts (/repo/src/tracing/js/bigint.js): all of them
begin with `parseValue(v)`; only `compare` looks for infinities before.
-/
namespace Verif.BigJs

/-- `BigInteger.prototype.compare` and `SmallInteger.prototype.compare`, of any value.
/repo/src/tracing/js/bigint.js:1. -/
def Big.compareArg (fl : Rat → Rat) (t : Big) (v : BigArg) : R Int :=
  match v with
  | .num (.inf negative) _ => .ok (if negative then 1 else -1)
  | v => do
    let n ← parseValue fl v
    .ok (t.compare n)

/-- The methods `equals`, `notEquals`, `greater`, `lesser`, `greaterOrEquals` and `lesserOrEquals`.
/repo/src/tracing/js/bigint.js:1. -/
inductive CompareMethod where
  | equals
  | notEquals
  | greater
  | lesser
  | greaterOrEquals
  | lesserOrEquals
  deriving DecidableEq, Repr

/-- What the methods make of the outcome of `compare`: `===0`, `!==0`, `>0`, `<0`, `>=0` and `<=0`.
/repo/src/tracing/js/bigint.js:1. -/
def CompareMethod.ofOrder : CompareMethod → Int → Bool
  | .equals, c => c = 0
  | .notEquals, c => c ≠ 0
  | .greater, c => c > 0
  | .lesser, c => c < 0
  | .greaterOrEquals, c => c ≥ 0
  | .lesserOrEquals, c => c ≤ 0

/-- A comparing method, of any value. /repo/src/tracing/js/bigint.js:1. -/
def Big.compareWith (fl : Rat → Rat) (k : CompareMethod) (t : Big) (v : BigArg) : R Bool := do
  let c ← t.compareArg fl v
  .ok (k.ofOrder c)

/-- The methods `add`, `subtract`, `multiply`, `divide` and `mod`. /repo/src/tracing/js/bigint.js:1. -/
inductive ArithMethod where
  | add
  | subtract
  | multiply
  | divide
  | mod
  deriving DecidableEq, Repr

/-- The methods on big integers, the second one given by `parseValue`. /repo/src/tracing/js/bigint.js:1. -/
def ArithMethod.run (fl : Rat → Rat) : ArithMethod → Big → Big → R Big
  | .add, x, y => x.add y
  | .subtract, x, y => x.subtract y
  | .multiply, x, y => x.multiply y
  | .divide, x, y => do
    let (q, _) ← x.divmod fl y
    .ok q
  | .mod, x, y => do
    let (_, r) ← x.divmod fl y
    .ok r

/-- An arithmetic method, of any value. /repo/src/tracing/js/bigint.js:1. -/
def Big.calculate (fl : Rat → Rat) (o : ArithMethod) (t : Big) (v : BigArg) : R Big := do
  let n ← parseValue fl v
  o.run fl t n

end Verif.BigJs
