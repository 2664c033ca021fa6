import Verif.Model.BigMath
/-! Model of the primality test of the big integers of JavaScript tracers (/repo/src/tracing/js/bigint.js:
`isBasicPrime`, `isPrime`). As in `Verif.Model.BigMath`, definitions cite the function they model. -/
namespace Verif.BigJs

/-- `isBasicPrime`; `none` stands for `undefined`. The operands of `||` are evaluated from the left.
/repo/src/tracing/js/bigint.js:1. -/
def isBasicPrime (fl : Rat → Rat) (v : Big) : R (Option Bool) :=
  let n := v.abs
  if n.isUnit then .ok (some false)
  else if n.equals (.ofSmall 2) || n.equals (.ofSmall 3) || n.equals (.ofSmall 5) then .ok (some true)
  else if n.isEven then .ok (some false)
  else do
    if ← n.isDivisibleBy fl (.ofSmall 3) then .ok (some false)
    else if ← n.isDivisibleBy fl (.ofSmall 5) then .ok (some false)
    else if n.lesser (.ofSmall 25) then .ok (some true)
    else .ok none

/-- `isPrime`: `while(b.isEven())b=b.divide(2)`, one unit of fuel for each round.
/repo/src/tracing/js/bigint.js:1. -/
def oddPart (fl : Rat → Rat) : Nat → Big → R Big
  | 0, _ => .error .diverge
  | fuel + 1, b =>
    if b.isEven then do
      let (q, _) ← b.divmod fl (.ofSmall 2)
      oddPart fl fuel q
    else .ok b

/-- `isPrime`: the inner loop, `for(t=true,d=b;t&&d.lesser(nPrev);d=d.multiply(2))`. Returns `t`; the last
`d`, which is not used, is left out. One unit of fuel for each round. /repo/src/tracing/js/bigint.js:1. -/
def squareLoop (fl : Rat → Rat) (n nPrev : Big) : Nat → (x d : Big) → R Bool
  | 0, _, _ => .error .diverge
  | fuel + 1, x, d =>
    if d.lesser nPrev then do
      let y ← x.square
      let (_, x) ← y.divmod fl n
      if x.equals nPrev then .ok false
      else do
        let d ← d.multiply (.ofSmall 2)
        squareLoop fl n nPrev fuel x d
    else .ok true

/-- `isPrime`: the loop over the bases. /repo/src/tracing/js/bigint.js:1. -/
def baseLoop (fl : Rat → Rat) (n nPrev b : Big) : List Int → R Bool
  | [] => .ok true
  | a :: as => do
    let x ← (Big.ofSmall a).modPow fl b n
    if x.equals (.ofSmall 1) || x.equals nPrev then baseLoop fl n nPrev b as
    else if ← squareLoop fl n nPrev (nPrev.magnitude + 1) x b then .ok false
    else baseLoop fl n nPrev b as

/-- `isPrime`. /repo/src/tracing/js/bigint.js:1. -/
def Big.isPrime (fl : Rat → Rat) (self : Big) : R Bool := do
  match ← isBasicPrime fl self with
  | some p => .ok p
  | none =>
    let n := self.abs
    let nPrev ← n.prev
    let b ← oddPart fl (nPrev.magnitude + 1) nPrev
    baseLoop fl n nPrev b [2, 3, 5, 7, 11, 13, 17, 19]

end Verif.BigJs
