import Verif.Model.BigPrime
/-! Model of random big integers in JavaScript tracers (/repo/src/tracing/js/bigint.js: `randBetween`,
`isProbablePrime`). The results of `Math.random()` are a parameter, `rand k` for the `k`-th call. As in
`Verif.Model.BigMath`, definitions cite the function they model. -/
namespace Verif.BigJs

/-- `truncate`: `if(n>0)return Math.floor(n);return Math.ceil(n)`. /repo/src/tracing/js/bigint.js:1. -/
def truncateRat (x : Rat) : Int := if 0 < x then x.floor else x.ceil

/-- `randBetween`: the loop over the digits of `range`, the most significant first (`vs`); `k` calls of
`Math.random()` have been made, `result` has been drawn. `Math.random()*top` is rounded to a double.
/repo/src/tracing/js/bigint.js:1. -/
def randDigits (fl : Rat → Rat) (rand : Nat → Rat) : (restricted : Bool) → (k : Nat) → (vs result : Arr) → Arr
  | _, _, [], result => result
  | restricted, k, v :: vs, result =>
    let top := if restricted then v else BASE
    let digit := truncateRat (fl (rand k * top))
    randDigits fl rand (if digit < top then false else restricted) (k + 1) vs (digit :: result)

/-- `randBetween`. /repo/src/tracing/js/bigint.js:1. -/
def randBetween (fl : Rat → Rat) (rand : Nat → Rat) (a b : Big) : R Big := do
  let low := bigMin a b
  let high := bigMax a b
  let d ← high.subtract low
  let range ← d.add (.ofSmall 1)
  match range with
  | .small v _ => low.add (.ofSmall (fl (rand 0 * v)).floor)
  | .big v _ =>
    match arrayToSmall (randDigits fl rand true 0 v.reverse []) with
    | .n r => low.add (.ofSmall r)
    | .arr r => low.add (.big r false)

/-- `isProbablePrime`: the loop, with the number of rounds that are left. `rand i` are the random numbers of
the `i`-th round. /repo/src/tracing/js/bigint.js:1. -/
def probableLoop (fl : Rat → Rat) (rand : Nat → Nat → Rat) (n : Big) : (left i : Nat) → R Bool
  | 0, _ => .ok true
  | left + 1, i => do
    let m ← n.subtract (.ofSmall 2)
    let a ← randBetween fl (rand i) (.ofSmall 2) m
    let p ← n.prev
    let x ← a.modPow fl p n
    if !x.isUnit then .ok false else probableLoop fl rand n left (i + 1)

/-- `isProbablePrime(iterations)`; `none` stands for no argument, and other arguments than natural numbers
are left out. /repo/src/tracing/js/bigint.js:1. -/
def Big.isProbablePrime (fl : Rat → Rat) (rand : Nat → Nat → Rat) (self : Big) (iterations : Option Nat) : R Bool := do
  match ← isBasicPrime fl self with
  | some p => .ok p
  | none => probableLoop fl rand self.abs (iterations.getD 5) 0

end Verif.BigJs
