import Verif.Model.BigText
/-! Model of writing and reading a big integer to any base (`toString(base)` and `bigint(text, base)`,
/repo/src/tracing/js/bigint.js, `toBase`, `stringify`, `parseBase`), negative bases and bases above 36
included. A base that is a big integer itself stands for one given as such or as a string. As in
`Verif.Model.BigInt`, JavaScript numbers are integers. -/
namespace Verif.BigJs

/-- `compareAbs` of `BigInteger` and of `SmallInteger`. /repo/src/tracing/js/bigint.js:1. -/
def Big.compareAbs : Big → Big → Int
  | .big a _, .big b _ => Verif.BigJs.compareAbs a b
  | .big _ _, .small _ _ => 1
  | .small a _, .small b _ => if a.natAbs = b.natAbs then 0 else if a.natAbs > b.natAbs then 1 else -1
  | .small _ _, .big _ _ => -1

/-- `new Array(length).join(text)`: an array without elements, whose length has to be below `2^32`.
ECMAScript, for /repo/src/tracing/js/bigint.js:1. -/
def arrayJoin (length : Int) (text : List Char) : R (List Char) :=
  if 0 ≤ length ∧ length < 2 ^ 32 then .ok ((List.replicate (length.toNat - 1) text).flatten)
  else .error (.expect "Invalid array length")

/-- `new Array(f(+n)).join(text)` with `f` adding one, negating and adding one, or neither: a `BigInteger` is
`2^53` or more, too long for an array. /repo/src/tracing/js/bigint.js:1. -/
def Big.arrayJoin (n : Big) (f : Int → Int) (text : List Char) : R (List Char) :=
  match n with
  | .small v _ => Verif.BigJs.arrayJoin (f v) text
  | .big _ _ => .error (.expect "Invalid array length")

/-- The loop of `toBase` for any base. `fuel` bounds its rounds (there is no such bound in the file).
/repo/src/tracing/js/bigint.js:1. -/
def anyBaseLoop (fl : Rat → Rat) (base : Big) : Nat → Big → R (List (List Char))
  | 0, _ => .error .diverge
  | fuel + 1, left =>
    if left.isNegative || decide (left.compareAbs base ≥ 0) then do
      let (quotient, digit) ← left.divmod fl base
      if digit.isNegative then
        let d ← base.subtract digit
        let next ← quotient.next
        let out ← anyBaseLoop fl base fuel next
        .ok (stringify d.abs :: out)
      else
        let out ← anyBaseLoop fl base fuel quotient
        .ok (stringify digit :: out)
    else .ok [stringify left]

/-- `toBase`, in full. /repo/src/tracing/js/bigint.js:1. -/
def Big.toAnyBase (fl : Rat → Rat) (n base : Big) : R (List Char) :=
  if base.isZero then
    if n.isZero then .ok ['0'] else .error (.expect "Cannot convert nonzero numbers to base 0.")
  else if base.equals (.ofSmall (-1)) then
    if n.isZero then .ok ['0']
    else if n.isNegative then n.arrayJoin (fun v => 1 - v) ['1', '0']
    else do
      let s ← n.arrayJoin (fun v => v) ['0', '1']
      .ok ('1' :: s)
  else
    let negative := n.isNegative && base.isPositive
    let minusSign := if negative then ['-'] else []
    let n := if negative then n.abs else n
    if base.equals (.ofSmall 1) then
      if n.isZero then .ok ['0']
      else do
        let s ← n.arrayJoin (fun v => v + 1) ['1']
        .ok (minusSign ++ s)
    else do
      let out ← anyBaseLoop fl base (2 * n.magnitude + 2) n
      .ok (minusSign ++ out.reverse.flatten)

/-- The first loop of `parseBase`, which looks for digits that are too large, for the absolute value of any
base. (That of a big integer is a rounded number; no digit is so large that it would matter.)
/repo/src/tracing/js/bigint.js:1. -/
def checkAnyDigits (absBase : Nat) : List Char → R Unit
  | [] => .ok ()
  | t :: text =>
    let c := lower t
    if c = '-' then checkAnyDigits absBase text
    else if isDecimal c then
      if c.toNat - 48 ≥ absBase then
        if c = '1' ∧ absBase = 1 then checkAnyDigits absBase text
        else .error (.expect "is not a valid digit")
      else checkAnyDigits absBase text
    else if isLetter c then
      if c.toNat - 87 ≥ absBase then .error (.expect "is not a valid digit") else checkAnyDigits absBase text
    else checkAnyDigits absBase text

/-- The second loop of `parseBase`, which collects the digits; `fuel` bounds its rounds (there is no such
bound in the file). /repo/src/tracing/js/bigint.js:1. -/
def collectAnyDigits (fl : Rat → Rat) : (fuel : Nat) → List Char → R (List Big)
  | _, [] => .ok []
  | 0, _ :: _ => .error .diverge
  | fuel + 1, t :: text =>
    let c := lower t
    if isDecimal c then do
      let ds ← collectAnyDigits fl fuel text
      .ok (Big.ofSmall (c.toNat - 48) :: ds)
    else if isLetter c then do
      let ds ← collectAnyDigits fl fuel text
      .ok (Big.ofSmall (c.toNat - 87) :: ds)
    else if c = '<' then do
      let (s, rest) ← upToBracket text
      let d ← parseText fl s
      let ds ← collectAnyDigits fl fuel rest
      .ok (d :: ds)
    else .error (.expect "is not a valid character")

/-- `Integer(v, radix)` for a string and a base that is not from 2 to 36: `parseBase`, for which see also the
function of that name in `Verif.Model.BigRead`. /repo/src/tracing/js/bigint.js:1. -/
def bigOfAnyText (fl : Rat → Rat) (text : List Char) (base : Big) : R Big := do
  checkAnyDigits base.magnitude text
  let isNegative := text.head? = some '-'
  let digits ← collectAnyDigits fl text.length (if isNegative then text.drop 1 else text)
  parseBaseFromArray digits base isNegative

end Verif.BigJs
