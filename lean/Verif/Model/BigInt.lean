import Verif.Revm
/-! Model of the big integers of JavaScript tracers: /repo/src/tracing/js/bigint.js, a single line that
holds BigInteger.js in minified form. `register_builtins` (/repo/src/tracing/js/builtins.rs:67-69) makes
the function `Integer` the global `bigint`, and `to_bigint` (200-210) calls it with the decimal digits of
a `U256`. Definitions cite the function of the file they model.

JavaScript numbers are modelled by integers. A double holds every integer up to `2^53`; where numbers may
become larger than the sum of two such digits or small integers they go through `num`, which fails beyond
that bound. `Math.floor(x / base)`, `Math.ceil(x / y)` and `truncate(x / y)` are modelled by integer
division: `C77_quotients` shows that for such integers the rounding of the quotient to a double does not
matter. Where larger numbers and quotients that are not rounded to integers occur (`divMod2`)
the rounding to doubles is a parameter. Not modelled: other arguments than big integers (methods convert
numbers and strings with `parseValue` first); powers, shifts, bit operations and divisors are in
`Verif.Model.BigMath`. -/
namespace Verif.BigJs

/-- `BASE=1e7`. /repo/src/tracing/js/bigint.js:1. -/
abbrev BASE : Int := 10000000

/-- `LOG_BASE=7`. /repo/src/tracing/js/bigint.js:1. -/
abbrev LOG_BASE : Nat := 7

/-- `MAX_INT=9007199254740992`. /repo/src/tracing/js/bigint.js:1. -/
abbrev MAX_INT : Int := 9007199254740992

/-- An array of digits to the base `BASE`, the least significant first. /repo/src/tracing/js/bigint.js:1. -/
abbrev Arr := List Int

/-- A number that a double must be able to hold for the arithmetic to be exact.
/repo/src/tracing/js/bigint.js:1. -/
def num (x : Int) : R Int := if -MAX_INT ≤ x ∧ x ≤ MAX_INT then .ok x else .error .arith

/-- `isPrecise`. /repo/src/tracing/js/bigint.js:1. -/
def isPrecise (n : Int) : Bool := decide (-MAX_INT < n) && decide (n < MAX_INT)

/-- An object made by `SmallInteger` (whose `sign` is a field, which `negate` sets) or `BigInteger`.
/repo/src/tracing/js/bigint.js:1. -/
inductive Big where
  | small (value : Int) (sign : Bool)
  | big (value : Arr) (sign : Bool)
  deriving DecidableEq, Repr

/-- `new SmallInteger(value)`: `this.sign=value<0`. /repo/src/tracing/js/bigint.js:1. -/
def Big.ofSmall (value : Int) : Big := .small value (decide (value < 0))

/-- `smallToArray`. /repo/src/tracing/js/bigint.js:1. -/
def smallToArray (n : Int) : Arr :=
  if n < 10000000 then [n]
  else if n < 100000000000000 then [n % 10000000, n / 10000000]
  else [n % 10000000, n / 10000000 % 10000000, n / 100000000000000]

/-- `MAX_INT_ARR=smallToArray(MAX_INT)`. /repo/src/tracing/js/bigint.js:1. -/
def MAX_INT_ARR : Arr := smallToArray MAX_INT

/-- `trim`: the zeros at the end are removed. /repo/src/tracing/js/bigint.js:1. -/
def trim : Arr → Arr
  | [] => []
  | x :: xs =>
    match trim xs with
    | [] => if x = 0 then [] else [x]
    | y :: ys => x :: y :: ys

/-- The loop of `compareAbs`, from the most significant digit. /repo/src/tracing/js/bigint.js:1. -/
def compareTop : Arr → Arr → Int
  | x :: xs, y :: ys => if x ≠ y then (if x > y then 1 else -1) else compareTop xs ys
  | _, _ => 0

/-- `compareAbs`, the function. /repo/src/tracing/js/bigint.js:1. -/
def compareAbs (a b : Arr) : Int :=
  if a.length ≠ b.length then (if a.length > b.length then 1 else -1)
  else compareTop a.reverse b.reverse

/-- What `arrayToSmall` returns: a number or an array. /repo/src/tracing/js/bigint.js:1. -/
inductive NumOrArr where
  | n (x : Int)
  | arr (a : Arr)
  deriving DecidableEq, Repr

/-- `arrayToSmall`. /repo/src/tracing/js/bigint.js:1. -/
def arrayToSmall (arr : Arr) : NumOrArr :=
  let arr := trim arr
  if arr.length < 4 ∧ compareAbs arr MAX_INT_ARR < 0 then
    match arr with
    | [] => .n 0
    | [x] => .n x
    | [x, y] => .n (x + y * BASE)
    | x :: y :: z :: _ => .n (x + (y + z * BASE) * BASE)
  else .arr arr

/-- `add`: the two loops, with `a` at least as long as `b`. /repo/src/tracing/js/bigint.js:1. -/
def addLoop : Arr → Arr → Int → R Arr
  | x :: a, y :: b, carry => do
    let sum := x + y + carry
    let carry := if sum ≥ BASE then 1 else 0
    let r ← addLoop a b carry
    .ok ((sum - carry * BASE) :: r)
  | x :: a, [], carry => do
    let sum := x + carry
    let carry := if sum = BASE then 1 else 0
    let r ← addLoop a [] carry
    .ok ((sum - carry * BASE) :: r)
  | [], [], carry => .ok (if carry > 0 then [carry] else [])
  | [], _ :: _, _ => .error .index

/-- `addAny`. /repo/src/tracing/js/bigint.js:1. -/
def addAny (a b : Arr) : R Arr := if a.length ≥ b.length then addLoop a b 0 else addLoop b a 0

/-- The last loop of `addSmall`: `while(carry>0)`, one unit of fuel for each round.
/repo/src/tracing/js/bigint.js:1. -/
def carryOut : Nat → Int → R Arr
  | 0, carry => if carry > 0 then .error .diverge else .ok []
  | fuel + 1, carry =>
    if carry > 0 then do
      let r ← carryOut fuel (carry / BASE)
      .ok (carry % BASE :: r)
    else .ok []

/-- `addSmall`. A carry of at most `2^53` has at most three digits. /repo/src/tracing/js/bigint.js:1. -/
def addSmall : Arr → Int → R Arr
  | [], carry => carryOut 3 carry
  | x :: a, carry => do
    let sum := x - BASE + carry
    let c := sum / BASE
    let r ← addSmall a (c + 1)
    .ok ((sum - c * BASE) :: r)

/-- The second and third loop of `subtract`: the borrow is passed on until a difference is not negative;
the other digits are copied. /repo/src/tracing/js/bigint.js:1. -/
def borrowLoop : Arr → Int → Arr
  | [], _ => []
  | x :: a, borrow =>
    let difference := x - borrow
    if difference < 0 then (difference + BASE) :: borrowLoop a borrow
    else difference :: a

/-- The loops of `subtract`. /repo/src/tracing/js/bigint.js:1. -/
def subLoop : Arr → Arr → Int → R Arr
  | x :: a, y :: b, borrow => do
    let difference := x - borrow - y
    let (difference, borrow) := if difference < 0 then (difference + BASE, 1) else (difference, 0)
    let r ← subLoop a b borrow
    .ok (difference :: r)
  | a, [], borrow => .ok (borrowLoop a borrow)
  | [], _ :: _, _ => .error .index

/-- `subtract`. /repo/src/tracing/js/bigint.js:1. -/
def subtract (a b : Arr) : R Arr := do
  let r ← subLoop a b 0
  .ok (trim r)

/-- `subtractAny`. /repo/src/tracing/js/bigint.js:1. -/
def subtractAny (a b : Arr) (sign : Bool) : R Big := do
  let (value, sign) ← if compareAbs a b ≥ 0 then do
      let v ← subtract a b
      Except.ok (v, sign)
    else do
      let v ← subtract b a
      Except.ok (v, !sign)
  match arrayToSmall value with
  | .n x => .ok (.ofSmall (if sign then -x else x))
  | .arr value => .ok (.big value sign)

/-- The loop of `subtractSmall`; `%` is the remainder with the sign of the dividend.
/repo/src/tracing/js/bigint.js:1. -/
def subSmallLoop : Arr → Int → Arr
  | [], _ => []
  | x :: a, carry =>
    let difference := x + carry
    let c := difference / BASE
    let d := difference.tmod BASE
    (if d < 0 then d + BASE else d) :: subSmallLoop a c

/-- `subtractSmall`. /repo/src/tracing/js/bigint.js:1. -/
def subtractSmall (a : Arr) (b : Int) (sign : Bool) : Big :=
  match arrayToSmall (subSmallLoop a (-b)) with
  | .n r => .ofSmall (if sign then -r else r)
  | .arr r => .big r sign

/-- `BigInteger.prototype.negate` and `SmallInteger.prototype.negate`. /repo/src/tracing/js/bigint.js:1. -/
def Big.negate : Big → Big
  | .big value sign => .big value (!sign)
  | .small value sign => .small (-value) (!sign)

/-- `abs`. /repo/src/tracing/js/bigint.js:1. -/
def Big.abs : Big → Big
  | .big value _ => .big value false
  | .small value _ => .ofSmall value.natAbs

/-- /repo/src/tracing/js/bigint.js:1. -/
def Big.sign : Big → Bool
  | .big _ sign => sign
  | .small _ sign => sign

mutual
/-- `BigInteger.prototype.add` and `SmallInteger.prototype.add`, which call `subtract` for another sign;
one unit of fuel for each call. /repo/src/tracing/js/bigint.js:1. -/
def addF : Nat → Big → Big → R Big
  | 0, _, _ => .error .diverge
  | fuel + 1, .big a sign, n =>
    if sign ≠ n.sign then subF fuel (.big a sign) n.negate
    else match n with
      | .small b _ => do
        let r ← addSmall a b.natAbs
        .ok (.big r sign)
      | .big b _ => do
        let r ← addAny a b
        .ok (.big r sign)
  | fuel + 1, .small a s, n =>
    if decide (a < 0) ≠ n.sign then subF fuel (.small a s) n.negate
    else match n with
      | .small b _ =>
        if isPrecise (a + b) then .ok (.ofSmall (a + b))
        else do
          let r ← addSmall (smallToArray b.natAbs) a.natAbs
          .ok (.big r (decide (a < 0)))
      | .big b _ => do
        let r ← addSmall b a.natAbs
        .ok (.big r (decide (a < 0)))

/-- `BigInteger.prototype.subtract` and `SmallInteger.prototype.subtract`. /repo/src/tracing/js/bigint.js:1. -/
def subF : Nat → Big → Big → R Big
  | 0, _, _ => .error .diverge
  | fuel + 1, .big a sign, n =>
    if sign ≠ n.sign then addF fuel (.big a sign) n.negate
    else match n with
      | .small b _ => .ok (subtractSmall a b.natAbs sign)
      | .big b _ => subtractAny a b sign
  | fuel + 1, .small a s, n =>
    if decide (a < 0) ≠ n.sign then addF fuel (.small a s) n.negate
    else match n with
      | .small b _ => .ok (.ofSmall (a - b))
      | .big b _ => .ok (subtractSmall b a.natAbs (decide (a ≥ 0)))
end

/-- `add`; two calls suffice, as `negate` changes the sign. /repo/src/tracing/js/bigint.js:1. -/
def Big.add (a b : Big) : R Big := addF 2 a b

/-- `subtract`. /repo/src/tracing/js/bigint.js:1. -/
def Big.subtract (a b : Big) : R Big := subF 2 a b

/-- `BigInteger.prototype.compare` and `SmallInteger.prototype.compare`, of big integers.
/repo/src/tracing/js/bigint.js:1. -/
def Big.compare : Big → Big → Int
  | .big a sign, n =>
    if sign ≠ n.sign then (if n.sign then 1 else -1)
    else match n with
      | .small _ _ => if sign then -1 else 1
      | .big b _ => compareAbs a b * (if sign then -1 else 1)
  | .small a _, .small b _ => if a = b then 0 else if a > b then 1 else -1
  | .small a _, .big _ sign =>
    if decide (a < 0) ≠ sign then (if a < 0 then -1 else 1) else (if a < 0 then 1 else -1)

/-- The inner loop of `multiplyLong` for the digit `x` of `a`, on the part of `r` from the position of
that digit on. /repo/src/tracing/js/bigint.js:1. -/
def mulRow (x : Int) : Arr → Arr → R Arr
  | [], r => .ok r
  | y :: b, r0 :: r1 :: r => do
    let product ← num (x * y + r0)
    let carry := product / BASE
    let rest ← mulRow x b ((r1 + carry) :: r)
    .ok ((product - carry * BASE) :: rest)
  | _ :: _, _ => .error .index

/-- The outer loop of `multiplyLong`. /repo/src/tracing/js/bigint.js:1. -/
def mulLoop : Arr → Arr → Arr → R Arr
  | [], _, r => .ok r
  | x :: a, b, r => do
    let row ← mulRow x b r
    match row with
    | [] => .error .index
    | d :: row => do
      let rest ← mulLoop a b row
      .ok (d :: rest)

/-- `multiplyLong`; `createArray` fills with zeros. /repo/src/tracing/js/bigint.js:1. -/
def multiplyLong (a b : Arr) : R Arr := do
  let r ← mulLoop a b (List.replicate (a.length + b.length) 0)
  .ok (trim r)

/-- The loops of `multiplySmall`, the last as in `addSmall`. /repo/src/tracing/js/bigint.js:1. -/
def multiplySmallLoop (b : Int) : Arr → Int → R Arr
  | [], carry => carryOut 3 carry
  | x :: a, carry => do
    let product ← num (x * b + carry)
    let c := product / BASE
    let r ← multiplySmallLoop b a c
    .ok ((product - c * BASE) :: r)

/-- `multiplySmall`. /repo/src/tracing/js/bigint.js:1. -/
def multiplySmall (a : Arr) (b : Int) : R Arr := multiplySmallLoop b a 0

/-- `shiftLeft`, the function: zeros are put in front. /repo/src/tracing/js/bigint.js:1. -/
def shiftLeft (x : Arr) (n : Nat) : Arr := List.replicate n 0 ++ x

/-- `multiplyKaratsuba`, one unit of fuel for each level. /repo/src/tracing/js/bigint.js:1. -/
def multiplyKaratsuba : Nat → Arr → Arr → R Arr
  | 0, _, _ => .error .diverge
  | fuel + 1, x, y =>
    let n := max x.length y.length
    if n ≤ 30 then multiplyLong x y
    else do
      let n := (n + 1) / 2
      let b := x.drop n
      let a := x.take n
      let d := y.drop n
      let c := y.take n
      let ac ← multiplyKaratsuba fuel a c
      let bd ← multiplyKaratsuba fuel b d
      let ab ← addAny a b
      let cd ← addAny c d
      let abcd ← multiplyKaratsuba fuel ab cd
      let m ← subtract abcd ac
      let m ← subtract m bd
      let p ← addAny ac (shiftLeft m n)
      let p ← addAny p (shiftLeft bd (2 * n))
      .ok (trim p)

/-- `useKaratsuba`: `-.012*l1-.012*l2+15e-6*l1*l2>0`. /repo/src/tracing/js/bigint.js:1. -/
def useKaratsuba (l1 l2 : Nat) : Bool := decide (12000 * l1 + 12000 * l2 < 15 * l1 * l2)

/-- The choice at the end of `BigInteger.prototype.multiply`. The fuel is more than enough: the lengths
are about halved. /repo/src/tracing/js/bigint.js:1. -/
def mulArr (a b : Arr) : R Arr :=
  if useKaratsuba a.length b.length then multiplyKaratsuba (a.length + b.length) a b
  else multiplyLong a b

/-- `multiplySmallAndArray`. /repo/src/tracing/js/bigint.js:1. -/
def multiplySmallAndArray (a : Int) (b : Arr) (sign : Bool) : R Big :=
  if a < BASE then do
    let r ← multiplySmall b a
    .ok (.big r sign)
  else do
    let r ← multiplyLong b (smallToArray a)
    .ok (.big r sign)

/-- `BigInteger.prototype.multiply`, and `SmallInteger.prototype.multiply`, which is `_multiplyBySmall`
of the argument. A product of two small integers may be beyond `2^53`; then it is rounded to a number
that is not precise either. /repo/src/tracing/js/bigint.js:1. -/
def Big.multiply : Big → Big → R Big
  | .big a s, .small b bs =>
    let sign := decide (s ≠ bs)
    if b = 0 then .ok (.ofSmall 0)
    else if b = 1 then .ok (.big a s)
    else if b = -1 then .ok (Big.big a s).negate
    else if (b.natAbs : Int) < BASE then do
      let r ← multiplySmall a b.natAbs
      .ok (.big r sign)
    else do
      let r ← mulArr a (smallToArray b.natAbs)
      .ok (.big r sign)
  | .big a s, .big b bs => do
    let r ← mulArr a b
    .ok (.big r (decide (s ≠ bs)))
  | .small a s, .small b bs =>
    if isPrecise (a * b) then .ok (.ofSmall (a * b))
    else multiplySmallAndArray a.natAbs (smallToArray b.natAbs) (decide (bs ≠ s))
  | .small a s, .big b bs =>
    if a = 0 then .ok (.ofSmall 0)
    else if a = 1 then .ok (.big b bs)
    else if a = -1 then .ok (Big.big b bs).negate
    else multiplySmallAndArray a.natAbs b (decide (bs ≠ s))

/-! ### Text -/

/-- `String(n)` for a number below `10^21` that is not negative: its decimal digits.
ECMAScript, for /repo/src/tracing/js/bigint.js:1. -/
def natText (n : Nat) : List Char := Nat.toDigits 10 n

/-- `String(n)` of an integer. ECMAScript, for /repo/src/tracing/js/bigint.js:1. -/
def intText (n : Int) : List Char := if n < 0 then '-' :: natText n.natAbs else natText n.natAbs

/-- `+s` for a string of digits. ECMAScript, for /repo/src/tracing/js/bigint.js:1. -/
def digitsNumber (s : List Char) : Int := s.foldl (fun n c => 10 * n + ((c.toNat : Int) - 48)) 0

/-- `v.slice(min,max)` for `max` from 0 to the length: a negative `min` counts from the end.
ECMAScript, for /repo/src/tracing/js/bigint.js:1. -/
def slice (v : List Char) (min max : Int) : List Char :=
  (v.take max.toNat).drop (if min < 0 then v.length + min else min).toNat

/-- The loop of `parseStringValue` that cuts the digits in pieces of seven. /repo/src/tracing/js/bigint.js:1. -/
def pieces (v : List Char) : (fuel : Nat) → (max min : Int) → R Arr
  | 0, max, _ => if max > 0 then .error .diverge else .ok []
  | fuel + 1, max, min =>
    if max > 0 then do
      let d := digitsNumber (slice v min max)
      let min := min - LOG_BASE
      let min := if min < 0 then 0 else min
      let r ← pieces v fuel (max - LOG_BASE) min
      .ok (d :: r)
    else .ok []

/-- `parseStringValue`, for strings of digits with or without a minus sign: `none` stands for all other
strings (which throw, or denote integers with an exponent, a point or spaces). `+v` is rounded to a
double for longer strings, which is precise exactly if the number is. /repo/src/tracing/js/bigint.js:1. -/
def parseStringValue (v : List Char) : Option (R Big) :=
  let sign := v.head? = some '-'
  let ds := if sign then v.drop 1 else v
  if ds.isEmpty || !ds.all (fun c => decide ('0' ≤ c) && decide (c ≤ '9')) then none
  else
    let x := if sign then -digitsNumber ds else digitsNumber ds
    if isPrecise x then some (.ok (.ofSmall x))
    else some do
      let r ← pieces ds ds.length ds.length (ds.length - LOG_BASE)
      .ok (.big (trim r) sign)

/-- The loop of `BigInteger.prototype.toString`: `zeros.slice(digit.length)+digit` for the digits from the
second most significant on. /repo/src/tracing/js/bigint.js:1. -/
def padded : Arr → List Char
  | [] => []
  | x :: xs =>
    let digit := intText x
    List.replicate (LOG_BASE - digit.length) '0' ++ digit ++ padded xs

/-- `toString()`, and so `toJSON` and `toString(10)`. /repo/src/tracing/js/bigint.js:1. -/
def Big.toText : Big → R (List Char)
  | .small value _ => .ok (intText value)
  | .big v sign =>
    match v.reverse with
    | [] => .error .index
    | x :: xs => .ok ((if sign then ['-'] else []) ++ (intText x ++ padded xs))

/-- `divModSmall`, on the digits from the most significant on. /repo/src/tracing/js/bigint.js:1. -/
def divModSmallLoop (lambda : Int) : Arr → Int → R (Arr × Int)
  | [], remainder => .ok ([], remainder)
  | x :: xs, remainder => do
    let divisor ← num (remainder * BASE + x)
    let q := divisor.tdiv lambda
    let (quotient, remainder) ← divModSmallLoop lambda xs (divisor - q * lambda)
    .ok (q :: quotient, remainder)

/-- The first loop of `divMod1` at a shift: `quotientDigit` times the divisor is subtracted from the digits
of `remainder` from the shift on. Returns these digits and `borrow`. /repo/src/tracing/js/bigint.js:1. -/
def mulSub (quotientDigit : Int) : Arr → Arr → (carry borrow : Int) → R (Arr × Int)
  | [], [], _, borrow => .ok ([], borrow)
  | d :: divisor, x :: remainder, carry, borrow => do
    let carry ← num (carry + quotientDigit * d)
    let q := carry / BASE
    let borrow := borrow + (x - (carry - q * BASE))
    if borrow < 0 then do
      let (r, b) ← mulSub quotientDigit divisor remainder q (-1)
      .ok ((borrow + BASE) :: r, b)
    else do
      let (r, b) ← mulSub quotientDigit divisor remainder q 0
      .ok (borrow :: r, b)
  | _, _, _, _ => .error .index

/-- The second loop of `divMod1`: the divisor is added to the digits of `remainder` from the shift on.
Returns these digits and `carry`. /repo/src/tracing/js/bigint.js:1. -/
def addBack : Arr → Arr → (carry : Int) → R (Arr × Int)
  | [], [], carry => .ok ([], carry)
  | d :: divisor, x :: remainder, carry => do
    let carry := carry + (x - BASE + d)
    if carry < 0 then do
      let (r, c) ← addBack divisor remainder 0
      .ok ((carry + BASE) :: r, c)
    else do
      let (r, c) ← addBack divisor remainder 1
      .ok (carry :: r, c)
  | _, _, _ => .error .index

/-- `while(borrow!==0)` of `divMod1`, one unit of fuel for each round. /repo/src/tracing/js/bigint.js:1. -/
def correct (divisor : Arr) : Nat → (quotientDigit : Int) → Arr → (borrow : Int) → R (Int × Arr)
  | 0, q, w, borrow => if borrow ≠ 0 then .error .diverge else .ok (q, w)
  | fuel + 1, q, w, borrow =>
    if borrow ≠ 0 then do
      let (w, carry) ← addBack divisor w 0
      correct divisor fuel (q - 1) w (borrow + carry)
    else .ok (q, w)

/-- The first value of `quotientDigit`, from the two top digits of the window.
/repo/src/tracing/js/bigint.js:1. -/
def quotientGuess (top r1 r0 : Int) : R Int :=
  if r1 ≠ top then do
    let x ← num (r1 * BASE + r0)
    .ok (x / top)
  else .ok (BASE - 1)

/-- The body of the loop of `divMod1` over the shifts. The window `w` is the part of `remainder` it reads
and writes, from the shift on as many digits as `divisor` has; `top` is `divisorMostSignificantDigit`.
/repo/src/tracing/js/bigint.js:1. -/
def divStep (top : Int) (divisor : Arr) (w : Arr) : R (Int × Arr) :=
  match w.reverse with
  | r1 :: r0 :: _ => do
    let quotientDigit ← quotientGuess top r1 r0
    let (w, borrow) ← mulSub quotientDigit divisor w 0 0
    correct divisor (quotientDigit + 1).toNat quotientDigit w borrow
  | _ => .error .index

/-- The loop of `divMod1` over the shifts below the first argument, downwards. Returns the digits of
`result` and `remainder`. /repo/src/tracing/js/bigint.js:1. -/
def divLoop (top : Int) (divisor : Arr) : Nat → Arr → R (Arr × Arr)
  | 0, remainder => .ok ([], remainder)
  | shift + 1, remainder => do
    let (q, w) ← divStep top divisor ((remainder.drop shift).take divisor.length)
    let (qs, r) ← divLoop top divisor shift
      (remainder.take shift ++ w ++ remainder.drop (shift + divisor.length))
    .ok (qs ++ [q], r)

/-- `divMod1`. `Math.ceil(base/(2*d))` is exact. /repo/src/tracing/js/bigint.js:1. -/
def divMod1 (a b : Arr) : R (NumOrArr × NumOrArr) :=
  match b.getLast? with
  | none => .error .index
  | some d => do
    let lambda := (BASE + 2 * d - 1) / (2 * d)
    let remainder ← multiplySmall a lambda
    let divisor ← multiplySmall b lambda
    let remainder := if remainder.length ≤ a.length then remainder ++ [0] else remainder
    let divisor := divisor ++ [0]
    match divisor[b.length - 1]? with
    | none => .error .index
    | some top => do
      let (q, r) ← divLoop top divisor (a.length + 1 - b.length) remainder
      let result := q ++ List.replicate (b.length - q.length) 0
      let (m, _) ← divModSmallLoop lambda r.reverse 0
      .ok (arrayToSmall result, arrayToSmall m.reverse)

/-- The inner loop of `divMod2`, for a positive guess: `guess--` until `b` times the guess is at most
`part`. Returns the guess and `check`. /repo/src/tracing/js/bigint.js:1. -/
def guessLoop (b part : Arr) : Nat → R (Int × Arr)
  | 0 => .error .diverge
  | guess + 1 => do
    let check ← multiplySmall b (guess + 1 : Nat)
    if compareAbs check part ≤ 0 then .ok ((guess + 1 : Nat), check)
    else if guess = 0 then .ok (0, check)
    else guessLoop b part guess

/-- The guess of `divMod2` for a quotient digit. `(highx+1)*base` may be too large for a double to hold it
and the quotient is none, so both are rounded by `fl`. /repo/src/tracing/js/bigint.js:1. -/
def guessOf (fl : Rat → Rat) (part b : Arr) : R Int :=
  match part.reverse, b.reverse with
  | x1 :: x0 :: _, y1 :: y0 :: _ => do
    let highx ← num (x1 * BASE + x0)
    let highy ← num (y1 * BASE + y0)
    let highx : Rat := if part.length > b.length then fl ((highx + 1) * BASE) else highx
    .ok (fl (highx / highy)).ceil
  | _, _ => .error .index

/-- The outer loop of `divMod2`, over the digits of `a` from the most significant on. Returns `result`
before it is reversed, and `part`. /repo/src/tracing/js/bigint.js:1. -/
def divMod2Loop (fl : Rat → Rat) (b : Arr) : Arr → Arr → R (Arr × Arr)
  | [], part => .ok ([], part)
  | x :: a, part => do
    let part := trim (x :: part)
    if compareAbs part b < 0 then do
      let (q, p) ← divMod2Loop fl b a part
      .ok (0 :: q, p)
    else do
      let guess ← guessOf fl part b
      let (g, check) ← guessLoop b part guess.toNat
      let part ← subtract part check
      let (q, p) ← divMod2Loop fl b a part
      .ok (g :: q, p)

/-- `divMod2`. /repo/src/tracing/js/bigint.js:1. -/
def divMod2 (fl : Rat → Rat) (a b : Arr) : R (NumOrArr × NumOrArr) := do
  let (q, part) ← divMod2Loop fl b a.reverse []
  .ok (arrayToSmall q.reverse, arrayToSmall part)

/-- The objects `divModAny` makes of a number or an array, with a sign. /repo/src/tracing/js/bigint.js:1. -/
def NumOrArr.signed (sign : Bool) : NumOrArr → Big
  | .n q => .ofSmall (if sign then -q else q)
  | .arr q => .big q sign

/-- The part of `divModAny` for arrays. /repo/src/tracing/js/bigint.js:1. -/
def divModArr (fl : Rat → Rat) (a : Arr) (sign : Bool) (b : Arr) (bSign : Bool) : R (Big × Big) :=
  let comparison := compareAbs a b
  if comparison = -1 then .ok (.ofSmall 0, .big a sign)
  else if comparison = 0 then .ok (.ofSmall (if sign = bSign then 1 else -1), .ofSmall 0)
  else do
    let (q, m) ← if a.length + b.length ≤ 200 then divMod1 a b else divMod2 fl a b
    .ok (q.signed (decide (sign ≠ bSign)), m.signed sign)

/-- `divModAny`, and so `divmod`, `divide` and `mod`; `fl` rounds to doubles. A division by zero throws.
/repo/src/tracing/js/bigint.js:1. -/
def Big.divmod (fl : Rat → Rat) (self n : Big) : R (Big × Big) :=
  match self, n with
  | .small a s, .small b _ =>
    if b = 0 then .error (.expect "Cannot divide by zero")
    else .ok (.ofSmall (a.tdiv b), .ofSmall (a.tmod b))
  | .small a s, .big _ _ => .ok (.ofSmall 0, .small a s)
  | .big a sign, .small b bSign =>
    if b = 0 then .error (.expect "Cannot divide by zero")
    else if b = 1 then .ok (.big a sign, .ofSmall 0)
    else if b = -1 then .ok ((Big.big a sign).negate, .ofSmall 0)
    else if (b.natAbs : Int) < BASE then do
      let (quotient, remainder) ← divModSmallLoop b.natAbs a.reverse 0
      .ok ((arrayToSmall quotient.reverse).signed (decide (sign ≠ bSign)),
        .ofSmall (if sign then -remainder else remainder))
    else divModArr fl a sign (smallToArray b.natAbs) bSign
  | .big a sign, .big b bSign => divModArr fl a sign b bSign

/-- `stringify` of a small integer from 0 to 35; other digits are written in angle brackets.
/repo/src/tracing/js/bigint.js:1. -/
def stringify : Big → List Char
  | .small v _ =>
    if v ≤ 35 then ("0123456789abcdefghijklmnopqrstuvwxyz".toList[v.toNat]?).toList
    else '<' :: intText v ++ ['>']
  | .big v _ =>
    match v with
    | [x] => if x ≤ 35 then ("0123456789abcdefghijklmnopqrstuvwxyz".toList[x.toNat]?).toList
      else '<' :: intText x ++ ['>']
    | _ => '<' :: ((v.map intText).intersperse [',']).flatten ++ ['>']

/-- `isNegative`. /repo/src/tracing/js/bigint.js:1. -/
def Big.isNegative : Big → Bool
  | .small v _ => decide (v < 0)
  | .big _ sign => sign

/-- `compareAbs` with a small integer. /repo/src/tracing/js/bigint.js:1. -/
def Big.compareAbsSmall : Big → Int → Int
  | .big _ _, _ => 1
  | .small a _, b => if a.natAbs = b.natAbs then 0 else if a.natAbs > b.natAbs then 1 else -1

/-- The loop of `toBase`, which pushes the digits to `out` from the least significant on.
/repo/src/tracing/js/bigint.js:1. -/
def toBaseLoop (fl : Rat → Rat) (base : Int) : Nat → Big → R (List (List Char))
  | 0, _ => .error .diverge
  | fuel + 1, left =>
    if left.isNegative || decide (left.compareAbsSmall base ≥ 0) then do
      let (quotient, digit) ← left.divmod fl (.ofSmall base)
      if digit.isNegative then .error .todo
      else
        let out ← toBaseLoop fl base fuel quotient
        .ok (stringify digit :: out)
    else .ok [stringify left]

/-- `toString(radix)` for a radix from 2 to 36 other than 10: `toBase`. A negative number is replaced by
its absolute value, so that no digit is negative (the branch for those is not modelled).
/repo/src/tracing/js/bigint.js:1. -/
def Big.toBase (fl : Rat → Rat) (fuel : Nat) (n : Big) (base : Int) : R (List Char) :=
  let minusSign := if n.isNegative then ['-'] else []
  let n := if n.isNegative then n.abs else n
  do
    let out ← toBaseLoop fl base fuel n
    .ok (minusSign ++ out.reverse.flatten)

end Verif.BigJs
