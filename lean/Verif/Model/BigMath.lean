import Verif.Model.BigInt
/-! Model of further methods of the big integers of JavaScript tracers (/repo/src/tracing/js/bigint.js):
powers, shifts, bit operations, greatest common divisors. As in `Verif.Model.BigInt`, JavaScript numbers
are integers, arguments of methods are big integers, and definitions cite the function they model. Where a
method is given a number that is not larger than `2^53`, `parseValue` makes a `SmallInteger` of it. -/
namespace Verif.BigJs

/-- A bound for the rounds of the loops below (there is none in the file): the absolute value.
/repo/src/tracing/js/bigint.js:1. -/
def Big.magnitude : Big → Nat
  | .small v _ => v.natAbs
  | .big v _ => (v.foldr (fun d n => d + BASE * n) 0).natAbs

/-- `isEven`: `(this.value[0]&1)===0` and `(this.value&1)===0`. An empty array has no first digit, and
`undefined&1` is 0. /repo/src/tracing/js/bigint.js:1. -/
def Big.isEven : Big → Bool
  | .small v _ => decide (v % 2 = 0)
  | .big v _ => match v with
    | [] => true
    | x :: _ => decide (x % 2 = 0)

/-- `isOdd`. /repo/src/tracing/js/bigint.js:1. -/
def Big.isOdd : Big → Bool
  | .small v _ => decide (v % 2 = 1)
  | .big v _ => match v with
    | [] => false
    | x :: _ => decide (x % 2 = 1)

/-- `isPositive`. /repo/src/tracing/js/bigint.js:1. -/
def Big.isPositive : Big → Bool
  | .small v _ => decide (v > 0)
  | .big _ sign => !sign

/-- `isZero`. /repo/src/tracing/js/bigint.js:1. -/
def Big.isZero : Big → Bool
  | .small v _ => decide (v = 0)
  | .big _ _ => false

/-- `isUnit`. /repo/src/tracing/js/bigint.js:1. -/
def Big.isUnit : Big → Bool
  | .small v _ => decide (v.natAbs = 1)
  | .big _ _ => false

/-- `equals`. /repo/src/tracing/js/bigint.js:1. -/
def Big.equals (a b : Big) : Bool := decide (a.compare b = 0)

/-- `greater`. /repo/src/tracing/js/bigint.js:1. -/
def Big.greater (a b : Big) : Bool := decide (a.compare b > 0)

/-- `lesser`. /repo/src/tracing/js/bigint.js:1. -/
def Big.lesser (a b : Big) : Bool := decide (a.compare b < 0)

/-- `square`, the function: its loops are those of `multiplyLong`. /repo/src/tracing/js/bigint.js:1. -/
def squareArr (a : Arr) : R Arr := do
  let r ← mulLoop a a (List.replicate (a.length + a.length) 0)
  .ok (trim r)

/-- `square`, the methods. /repo/src/tracing/js/bigint.js:1. -/
def Big.square : Big → R Big
  | .big a _ => do
    let r ← squareArr a
    .ok (.big r false)
  | .small a _ =>
    let value := a * a
    if isPrecise value then .ok (.ofSmall value)
    else do
      let r ← squareArr (smallToArray a.natAbs)
      .ok (.big r false)

/-- `next`. /repo/src/tracing/js/bigint.js:1. -/
def Big.next : Big → R Big
  | .big value sign =>
    if sign then .ok (subtractSmall value 1 sign)
    else do
      let r ← addSmall value 1
      .ok (.big r sign)
  | .small value _ =>
    if value + 1 < MAX_INT then .ok (.ofSmall (value + 1)) else .ok (.big MAX_INT_ARR false)

/-- `prev`. /repo/src/tracing/js/bigint.js:1. -/
def Big.prev : Big → R Big
  | .big value sign =>
    if sign then do
      let r ← addSmall value 1
      .ok (.big r true)
    else .ok (subtractSmall value 1 sign)
  | .small value _ =>
    if value - 1 > -MAX_INT then .ok (.ofSmall (value - 1)) else .ok (.big MAX_INT_ARR true)

/-- `not`. /repo/src/tracing/js/bigint.js:1. -/
def Big.not (x : Big) : R Big := x.negate.prev

/-- The loop of `pow`; `b&1===1` is the lowest bit of `b`. One unit of fuel for each round.
/repo/src/tracing/js/bigint.js:1. -/
def powLoop : Nat → (x y : Big) → (b : Nat) → R Big
  | 0, _, _, _ => .error .diverge
  | fuel + 1, x, y, b => do
    let (y, b) ← if b % 2 = 1 then do
        let y ← y.multiply x
        Except.ok (y, b - 1)
      else Except.ok (y, b)
    if b = 0 then .ok y
    else do
      let x ← x.square
      powLoop fuel x y (b / 2)

/-- `pow`, from `if(n.sign)` on. `Math.pow(a,b)` is taken to be the power if that is precise, and not
precise otherwise. /repo/src/tracing/js/bigint.js:1. -/
def powRest (self n : Big) : R Big :=
  if n.sign then .ok (.ofSmall 0)
  else match n, self with
    | .big _ _, _ => .error (.expect "The exponent is too large.")
    | .small b _, .small a _ =>
      if isPrecise (a ^ b.toNat) then .ok (.ofSmall (a ^ b.toNat))
      else powLoop (b.toNat + 1) self (.ofSmall 1) b.toNat
    | .small b _, .big _ _ => powLoop (b.toNat + 1) self (.ofSmall 1) b.toNat

/-- `pow`. /repo/src/tracing/js/bigint.js:1. -/
def Big.pow (self n : Big) : R Big :=
  if n.isZero then .ok (.ofSmall 1)
  else match self with
    | .small a _ =>
      if a = 0 then .ok (.ofSmall 0)
      else if a = 1 then .ok (.ofSmall 1)
      else if a = -1 then (if n.isEven then .ok (.ofSmall 1) else .ok (.ofSmall (-1)))
      else powRest self n
    | .big _ _ => powRest self n

/-- The loop of `modPow`, one unit of fuel for each round. /repo/src/tracing/js/bigint.js:1. -/
def modPowLoop (fl : Rat → Rat) (mod : Big) : Nat → (r base exp : Big) → R Big
  | 0, _, _, _ => .error .diverge
  | fuel + 1, r, base, exp =>
    if exp.isPositive then
      if base.isZero then .ok (.ofSmall 0)
      else do
        let r ← if exp.isOdd then do
            let p ← r.multiply base
            let (_, m) ← p.divmod fl mod
            Except.ok m
          else Except.ok r
        let (exp, _) ← exp.divmod fl (.ofSmall 2)
        let s ← base.square
        let (_, base) ← s.divmod fl mod
        modPowLoop fl mod fuel r base exp
    else .ok r

/-- `modPow`. /repo/src/tracing/js/bigint.js:1. -/
def Big.modPow (fl : Rat → Rat) (self exp mod : Big) : R Big :=
  if mod.isZero then .error (.expect "Cannot take modPow with modulus 0")
  else do
    let (_, base) ← self.divmod fl mod
    modPowLoop fl mod (exp.magnitude + 1) (.ofSmall 1) base exp

/-! ### Shifts -/

/-- `powersOfTwo`: the loop that fills it, one unit of fuel for each element.
/repo/src/tracing/js/bigint.js:1. -/
def powersFrom : Nat → Int → List Int
  | 0, _ => []
  | fuel + 1, p => p :: (if 2 * p ≤ BASE then powersFrom fuel (2 * p) else [])

/-- `powersOfTwo`. /repo/src/tracing/js/bigint.js:1. -/
def powersOfTwo : List Int := powersFrom 64 1

/-- `highestPower2=powersOfTwo[powers2Length-1]`. /repo/src/tracing/js/bigint.js:1. -/
def highestPower2 : Int := (powersOfTwo.getLast?).getD 0

/-- The argument of a shift: a number (only integers are modelled) or a big integer.
/repo/src/tracing/js/bigint.js:1. -/
inductive ShiftArg where
  | number (n : Int)
  | object (n : Big)
  deriving DecidableEq, Repr

/-- `shift_isSmall`: a `SmallInteger` is neither a number nor an `instanceof BigInteger`.
/repo/src/tracing/js/bigint.js:1. -/
def shiftIsSmall : ShiftArg → Bool
  | .number n => decide ((n.natAbs : Int) ≤ BASE)
  | .object (.big v _) => decide (v.length ≤ 1)
  | .object (.small _ _) => false

/-- `n=+n`, of what `shift_isSmall` accepts. /repo/src/tracing/js/bigint.js:1. -/
def ShiftArg.toNumber : ShiftArg → R Int
  | .number n => .ok n
  | .object (.big [x] sign) => .ok (if sign then -x else x)
  | .object _ => .error .todo

/-- The loop of `shiftLeft` and the multiplication after it. /repo/src/tracing/js/bigint.js:1. -/
def shiftLeftLoop : Nat → Nat → Big → R Big
  | 0, _, _ => .error .diverge
  | fuel + 1, n, result =>
    if n ≥ powersOfTwo.length then do
      let result ← result.multiply (.ofSmall highestPower2)
      shiftLeftLoop fuel (n - (powersOfTwo.length - 1)) result
    else match powersOfTwo[n]? with
      | none => .error .index
      | some p => result.multiply (.ofSmall p)

/-- `remQuo=divModAny(result,p)` and what is returned of it. /repo/src/tracing/js/bigint.js:1. -/
def floorDiv (fl : Rat → Rat) (x : Big) (p : Int) : R Big := do
  let (q, r) ← x.divmod fl (.ofSmall p)
  if r.isNegative then q.prev else .ok q

/-- The loop of `shiftRight` and the division after it. /repo/src/tracing/js/bigint.js:1. -/
def shiftRightLoop (fl : Rat → Rat) : Nat → Nat → Big → R Big
  | 0, _, _ => .error .diverge
  | fuel + 1, n, result =>
    if n ≥ powersOfTwo.length then
      if result.isZero then .ok result
      else do
        let result ← floorDiv fl result highestPower2
        shiftRightLoop fl fuel (n - (powersOfTwo.length - 1)) result
    else match powersOfTwo[n]? with
      | none => .error .index
      | some p => floorDiv fl result p

/-- `shiftLeft`. /repo/src/tracing/js/bigint.js:1. -/
def Big.shiftLeft (fl : Rat → Rat) (self : Big) (n : ShiftArg) : R Big :=
  if shiftIsSmall n then do
    let n ← n.toNumber
    if n < 0 then shiftRightLoop fl ((-n).toNat + 1) (-n).toNat self
    else shiftLeftLoop (n.toNat + 1) n.toNat self
  else .error (.expect "is too large for shifting.")

/-- `shiftRight`. /repo/src/tracing/js/bigint.js:1. -/
def Big.shiftRight (fl : Rat → Rat) (self : Big) (n : ShiftArg) : R Big :=
  if shiftIsSmall n then do
    let n ← n.toNumber
    if n < 0 then shiftLeftLoop ((-n).toNat + 1) (-n).toNat self
    else shiftRightLoop fl (n.toNat + 1) n.toNat self
  else .error (.expect "is too large for shifting.")

/-! ### Bit operations -/

/-- `toJSNumber` of a small integer; a large one would be rounded. /repo/src/tracing/js/bigint.js:1. -/
def Big.toJSNumber : Big → R Int
  | .small v _ => .ok v
  | .big _ _ => .error .todo

/-- The digit of `bitwise` for the remainder of a division by `highestPower2`.
/repo/src/tracing/js/bigint.js:1. -/
def bitDigit (sign : Bool) (r : Big) : R Int := do
  let d ← r.toJSNumber
  .ok (if sign then highestPower2 - 1 - d else d)

/-- The first loop of `bitwise`: the digits of the result, the least significant first. `fn` is `&`, `|` or
`^` on numbers below `2^23`. One unit of fuel for each round. /repo/src/tracing/js/bigint.js:1. -/
def bitwiseLoop (fl : Rat → Rat) (fn : Nat → Nat → Nat) (xSign ySign : Bool) :
    Nat → (xRem yRem : Big) → R (List Int)
  | 0, _, _ => .error .diverge
  | fuel + 1, xRem, yRem =>
    if !xRem.isZero || !yRem.isZero then do
      let (xq, xr) ← xRem.divmod fl (.ofSmall highestPower2)
      let xDigit ← bitDigit xSign xr
      let (yq, yr) ← yRem.divmod fl (.ofSmall highestPower2)
      let yDigit ← bitDigit ySign yr
      let result ← bitwiseLoop fl fn xSign ySign fuel xq yq
      .ok ((fn xDigit.toNat yDigit.toNat : Nat) :: result)
    else .ok []

/-- The second loop of `bitwise`, from the most significant digit on. /repo/src/tracing/js/bigint.js:1. -/
def bitwiseSum (sum : Big) : List Int → R Big
  | [] => .ok sum
  | d :: result => do
    let s ← bitwiseSum sum result
    let s ← s.multiply (.ofSmall highestPower2)
    s.add (.ofSmall d)

/-- `xSign?x.not():x`. /repo/src/tracing/js/bigint.js:1. -/
def bitRest (x : Big) : R Big := if x.isNegative then x.not else .ok x

/-- `bitwise`. /repo/src/tracing/js/bigint.js:1. -/
def bitwise (fl : Rat → Rat) (fn : Nat → Nat → Nat) (x y : Big) : R Big := do
  let xSign := x.isNegative
  let ySign := y.isNegative
  let xRem ← bitRest x
  let yRem ← bitRest y
  let result ← bitwiseLoop fl fn xSign ySign (xRem.magnitude + yRem.magnitude + 1) xRem yRem
  let sum : Big := if fn (if xSign then 1 else 0) (if ySign then 1 else 0) ≠ 0 then .ofSmall (-1) else .ofSmall 0
  bitwiseSum sum result

/-- `and`. /repo/src/tracing/js/bigint.js:1. -/
def Big.and (fl : Rat → Rat) (x y : Big) : R Big := bitwise fl (· &&& ·) x y

/-- `or`. /repo/src/tracing/js/bigint.js:1. -/
def Big.or (fl : Rat → Rat) (x y : Big) : R Big := bitwise fl (· ||| ·) x y

/-- `xor`. /repo/src/tracing/js/bigint.js:1. -/
def Big.xor (fl : Rat → Rat) (x y : Big) : R Big := bitwise fl (· ^^^ ·) x y

/-! ### Divisors -/

/-- `max`. /repo/src/tracing/js/bigint.js:1. -/
def bigMax (a b : Big) : Big := if a.greater b then a else b

/-- `min`. /repo/src/tracing/js/bigint.js:1. -/
def bigMin (a b : Big) : Big := if a.lesser b then a else b

/-- `LOBMASK_I=1<<30`. /repo/src/tracing/js/bigint.js:1. -/
def LOBMASK_I : BitVec 32 := 1#32 <<< 30

/-- `LOBMASK_BI=(BASE&-BASE)*(BASE&-BASE)|LOBMASK_I`. /repo/src/tracing/js/bigint.js:1. -/
def LOBMASK_BI : BitVec 32 :=
  let b := BitVec.ofInt 32 BASE
  ((b &&& -b) * (b &&& -b)) ||| LOBMASK_I

/-- `roughLOB`; bit operations convert numbers to 32 bits. /repo/src/tracing/js/bigint.js:1. -/
def roughLOB : Big → R Int
  | .small v _ =>
    let x := BitVec.ofInt 32 v ||| LOBMASK_I
    .ok (x &&& -x).toInt
  | .big v _ =>
    match v with
    | v0 :: v1 :: _ => do
      let n ← num (v0 + v1 * BASE)
      let x := BitVec.ofInt 32 n ||| LOBMASK_BI
      .ok (x &&& -x).toInt
    | _ => .error .index

/-- `while(a.isEven()){a=a.divide(roughLOB(a))}`, one unit of fuel for each round.
/repo/src/tracing/js/bigint.js:1. -/
def makeOdd (fl : Rat → Rat) : Nat → Big → R Big
  | 0, _ => .error .diverge
  | fuel + 1, a =>
    if a.isEven then do
      let d ← roughLOB a
      let (q, _) ← a.divmod fl (.ofSmall d)
      makeOdd fl fuel q
    else .ok a

/-- The first loop of `gcd`: while both numbers are even. /repo/src/tracing/js/bigint.js:1. -/
def bothEven (fl : Rat → Rat) : Nat → (a b c : Big) → R (Big × Big × Big)
  | 0, _, _, _ => .error .diverge
  | fuel + 1, a, b, c =>
    if a.isEven && b.isEven then do
      let da ← roughLOB a
      let db ← roughLOB b
      let d := min da db
      let (a, _) ← a.divmod fl (.ofSmall d)
      let (b, _) ← b.divmod fl (.ofSmall d)
      let c ← c.multiply (.ofSmall d)
      bothEven fl fuel a b c
    else .ok (a, b, c)

/-- The last loop of `gcd`; returns `a`. /repo/src/tracing/js/bigint.js:1. -/
def gcdLoop (fl : Rat → Rat) : Nat → (a b : Big) → R Big
  | 0, _, _ => .error .diverge
  | fuel + 1, a, b => do
    let b ← makeOdd fl (b.magnitude + 1) b
    let (a, b) := if a.greater b then (b, a) else (a, b)
    let b ← b.subtract a
    if b.isZero then .ok a else gcdLoop fl fuel a b

/-- `gcd`. /repo/src/tracing/js/bigint.js:1. -/
def gcd (fl : Rat → Rat) (a b : Big) : R Big :=
  let a := a.abs
  let b := b.abs
  if a.equals b then .ok a
  else if a.isZero then .ok b
  else if b.isZero then .ok a
  else do
    let (a, b, c) ← bothEven fl (a.magnitude + 1) a b (.ofSmall 1)
    let a ← makeOdd fl (a.magnitude + 1) a
    let a ← gcdLoop fl (a.magnitude + b.magnitude + 1) a b
    if c.isUnit then .ok a else a.multiply c

/-- `lcm`. /repo/src/tracing/js/bigint.js:1. -/
def lcm (fl : Rat → Rat) (a b : Big) : R Big := do
  let a := a.abs
  let b := b.abs
  let g ← gcd fl a b
  let (q, _) ← a.divmod fl g
  q.multiply b

/-- `isDivisibleBy`. /repo/src/tracing/js/bigint.js:1. -/
def Big.isDivisibleBy (fl : Rat → Rat) (self n : Big) : R Bool :=
  let general : R Bool := do
    let (_, r) ← self.divmod fl n
    .ok (r.equals (.ofSmall 0))
  match n with
  | .small value _ =>
    if value = 0 then .ok false
    else if value = 1 then .ok true
    else if value = 2 then .ok self.isEven
    else general
  | .big _ _ => general

/-- The loop of `modInv`, one unit of fuel for each round. Returns `t` and `r`.
/repo/src/tracing/js/bigint.js:1. -/
def modInvLoop (fl : Rat → Rat) : Nat → (t newT r newR : Big) → R (Big × Big)
  | 0, _, _, _, _ => .error .diverge
  | fuel + 1, t, newT, r, newR =>
    if newR.equals (.ofSmall 0) then .ok (t, r)
    else do
      let (q, _) ← r.divmod fl newR
      let p1 ← q.multiply newT
      let nextT ← t.subtract p1
      let p2 ← q.multiply newR
      let nextR ← r.subtract p2
      modInvLoop fl fuel newT nextT newR nextR

/-- `modInv`. /repo/src/tracing/js/bigint.js:1. -/
def Big.modInv (fl : Rat → Rat) (self n : Big) : R Big := do
  let newR := self.abs
  let (t, r) ← modInvLoop fl (n.magnitude + newR.magnitude + 2) (.ofSmall 0) (.ofSmall 1) n newR
  if !r.equals (.ofSmall 1) then .error (.expect "are not co-prime")
  else do
    let t ← if t.compare (.ofSmall 0) = -1 then t.add n else .ok t
    if self.isNegative then .ok t.negate else .ok t

end Verif.BigJs
