import Verif.Model.BigMath
/-! Model of reading a big integer to a base (`bigint(text, base)`, /repo/src/tracing/js/bigint.js,
`Integer`, `parseBase`, `parseBaseFromArray`), for bases from 2 to 36. As in `Verif.Model.BigInt`,
JavaScript numbers are integers. Texts are lists of characters: halves of surrogate pairs, which are no
digits either, do not occur. -/
namespace Verif.BigJs

/-- `text[i].toLowerCase()`, or its first character. Only what is tested later is kept apart: of all other
characters than the 26 capital letters only the Kelvin sign and the dotted capital I become letters.
ECMAScript, for /repo/src/tracing/js/bigint.js:1. -/
def lower (c : Char) : Char :=
  if 'A' ≤ c ∧ c ≤ 'Z' then Char.ofNat (c.toNat + 32)
  else if c = Char.ofNat 0x212A then 'k'
  else if c = Char.ofNat 0x130 then 'i'
  else c

/-- `/[0-9]/.test(c)`. ECMAScript, for /repo/src/tracing/js/bigint.js:1. -/
def isDecimal (c : Char) : Bool := decide ('0' ≤ c) && decide (c ≤ '9')

/-- `/[a-z0-9]/.test(c)` for what is no decimal digit. ECMAScript, for /repo/src/tracing/js/bigint.js:1. -/
def isLetter (c : Char) : Bool := decide ('a' ≤ c) && decide (c ≤ 'z')

/-- The first loop of `parseBase`, which looks for digits that are too large.
/repo/src/tracing/js/bigint.js:1. -/
def checkDigits (base : Nat) : List Char → R Unit
  | [] => .ok ()
  | t :: text =>
    let c := lower t
    if c = '-' then checkDigits base text
    else if isDecimal c then
      if c.toNat - 48 ≥ base then .error (.expect "is not a valid digit") else checkDigits base text
    else if isLetter c then
      if c.toNat - 87 ≥ base then .error (.expect "is not a valid digit") else checkDigits base text
    else checkDigits base text

/-- The white space that `parseInt` skips. ECMAScript, for /repo/src/tracing/js/bigint.js:1. -/
def isSpace (c : Char) : Bool :=
  [9, 10, 11, 12, 13, 0x20, 0xA0, 0x1680, 0x2028, 0x2029, 0x202F, 0x205F, 0x3000, 0xFEFF].contains c.toNat ||
    (decide (0x2000 ≤ c.toNat) && decide (c.toNat ≤ 0x200A))

/-- The value of a digit for `parseInt`: decimal digits and the 26 letters, capital or not.
ECMAScript, for /repo/src/tracing/js/bigint.js:1. -/
def digitValue (c : Char) : Option Nat :=
  if '0' ≤ c ∧ c ≤ '9' then some (c.toNat - 48)
  else if 'a' ≤ c ∧ c ≤ 'z' then some (c.toNat - 87)
  else if 'A' ≤ c ∧ c ≤ 'Z' then some (c.toNat - 55)
  else none

/-- The longest start of a text that consists of digits below the base.
ECMAScript, for /repo/src/tracing/js/bigint.js:1. -/
def leadingDigits (base : Nat) : List Char → List Nat
  | [] => []
  | c :: text =>
    match digitValue c with
    | some d => if d < base then d :: leadingDigits base text else []
    | none => []

/-- `parseInt(text, base)` of ECMAScript, `none` for `NaN`: white space is skipped, then a sign, and what
follows the digits is ignored. To base 16 it also skips `0x`, which `parseBase` has rejected before. The
number is exact if it is below `2^53`, which it is where `parseBase` calls it.
ECMAScript, for /repo/src/tracing/js/bigint.js:1. -/
def parseInt (base : Nat) (text : List Char) : Option Int :=
  let s := text.dropWhile isSpace
  let negative := s.head? = some '-'
  let s := if s.head? = some '-' ∨ s.head? = some '+' then s.drop 1 else s
  match leadingDigits base s with
  | [] => none
  | ds =>
    let n := ds.foldl (fun n d => base * n + d) 0
    some (if negative then -(n : Int) else n)

/-- What follows the first `>`, and what precedes it: the `do` loop of `parseBase`. Without a `>` it has no
end. /repo/src/tracing/js/bigint.js:1. -/
def upToBracket : List Char → R (List Char × List Char)
  | [] => .error .diverge
  | c :: text =>
    if c = '>' then .ok ([], text)
    else do
      let (s, rest) ← upToBracket text
      .ok (c :: s, rest)

/-- The second loop of `parseBase`, which collects the digits; `fuel` bounds its rounds (there is no such
bound in the file). `none` is what `parseStringValue` does not model. /repo/src/tracing/js/bigint.js:1. -/
def collectDigits : (fuel : Nat) → List Char → Option (R (List Big))
  | _, [] => some (.ok [])
  | 0, _ :: _ => some (.error .diverge)
  | fuel + 1, t :: text =>
    let c := lower t
    if isDecimal c then
      (collectDigits fuel text).map fun r => r.map (Big.ofSmall (c.toNat - 48) :: ·)
    else if isLetter c then
      (collectDigits fuel text).map fun r => r.map (Big.ofSmall (c.toNat - 87) :: ·)
    else if c = '<' then
      match upToBracket text with
      | .error e => some (.error e)
      | .ok (s, rest) =>
        match parseStringValue s with
        | none => none
        | some (.error e) => some (.error e)
        | some (.ok d) => (collectDigits fuel rest).map fun r => r.map (d :: ·)
    else some (.error (.expect "is not a valid character"))

/-- The loop of `parseBaseFromArray`, from the least significant digit on. /repo/src/tracing/js/bigint.js:1. -/
def fromArrayLoop (base : Big) : List Big → (val pow : Big) → R Big
  | [], val, _ => .ok val
  | d :: ds, val, pow => do
    let p ← d.multiply pow
    let val ← val.add p
    let pow ← pow.multiply base
    fromArrayLoop base ds val pow

/-- `parseBaseFromArray`. /repo/src/tracing/js/bigint.js:1. -/
def parseBaseFromArray (digits : List Big) (base : Big) (isNegative : Bool) : R Big := do
  let val ← fromArrayLoop base digits.reverse (.ofSmall 0) (.ofSmall 1)
  .ok (if isNegative then val.negate else val)

/-- `parseBase` for a base from 2 to 36. `short` is the largest integer that is not larger than the quotient
of logarithms `LOG_MAX_INT/Math.log(base)`. /repo/src/tracing/js/bigint.js:1. -/
def parseBase (short : Nat → Nat) (text : List Char) (base : Nat) : Option (R Big) :=
  match checkDigits base text with
  | .error e => some (.error e)
  | .ok () =>
    if text.length ≤ short base then
      match parseInt base text with
      | none => some (.error (.expect "is not a valid digit"))
      | some n => some (.ok (.ofSmall n))
    else
      let isNegative := text.head? = some '-'
      match collectDigits text.length (if isNegative then text.drop 1 else text) with
      | none => none
      | some (.error e) => some (.error e)
      | some (.ok digits) => some (parseBaseFromArray digits (.ofSmall base) isNegative)

/-- `Integer(v, radix)` for a string and a number from 2 to 36. /repo/src/tracing/js/bigint.js:1. -/
def bigOfText (short : Nat → Nat) (text : List Char) (base : Nat) : Option (R Big) :=
  if base = 10 then parseStringValue text else parseBase short text base

end Verif.BigJs
