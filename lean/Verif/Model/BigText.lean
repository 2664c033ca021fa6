import Verif.Model.BigRead
import Verif.Model.JsValues
/-! Model of reading a big integer from any text (`bigint(text)`, /repo/src/tracing/js/bigint.js,
`parseStringValue`), with the conversion of strings to numbers of ECMAScript (`StringToNumber`, written down
from its specification), and from a number (`parseNumberValue`). `Verif.BigJs.parseStringValue` is the part
of it for texts of digits. -/
namespace Verif.BigJs

/-- Rounding to a double. Numbers above `2^1023` are left as they are: all that is asked of them is whether
they are below `2^53`. ECMAScript, for /repo/src/tracing/js/bigint.js:1. -/
def toDouble (fl : Rat → Rat) (x : Rat) : Rat :=
  if x < -(2 ^ 1023) ∨ 2 ^ 1023 < x then x else fl x

/-- White space at both ends is ignored. ECMAScript, for /repo/src/tracing/js/bigint.js:1. -/
def trimSpace (s : List Char) : List Char :=
  ((s.dropWhile isSpace).reverse.dropWhile isSpace).reverse

/-- Digits to a base, at least one. ECMAScript, for /repo/src/tracing/js/bigint.js:1. -/
def natLiteral (base : Nat) (s : List Char) : Option Nat :=
  let ds := leadingDigits base s
  if ds = [] ∨ ds.length ≠ s.length then none else some (ds.foldl (fun n d => base * n + d) 0)

/-- A sign and what follows it. ECMAScript, for /repo/src/tracing/js/bigint.js:1. -/
def takeSign : List Char → Bool × List Char
  | '-' :: s => (true, s)
  | '+' :: s => (false, s)
  | s => (false, s)

/-- The exponent of a literal: nothing, or `e` or `E` and digits after a sign or none.
ECMAScript, for /repo/src/tracing/js/bigint.js:1. -/
def exponentPart : List Char → Option Int
  | [] => some 0
  | c :: s =>
    if c = 'e' ∨ c = 'E' then
      let (neg, ds) := takeSign s
      (natLiteral 10 ds).map fun n : Nat => if neg then -(n : Int) else n
    else none

/-- A number times a power of ten. ECMAScript, for /repo/src/tracing/js/bigint.js:1. -/
def scale (n : Nat) (e : Int) : Rat := if e < 0 then n / 10 ^ e.natAbs else n * 10 ^ e.natAbs

/-- `StrUnsignedDecimalLiteral` other than `Infinity`. ECMAScript, for /repo/src/tracing/js/bigint.js:1. -/
def unsignedDecimal (s : List Char) : Option Rat :=
  let whole := leadingDigits 10 s
  let rest := s.drop whole.length
  let after := match rest with
    | '.' :: r => r
    | _ => []
  let frac := leadingDigits 10 after
  let rest := match rest with
    | '.' :: r => r.drop frac.length
    | r => r
  if whole = [] ∧ frac = [] then none
  else (exponentPart rest).map fun e =>
    scale ((whole ++ frac).foldl (fun n d => 10 * n + d) 0) (e - frac.length)

/-- `+s` for a string: `none` stands for `NaN` and the infinities.
ECMAScript, for /repo/src/tracing/js/bigint.js:1. -/
def stringToNumber (fl : Rat → Rat) (s : List Char) : Option Rat :=
  let s := trimSpace s
  let signed : Option Rat :=
    let (neg, u) := takeSign s
    (unsignedDecimal u).map fun x => toDouble fl (if neg then -x else x)
  match s with
  | [] => some 0
  | '0' :: c :: ds =>
    if c = 'x' ∨ c = 'X' then (natLiteral 16 ds).map fun n : Nat => toDouble fl n
    else if c = 'o' ∨ c = 'O' then (natLiteral 8 ds).map fun n : Nat => toDouble fl n
    else if c = 'b' ∨ c = 'B' then (natLiteral 2 ds).map fun n : Nat => toDouble fl n
    else signed
  | _ => signed

/-- `isPrecise`, of any number. /repo/src/tracing/js/bigint.js:1. -/
def isPreciseRat (x : Rat) : Bool := decide (-(MAX_INT : Rat) < x) && decide (x < (MAX_INT : Rat))

/-- `v.split(/e/i)`. ECMAScript, for /repo/src/tracing/js/bigint.js:1. -/
def splitE : List Char → List (List Char)
  | [] => [[]]
  | c :: s =>
    if c = 'e' ∨ c = 'E' then [] :: splitE s
    else match splitE s with
      | [] => [[c]]
      | p :: ps => (c :: p) :: ps

/-- `parseStringValue`, from the test of the digits on. /repo/src/tracing/js/bigint.js:1. -/
def parseDigits (v : List Char) (sign : Bool) : R Big :=
  if v.isEmpty || !v.all isDecimal then .error (.expect "Invalid integer")
  else do
    let r ← pieces v v.length v.length (v.length - LOG_BASE)
    .ok (.big (trim r) sign)

/-- `if(exp[0]==="+")exp=exp.slice(1)`. /repo/src/tracing/js/bigint.js:1. -/
def dropPlus (e : List Char) : List Char := if e.head? = some '+' then e.drop 1 else e

/-- The decimal point is removed and the exponent reduced: from `decimalPlace=text.indexOf(".")` on.
/repo/src/tracing/js/bigint.js:1. -/
def removePoint (text : List Char) (exp : Int) : List Char × Int :=
  match text.idxOf? '.' with
  | some dp => (text.take dp ++ text.drop (dp + 1), exp - (text.length - dp - 1 : Nat))
  | none => (text, exp)

/-- `parseStringValue`, for texts with an exponent: from `exp=+exp` on. `new Array` throws for lengths
from `2^32` on. /repo/src/tracing/js/bigint.js:1. -/
def parseExponent (fl : Rat → Rat) (text e : List Char) (sign : Bool) : R Big :=
  match stringToNumber fl (dropPlus e) with
  | none => .error (.expect "is not a valid exponent")
  | some x =>
    if x.den ≠ 1 ∨ !isPreciseRat x then .error (.expect "is not a valid exponent")
    else
      let (text, exp) := removePoint text x.num
      if exp < 0 then .error (.expect "Cannot include negative exponent part for integers")
      else if exp + 1 ≥ 2 ^ 32 then .error (.expect "Invalid array length")
      else parseDigits (text ++ List.replicate exp.toNat '0') sign

/-- `parseStringValue`, for what is not precise as a number. /repo/src/tracing/js/bigint.js:1. -/
def parseLong (fl : Rat → Rat) (v : List Char) : R Big :=
  let sign := v.head? = some '-'
  let v := if sign then v.drop 1 else v
  match splitE v with
  | [_] => parseDigits v sign
  | [text, e] => parseExponent fl text e sign
  | _ => .error (.expect "Invalid integer")

/-- `parseStringValue`. /repo/src/tracing/js/bigint.js:1. -/
def parseText (fl : Rat → Rat) (v : List Char) : R Big :=
  match stringToNumber fl v with
  | some x =>
    if isPreciseRat x then
      if x.den = 1 then .ok (.ofSmall x.num) else .error (.expect "Invalid integer")
    else parseLong fl v
  | none => parseLong fl v

/-- `parseNumberValue`, of a finite number whose text is `text`. /repo/src/tracing/js/bigint.js:1. -/
def parseNumber (fl : Rat → Rat) (x : Rat) (text : List Char) : R Big :=
  if isPreciseRat x then
    if x.den = 1 then .ok (.ofSmall x.num) else .error (.expect "is not an integer.")
  else parseText fl text

/-- `parseNumberValue`, of any number: `isPrecise` is false of `NaN` and the infinities, so that their texts
(`Number::toString` of ECMAScript) are read. /repo/src/tracing/js/bigint.js:1. -/
def parseNumberValue (fl : Rat → Rat) (x : JsNum) (text : List Char) : R Big :=
  match x with
  | .fin x => parseNumber fl x text
  | .nan => parseText fl "NaN".toList
  | .inf negative => parseText fl (if negative then "-Infinity".toList else "Infinity".toList)

/-- `toJSNumber` and `valueOf` of both kinds of integers (/repo/src/tracing/js/bigint.js,
`BigInteger.prototype.valueOf` and `SmallInteger.prototype.valueOf`): the number, or for a large integer
`+this.toString()`. `none` stands for `NaN`. -/
def Big.valueOf (fl : Rat → Rat) : Big → R (Option Rat)
  | .small v _ => .ok (some v)
  | .big a sign => do
    let text ← (Big.big a sign).toText
    .ok (stringToNumber fl text)

end Verif.BigJs
