import Verif.Model.BigText
/-!
`fromArray` of the library of big integers (/repo/src/tracing/js/bigint.js, `Integer.fromArray`), and its
arguments (`parseValue`).
-/
namespace Verif.BigJs

/-- What can be given for an integer: a number, with the text that JavaScript writes for it, a text or an
object of the library. Other values are not modelled. /repo/src/tracing/js/bigint.js:1. -/
inductive BigArg where
  | num (x : JsNum) (text : List Char)
  | str (text : List Char)
  | big (b : Big)

/-- `parseValue`. /repo/src/tracing/js/bigint.js:1. -/
def parseValue (fl : Rat → Rat) : BigArg → R Big
  | .num x text => parseNumberValue fl x text
  | .str text => parseText fl text
  | .big b => .ok b

/-- Is the value true for `||`? All objects are, also a big integer that is zero.
ECMAScript, for /repo/src/tracing/js/bigint.js:1. -/
def BigArg.truthy : BigArg → Bool
  | .num (.fin q) _ => q != 0
  | .num .nan _ => false
  | .num (.inf _) _ => true
  | .str text => !text.isEmpty
  | .big _ => true

/-- `base||10`, where a base that is not given is `undefined`. /repo/src/tracing/js/bigint.js:1. -/
def baseOrTen : Option BigArg → BigArg
  | none => .num (.fin 10) "10".toList
  | some b => if b.truthy then b else .num (.fin 10) "10".toList

/-- `digits.map(parseValue)`, which ends with the first exception. /repo/src/tracing/js/bigint.js:1. -/
def parseValues (fl : Rat → Rat) : List BigArg → R (List Big)
  | [] => .ok []
  | a :: rest => do
    let b ← parseValue fl a
    let bs ← parseValues fl rest
    .ok (b :: bs)

/-- `Integer.fromArray`. /repo/src/tracing/js/bigint.js:1. -/
def fromArray (fl : Rat → Rat) (digits : List BigArg) (base : Option BigArg) (isNegative : Bool) : R Big := do
  let ds ← parseValues fl digits
  let b ← parseValue fl (baseOrTen base)
  parseBaseFromArray ds b isNegative

end Verif.BigJs
