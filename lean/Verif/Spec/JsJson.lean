import Verif.Model.JsJson
import Verif.Lemmas.BigInt
import Verif.Spec.BigInt
/-! What the JSON of a JavaScript value should be. -/
namespace Verif.Spec

/-- The characters of a string. -/
def chars (s : List JsChar) : List Char :=
  s.filterMap fun
    | .ch c => some c
    | .lone _ => none

/-- Every code point is a character. -/
def UnicodeStr (s : List JsChar) : Prop := ∀ n, .lone n ∉ s

/-- How the halves of surrogate pairs stand in a JavaScript string: two that make a pair are a character
and not two halves. -/
def PairedStr : List JsChar → Prop
  | [] => True
  | .ch _ :: s => PairedStr s
  | .lone n :: s =>
    0xd800 ≤ n ∧ n ≤ 0xdfff ∧ (∀ m, s.head? = some (.lone m) → ¬ (n ≤ 0xdbff ∧ 0xdc00 ≤ m)) ∧ PairedStr s

/-- It is shown as a member of an object. -/
def isDefined : JsTree → Bool
  | .undefined => false
  | _ => true

mutual
/-- The JSON of a value: numbers as numbers, big integers as their decimal digits, strings as they are,
everything else that JSON has not as `null`. -/
def json (num : Rat → JsonNum) : JsTree → Json
  | .null => .null
  | .undefined => .null
  | .bool b => .bool b
  | .num (.fin q) => .num (num q)
  | .num _ => .null
  | .str s => .str (chars s)
  | .big b => .str (intNumeral 10 b.toInt)
  | .bigint => .null
  | .arr xs => .arr (jsonElems num xs)
  | .obj ms => .obj (jsonMembers num ms)
/-- Every element. -/
def jsonElems (num : Rat → JsonNum) : JsElems → List Json
  | .nil => []
  | .cons x rest => json num x :: jsonElems num rest
/-- Every member that is defined, under its key. -/
def jsonMembers (num : Rat → JsonNum) : JsMembers → List (List Char × Json)
  | .nil => []
  | .cons key x rest =>
    (if isDefined x then [(chars key, json num x)] else []) ++ jsonMembers num rest
end

mutual
/-- How deep arrays and objects are nested. -/
def depth : JsTree → Nat
  | .arr xs => depthElems xs + 1
  | .obj ms => depthMembers ms + 1
  | _ => 0
/-- The deepest element. -/
def depthElems : JsElems → Nat
  | .nil => 0
  | .cons x rest => max (depth x) (depthElems rest)
/-- The deepest member. -/
def depthMembers : JsMembers → Nat
  | .nil => 0
  | .cons _ x rest => max (depth x) (depthMembers rest)
end

mutual
/-- Every string that is shown is made of characters. -/
def Unicode : JsTree → Prop
  | .str s => UnicodeStr s
  | .arr xs => UnicodeElems xs
  | .obj ms => UnicodeMembers ms
  | _ => True
/-- In every element. -/
def UnicodeElems : JsElems → Prop
  | .nil => True
  | .cons x rest => Unicode x ∧ UnicodeElems rest
/-- In every member that is defined, and in its key. -/
def UnicodeMembers : JsMembers → Prop
  | .nil => True
  | .cons key x rest => (isDefined x = true → UnicodeStr key) ∧ Unicode x ∧ UnicodeMembers rest
end

mutual
/-- There is a native big integer somewhere. -/
def HasBigint : JsTree → Prop
  | .bigint => True
  | .arr xs => HasBigintElems xs
  | .obj ms => HasBigintMembers ms
  | _ => False
/-- In one of the elements. -/
def HasBigintElems : JsElems → Prop
  | .nil => False
  | .cons x rest => HasBigint x ∨ HasBigintElems rest
/-- In one of the members. -/
def HasBigintMembers : JsMembers → Prop
  | .nil => False
  | .cons _ x rest => HasBigint x ∨ HasBigintMembers rest
end

/-- The keys of the members. -/
def keys : JsMembers → List (List JsChar)
  | .nil => []
  | .cons key _ rest => key :: keys rest

mutual
/-- What every JavaScript value satisfies: strings are made of pairs where there are pairs, the keys of an
object are different, and big integers were made by bigint.js. -/
def WellMade : JsTree → Prop
  | .str s => PairedStr s
  | .big b => b.Ok
  | .arr xs => WellMadeElems xs
  | .obj ms => (keys ms).Nodup ∧ WellMadeMembers ms
  | _ => True
/-- Every element. -/
def WellMadeElems : JsElems → Prop
  | .nil => True
  | .cons x rest => WellMade x ∧ WellMadeElems rest
/-- Every member and its key. -/
def WellMadeMembers : JsMembers → Prop
  | .nil => True
  | .cons key x rest => PairedStr key ∧ WellMade x ∧ WellMadeMembers rest
end

/-- A decimal digit. -/
def DecDigits (s : List Char) : Prop := ∀ c ∈ s, '0' ≤ c ∧ c ≤ '9'

/-- The forms in which JavaScript writes numbers other than integers of 64 bits: an integer, a fraction and
an exponent, of which one of the last two may be left out, or both if the integer is too large. -/
def FloatText (s : List Char) : Prop :=
  ∃ (neg : Bool) (n : Nat) (frac : List Char) (sign : Char) (exp : List Char),
    s = (if neg then ['-'] else []) ++ (numeral 10 n ++
      ((if frac = [] then [] else '.' :: frac) ++ (if exp = [] then [] else 'e' :: sign :: exp))) ∧
    DecDigits frac ∧ DecDigits exp ∧ (sign = '+' ∨ sign = '-') ∧
    (frac ≠ [] ∨ exp ≠ [] ∨ 2 ^ 64 ≤ n ∨ (neg = true ∧ 2 ^ 63 < n))

/-- `text` writes numbers as JavaScript does, and `num` is what the texts denote: integers up to 2^53 are
written as such; what else is written without fraction and exponent denotes that integer, and all other
texts denote a float. -/
def NumberText (text : Rat → List Char) (num : Rat → JsonNum) : Prop :=
  (∀ n : Int, n.natAbs ≤ 2 ^ 53 → text n = intNumeral 10 n) ∧
  ∀ q, (∃ n : Int, -(2 ^ 63) ≤ n ∧ n < 2 ^ 64 ∧ text q = intNumeral 10 n ∧ num q = .int n) ∨
    (FloatText (text q) ∧ num q = .float (text q))

end Verif.Spec
