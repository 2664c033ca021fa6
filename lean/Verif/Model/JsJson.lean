import Verif.Model.BigInt
import Verif.Model.JsValues
/-! Model of the JSON result of JavaScript tracers: /repo/src/tracing/js/mod.rs:207-219 `json_result` and
/repo/src/tracing/js/builtins.rs:17-57 `to_serde_value`, `json_stringify`, with the two dependencies they
are made of: `JSON.stringify` of the engine (ECMAScript `SerializeJSONProperty`) and the parser of
`serde_json`. -/
namespace Verif

/-- A code point of a JavaScript string: a character, or half of a surrogate pair without the other half
(`n` from `0xd800` to `0xdfff`). boa's `JSON.stringify`, called in /repo/src/tracing/js/builtins.rs:44-57. -/
inductive JsChar where
  | ch (c : Char)
  | lone (n : Nat)
  deriving DecidableEq, Repr

mutual
/-- A JavaScript value as `JSON.stringify` sees it. `undefined` stands for functions and symbols too;
`bigint` for native big integers, values that contain themselves, and everything else that throws; `big`
is a big integer of bigint.js, whose `toJSON` is called. Other `toJSON` methods, getters and boxed values
are not modelled. boa's `JSON.stringify`, called in /repo/src/tracing/js/builtins.rs:44-57. -/
inductive JsTree where
  | null
  | undefined
  | bool (b : Bool)
  | num (n : JsNum)
  | str (s : List JsChar)
  | big (b : BigJs.Big)
  | bigint
  | arr (xs : JsElems)
  | obj (ms : JsMembers)
/-- The elements of an array. boa's `JSON.stringify`, called in /repo/src/tracing/js/builtins.rs:44-57. -/
inductive JsElems where
  | nil
  | cons (x : JsTree) (rest : JsElems)
/-- The enumerable own properties of an object with string keys, in order.
boa's `JSON.stringify`, called in /repo/src/tracing/js/builtins.rs:44-57. -/
inductive JsMembers where
  | nil
  | cons (key : List JsChar) (x : JsTree) (rest : JsMembers)
end

namespace JsonText

/-- A hexadecimal digit, lower case.
boa's `JSON.stringify`, called in /repo/src/tracing/js/builtins.rs:44-57. -/
def hexDigit (n : Nat) : Char := Nat.digitChar (n % 16)

/-- `UnicodeEscape`: `\u` and four digits.
boa's `JSON.stringify`, called in /repo/src/tracing/js/builtins.rs:44-57. -/
def unicodeEscape (n : Nat) : List Char :=
  ['\\', 'u', hexDigit (n / 4096), hexDigit (n / 256), hexDigit (n / 16), hexDigit n]

/-- One code point of `QuoteJSONString`.
boa's `JSON.stringify`, called in /repo/src/tracing/js/builtins.rs:44-57. -/
def escape : JsChar → List Char
  | .lone n => unicodeEscape n
  | .ch c =>
    if c.toNat = 8 then ['\\', 'b']
    else if c.toNat = 9 then ['\\', 't']
    else if c.toNat = 10 then ['\\', 'n']
    else if c.toNat = 12 then ['\\', 'f']
    else if c.toNat = 13 then ['\\', 'r']
    else if c = '"' then ['\\', '"']
    else if c = '\\' then ['\\', '\\']
    else if c.toNat < 32 then unicodeEscape c.toNat
    else [c]

/-- `QuoteJSONString`. boa's `JSON.stringify`, called in /repo/src/tracing/js/builtins.rs:44-57. -/
def quote (s : List JsChar) : List Char := '"' :: (s.flatMap escape ++ ['"'])

mutual
/-- `SerializeJSONProperty`: outer `none` for an exception, inner `none` for `undefined`. `numText` is
`Number::toString` for finite numbers.
boa's `JSON.stringify`, called in /repo/src/tracing/js/builtins.rs:44-57. -/
def stringify (numText : Rat → List Char) : JsTree → Option (Option (List Char))
  | .null => some (some "null".toList)
  | .undefined => some none
  | .bool true => some (some "true".toList)
  | .bool false => some (some "false".toList)
  | .num (.fin q) => some (some (numText q))
  | .num _ => some (some "null".toList)
  | .str s => some (some (quote s))
  | .big b =>
    match b.toText with
    | .error _ => none
    | .ok s => some (some (quote (s.map .ch)))
  | .bigint => none
  | .arr xs => (elements numText xs).map fun l => some ('[' :: (l ++ [']']))
  | .obj ms => (members numText ms).map fun l => some ('{' :: (l ++ ['}']))

/-- `SerializeJSONArray`: the elements, separated by commas.
boa's `JSON.stringify`, called in /repo/src/tracing/js/builtins.rs:44-57. -/
def elements (numText : Rat → List Char) : JsElems → Option (List Char)
  | .nil => some []
  | .cons x rest => do
    let t ← stringify numText x
    let r ← elements numText rest
    let t := t.getD "null".toList
    match rest with
    | .nil => some t
    | .cons _ _ => some (t ++ ',' :: r)

/-- `SerializeJSONObject`: the members that are not `undefined`, separated by commas.
boa's `JSON.stringify`, called in /repo/src/tracing/js/builtins.rs:44-57. -/
def members (numText : Rat → List Char) : JsMembers → Option (List Char)
  | .nil => some []
  | .cons key x rest => do
    let t ← stringify numText x
    let r ← members numText rest
    match t with
    | none => some r
    | some t => some (quote key ++ ':' :: (t ++ (if r.isEmpty then [] else ',' :: r)))
end

end JsonText

/-- A number of a `serde_json::Value`: an integer of 64 bits, or a float, which is kept as its text (what
`serde_json` computes from it is not modelled).
serde_json's `from_str`, called in /repo/src/tracing/js/builtins.rs:25-37. -/
inductive JsonNum where
  | int (n : Int)
  | float (text : List Char)
  deriving DecidableEq, Repr

/-- `serde_json::Value`; a `Map` is an association list.
serde_json's `from_str`, called in /repo/src/tracing/js/builtins.rs:25-37. -/
inductive Json where
  | null
  | bool (b : Bool)
  | num (n : JsonNum)
  | str (s : List Char)
  | arr (xs : List Json)
  | obj (ms : List (List Char × Json))

/-- Why `serde_json::from_str` fails. `diverge`: the model ran out of fuel.
serde_json's `from_str`, called in /repo/src/tracing/js/builtins.rs:25-37. -/
inductive JsonErr where
  | syntax
  | diverge
  deriving DecidableEq, Repr

namespace JsonParse

/-- `parse_whitespace`. serde_json's `from_str`, called in /repo/src/tracing/js/builtins.rs:25-37. -/
def isWs (c : Char) : Bool := c == ' ' || c == '\n' || c == '\t' || c == '\r'

/-- The input from the next character that is no white space on.
serde_json's `from_str`, called in /repo/src/tracing/js/builtins.rs:25-37. -/
def skipWs (s : List Char) : List Char := s.dropWhile isWs

/-- A decimal digit. serde_json's `from_str`, called in /repo/src/tracing/js/builtins.rs:25-37. -/
def isDigit (c : Char) : Bool := decide ('0' ≤ c) && decide (c ≤ '9')

/-- The characters numbers are made of.
serde_json's `from_str`, called in /repo/src/tracing/js/builtins.rs:25-37. -/
def isNumChar (c : Char) : Bool :=
  isDigit c || c == '-' || c == '+' || c == '.' || c == 'e' || c == 'E'

/-- `parse_exponent`: after `e`, an optional sign and at least one digit.
serde_json's `from_str`, called in /repo/src/tracing/js/builtins.rs:25-37. -/
def exponentOk (s : List Char) : Bool :=
  let s := match s with
    | '+' :: r => r
    | '-' :: r => r
    | r => r
  !s.isEmpty && s.all isDigit

/-- An optional exponent, up to the end.
serde_json's `from_str`, called in /repo/src/tracing/js/builtins.rs:25-37. -/
def tailOk : List Char → Bool
  | [] => true
  | c :: r => (c == 'e' || c == 'E') && exponentOk r

/-- An optional fraction and an optional exponent, up to the end.
serde_json's `from_str`, called in /repo/src/tracing/js/builtins.rs:25-37. -/
def fractionOk : List Char → Bool
  | '.' :: r => (r.head?.map isDigit).getD false && tailOk (r.dropWhile isDigit)
  | r => tailOk r

/-- `parse_integer` without a sign: no leading zeros.
serde_json's `from_str`, called in /repo/src/tracing/js/builtins.rs:25-37. -/
def unsignedOk : List Char → Bool
  | '0' :: r => fractionOk r
  | c :: r => isDigit c && fractionOk (r.dropWhile isDigit)
  | [] => false

/-- The text is a number of JSON. serde_json's `from_str`, called in /repo/src/tracing/js/builtins.rs:25-37. -/
def numberOk : List Char → Bool
  | '-' :: r => unsignedOk r
  | r => unsignedOk r

/-- The number a text denotes: an integer if it has neither fraction nor exponent and fits in 64 bits.
serde_json's `from_str`, called in /repo/src/tracing/js/builtins.rs:25-37. -/
def readNumber (s : List Char) : Except JsonErr JsonNum :=
  if !numberOk s then .error .syntax
  else
    match s with
    | '-' :: r =>
      let n := BigJs.digitsNumber r
      if r.all isDigit && decide (0 < n) && decide (n ≤ 2 ^ 63) then .ok (.int (-n))
      else .ok (.float s)
    | r =>
      let n := BigJs.digitsNumber r
      if r.all isDigit && decide (n < 2 ^ 64) then .ok (.int n) else .ok (.float s)

/-- `decode_hex_escape`. serde_json's `from_str`, called in /repo/src/tracing/js/builtins.rs:25-37. -/
def hex4 (a b c d : Char) : Option Nat := do
  let a ← hexVal a
  let b ← hexVal b
  let c ← hexVal c
  let d ← hexVal d
  some (a * 4096 + b * 256 + c * 16 + d)

/-- The characters behind a backslash other than `u` (`parse_escape`).
serde_json's `from_str`, called in /repo/src/tracing/js/builtins.rs:25-37. -/
def simpleEscape (c : Char) : Option Char :=
  if c = '"' then some '"'
  else if c = '\\' then some '\\'
  else if c = '/' then some '/'
  else if c = 'b' then some (Char.ofNat 8)
  else if c = 'f' then some (Char.ofNat 12)
  else if c = 'n' then some '\n'
  else if c = 'r' then some '\r'
  else if c = 't' then some '\t'
  else none

/-- `parse_str`, behind the opening quotation mark. Surrogates must come in pairs.
serde_json's `from_str`, called in /repo/src/tracing/js/builtins.rs:25-37. -/
def string : List Char → Except JsonErr (List Char × List Char)
  | [] => .error .syntax
  | '"' :: r => .ok ([], r)
  | '\\' :: 'u' :: a :: b :: c :: d :: r =>
    match hex4 a b c d with
    | none => .error .syntax
    | some n =>
      if 0xdc00 ≤ n ∧ n ≤ 0xdfff then .error .syntax
      else if 0xd800 ≤ n ∧ n ≤ 0xdbff then
        match r with
        | '\\' :: 'u' :: a' :: b' :: c' :: d' :: r =>
          match hex4 a' b' c' d' with
          | none => .error .syntax
          | some m =>
            if 0xdc00 ≤ m ∧ m ≤ 0xdfff then do
              let (s, r) ← string r
              .ok (Char.ofNat ((n - 0xd800) * 1024 + (m - 0xdc00) + 0x10000) :: s, r)
            else .error .syntax
        | _ => .error .syntax
      else do
        let (s, r) ← string r
        .ok (Char.ofNat n :: s, r)
  | '\\' :: c :: r =>
    match simpleEscape c with
    | none => .error .syntax
    | some c => do
      let (s, r) ← string r
      .ok (c :: s, r)
  | c :: r =>
    if c = '\\' ∨ c.toNat < 32 then .error .syntax
    else do
      let (s, r) ← string r
      .ok (c :: s, r)

/-- `map.insert`. serde_json's `from_str`, called in /repo/src/tracing/js/builtins.rs:25-37. -/
def insert (ms : List (List Char × Json)) (k : List Char) (v : Json) : List (List Char × Json) :=
  match ms with
  | [] => [(k, v)]
  | (k', v') :: rest => if k = k' then (k, v) :: rest else (k', v') :: insert rest k v

mutual
/-- `Deserializer::parse_value`; `depth` is `remaining_depth`, which begins with 128 and must not reach 0.
One unit of fuel for each value. serde_json's `from_str`, called in /repo/src/tracing/js/builtins.rs:25-37. -/
def value : (fuel depth : Nat) → List Char → Except JsonErr (Json × List Char)
  | 0, _, _ => .error .diverge
  | fuel + 1, depth, s =>
    match skipWs s with
    | 'n' :: 'u' :: 'l' :: 'l' :: r => .ok (.null, r)
    | 't' :: 'r' :: 'u' :: 'e' :: r => .ok (.bool true, r)
    | 'f' :: 'a' :: 'l' :: 's' :: 'e' :: r => .ok (.bool false, r)
    | '"' :: r => do
      let (s, r) ← string r
      .ok (.str s, r)
    | '[' :: r =>
      if depth ≤ 1 then .error .syntax
      else match skipWs r with
        | ']' :: r => .ok (.arr [], r)
        | r => do
          let (xs, r) ← items fuel (depth - 1) r
          .ok (.arr xs, r)
    | '{' :: r =>
      if depth ≤ 1 then .error .syntax
      else match skipWs r with
        | '}' :: r => .ok (.obj [], r)
        | r => do
          let (ms, r) ← pairs fuel (depth - 1) r []
          .ok (.obj ms, r)
    | c :: r =>
      if c = '-' ∨ isDigit c then do
        let n ← readNumber ((c :: r).takeWhile isNumChar)
        .ok (.num n, (c :: r).dropWhile isNumChar)
      else .error .syntax
    | [] => .error .syntax

/-- The elements of an array, at least one.
serde_json's `from_str`, called in /repo/src/tracing/js/builtins.rs:25-37. -/
def items : (fuel depth : Nat) → List Char → Except JsonErr (List Json × List Char)
  | 0, _, _ => .error .diverge
  | fuel + 1, depth, s => do
    let (v, r) ← value fuel depth s
    match skipWs r with
    | ',' :: r => do
      let (vs, r) ← items fuel depth r
      .ok (v :: vs, r)
    | ']' :: r => .ok ([v], r)
    | _ => .error .syntax

/-- The members of an object, at least one, put into the map `ms`.
serde_json's `from_str`, called in /repo/src/tracing/js/builtins.rs:25-37. -/
def pairs : (fuel depth : Nat) → List Char → List (List Char × Json) →
    Except JsonErr (List (List Char × Json) × List Char)
  | 0, _, _, _ => .error .diverge
  | fuel + 1, depth, s, ms =>
    match skipWs s with
    | '"' :: r => do
      let (k, r) ← string r
      match skipWs r with
      | ':' :: r => do
        let (v, r) ← value fuel depth r
        match skipWs r with
        | ',' :: r => pairs fuel depth r (insert ms k v)
        | '}' :: r => .ok (insert ms k v, r)
        | _ => .error .syntax
      | _ => .error .syntax
    | _ => .error .syntax
end

/-- `serde_json::from_str`: a value, and white space up to the end.
serde_json's `from_str`, called in /repo/src/tracing/js/builtins.rs:25-37. -/
def fromStr (s : List Char) : Except JsonErr Json := do
  let (v, r) ← value (2 * s.length + 1) 128 s
  if (skipWs r).isEmpty then .ok v else .error .syntax

end JsonParse

/-- What the tracer left of the global `JSON`: the built-in object, something that is no object, an object
whose `stringify` is no function, or one whose `stringify` is a function of the tracer (`none`: it throws;
else what it returns, converted to a string).
boa's `JSON.stringify`, called in /repo/src/tracing/js/builtins.rs:44-57. -/
inductive JsonGlobal where
  | builtin
  | notObject
  | notCallable
  | replaced (f : JsTree → Option (List JsChar))

/-- /repo/src/tracing/js/builtins.rs:44-57 `json_stringify`: `none` for an exception. The string of
`undefined` is `"undefined"`. -/
def jsonStringify (numText : Rat → List Char) (g : JsonGlobal) (v : JsTree) : Option (List JsChar) :=
  match g with
  | .notObject => none
  | .notCallable => none
  | .replaced f => f v
  | .builtin =>
    (JsonText.stringify numText v).map fun t => (t.getD "undefined".toList).map .ch

/-- `JsString::to_std_string`: `none` if there are lone surrogates.
boa, called in /repo/src/tracing/js/builtins.rs:25-37. -/
def toStdString : List JsChar → Option (List Char)
  | [] => some []
  | .ch c :: s => (toStdString s).map (c :: ·)
  | .lone _ :: _ => none

/-- The errors of `json_result`: the text is not unicode, or no JSON, or one of the engine (an exception
of the tracer or of the conversion). /repo/src/tracing/js/mod.rs:207-219. -/
inductive JsonResultErr where
  | notUnicode
  | parse (e : JsonErr)
  | js
  deriving DecidableEq, Repr

/-- /repo/src/tracing/js/builtins.rs:25-41 `to_serde_value`; `toJson` is boa's own conversion, which is
used when `json_stringify` fails. -/
def toSerdeValue (numText : Rat → List Char) (toJson : JsTree → Option Json) (g : JsonGlobal)
    (v : JsTree) : Except JsonResultErr Json :=
  match jsonStringify numText g v with
  | some json =>
    match toStdString json with
    | none => .error .notUnicode
    | some json =>
      match JsonParse.fromStr json with
      | .error e => .error (.parse e)
      | .ok j => .ok j
  | none =>
    match toJson v with
    | none => .error .js
    | some j => .ok j

/-- /repo/src/tracing/js/mod.rs:207-219 `json_result`; `result` is what the tracer's function `result`
returned (`none`: it threw). -/
def jsonResult (numText : Rat → List Char) (toJson : JsTree → Option Json) (g : JsonGlobal)
    (result : Option JsTree) : Except JsonResultErr Json :=
  match result with
  | none => .error .js
  | some v => toSerdeValue numText toJson g v

end Verif
