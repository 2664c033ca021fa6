import Verif.Spec.BigInt
/-! Specification of reading numbers: positional notation, independent of the library. -/
namespace Verif.Spec

/-- The number a character stands for as a digit, whatever its case. -/
def ofDigit (c : Char) : Option Nat :=
  ((List.range 36).find? fun d => digit d = c || (digit d).toUpper = c)

/-- The digits of a text to a base, all of them below the base. -/
def digitsOf (base : Nat) (text : List Char) : Option (List Nat) :=
  text.mapM fun c => (ofDigit c).filter (· < base)

/-- The number that digits denote, the most significant first. -/
def positional (base : Nat) : List Nat → Nat
  | [] => 0
  | d :: ds => d * base ^ ds.length + positional base ds

/-- What a text denotes to a base: it consists of digits, at least one, after a minus sign or not. -/
def denoted (base : Nat) : List Char → Option Int
  | '-' :: ds => if ds = [] then none else (digitsOf base ds).map fun l => -(positional base l : Int)
  | ds => if ds = [] then none else (digitsOf base ds).map fun l => (positional base l : Int)

/-! What the library does with texts that denote no number. -/

/-- Two characters are no digits, but their small letters are: the Kelvin sign and the capital I with a
dot. -/
def lookalike (c : Char) : Char :=
  if c = Char.ofNat 0x212A then 'k' else if c = Char.ofNat 0x130 then 'i' else c

/-- White space and ends of lines of ECMAScript. -/
def blanks : List Nat :=
  [0x9, 0xA, 0xB, 0xC, 0xD, 0x20, 0xA0, 0x1680, 0x2000, 0x2001, 0x2002, 0x2003, 0x2004, 0x2005, 0x2006,
    0x2007, 0x2008, 0x2009, 0x200A, 0x2028, 0x2029, 0x202F, 0x205F, 0x3000, 0xFEFF]

/-- The number at the start of a text: white space, a sign or none, then digits, of which there is at least
one. What follows does not matter. -/
def startNumber (base : Nat) (text : List Char) : Option Int :=
  let s := text.dropWhile fun c => blanks.contains c.toNat
  let unsigned (s : List Char) : Option Nat :=
    let ds := s.takeWhile fun c => (digitsOf base [c]).isSome
    if ds = [] then none else (digitsOf base ds).map (positional base)
  match s with
  | '-' :: s => (unsigned s).map fun n : Nat => -(n : Int)
  | '+' :: s => (unsigned s).map fun n : Nat => (n : Int)
  | s => (unsigned s).map fun n : Nat => (n : Int)

/-- What a text without `<` is read as: `none` if an error is thrown. No character may be a digit that is
too large. Of a short text only the start is read. A long text is read as a whole. -/
def readAs (short base : Nat) (text : List Char) : Option Int :=
  if ∀ c ∈ text, ∀ d ∈ ofDigit (lookalike c), d < base then
    if text.length ≤ short then startNumber base text else denoted base (text.map lookalike)
  else none

end Verif.Spec
