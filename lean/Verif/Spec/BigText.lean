import Verif.Spec.BigRead
/-! Specification of decimal literals. -/
namespace Verif.Spec

/-- A sign before a number. -/
inductive Sign where
  | none
  | plus
  | minus
  deriving DecidableEq, Repr

def Sign.text : Sign → List Char
  | .none => []
  | .plus => ['+']
  | .minus => ['-']

def Sign.apply (s : Sign) (x : Rat) : Rat := if s = .minus then -x else x

/-- The exponent of a literal: `e` or `E`, a sign and digits. -/
structure Exponent where
  capital : Bool
  sign : Sign
  digits : List Nat
  deriving DecidableEq, Repr

/-- A decimal literal: a sign, digits before the point, a point or none, digits after it, an exponent or
none. -/
structure Literal where
  sign : Sign
  whole : List Nat
  point : Bool
  frac : List Nat
  exp : Option Exponent
  deriving DecidableEq, Repr

/-- Digits are below ten; there are some before or after the point, and some in the exponent. -/
def Literal.Valid (l : Literal) : Prop :=
  (∀ d ∈ l.whole, d < 10) ∧ (∀ d ∈ l.frac, d < 10) ∧ (l.point = false → l.frac = []) ∧
  ¬ (l.whole = [] ∧ l.frac = []) ∧ ∀ e ∈ l.exp, (∀ d ∈ e.digits, d < 10) ∧ e.digits ≠ []

instance (l : Literal) : Decidable l.Valid := by unfold Literal.Valid; infer_instance

def Exponent.text (e : Exponent) : List Char :=
  (if e.capital then 'E' else 'e') :: (e.sign.text ++ e.digits.map digit)

/-- The text of a literal. -/
def Literal.text (l : Literal) : List Char :=
  l.sign.text ++ (l.whole.map digit ++ ((if l.point then '.' :: l.frac.map digit else []) ++
    (match l.exp with
      | some e => e.text
      | none => [])))

/-- The number of an exponent. -/
def Exponent.number (e : Exponent) : Int :=
  if e.sign = .minus then -(positional 10 e.digits : Int) else positional 10 e.digits

/-- The power of ten of a literal. -/
def Literal.power (l : Literal) : Int :=
  match l.exp with
  | some e => e.number
  | none => 0

/-- The number that a literal denotes: its digits times a power of ten. -/
def Literal.value (l : Literal) : Rat :=
  l.sign.apply ((positional 10 (l.whole ++ l.frac) : Nat) * (10 : Rat) ^ (l.power - l.frac.length))

end Verif.Spec
