import Verif.Spec.BigRead
/-! Specification of hexadecimal, octal and binary literals. -/
namespace Verif.Spec

/-- The base that a letter after a zero announces. -/
def announcedBase (c : Char) : Option Nat :=
  if c = 'x' ∨ c = 'X' then some 16 else if c = 'o' ∨ c = 'O' then some 8
  else if c = 'b' ∨ c = 'B' then some 2 else none

/-- What a literal denotes that announces its base: a zero, a letter, and at least one digit to that base. -/
def announced : List Char → Option Nat
  | '0' :: c :: ds => (announcedBase c).bind fun base =>
    if ds = [] then none else (digitsOf base ds).map (positional base)
  | _ => none

end Verif.Spec
