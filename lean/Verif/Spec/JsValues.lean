import Verif.Model.JsValues
/-! Specifications for the values of the JavaScript tracer. -/
namespace Verif
namespace Spec

/-- The number a byte string denotes, most significant byte first. -/
def beNat : Bytes → Nat
  | [] => 0
  | x :: rest => x.toNat * 256 ^ rest.length + beNat rest

/-- The number denotes the index `n`: it lies between `n` and `n + 1`. -/
def IsIndex (x : JsNum) (n : Nat) : Prop :=
  ∃ q : Rat, x = .fin q ∧ (n : Rat) ≤ q ∧ q < ((n + 1 : Nat) : Rat)

/-- The order of numbers: there is a rational that is not below the first and below the second. NaN is
neither below nor above anything. -/
def Below (x y : JsNum) : Prop :=
  ∃ q : Rat, (x = .inf true ∨ ∃ p, x = .fin p ∧ p ≤ q) ∧ (y = .inf false ∨ ∃ r, y = .fin r ∧ q < r)

/-- The index a number is taken for: its integer part, at least 0 and at most `2^64 - 1`; 0 for NaN. -/
def TakenForIndex (x : JsNum) (n : Nat) : Prop :=
  (x = .nan → n = 0) ∧ (x = .inf true → n = 0) ∧ (x = .inf false → n = 2 ^ 64 - 1) ∧
  ∀ q, x = .fin q → (q < 0 → n = 0) ∧ (((2 ^ 64 - 1 : Nat) : Rat) ≤ q → n = 2 ^ 64 - 1) ∧
    (0 ≤ q → q < ((2 ^ 64 - 1 : Nat) : Rat) → (n : Rat) ≤ q ∧ q < ((n + 1 : Nat) : Rat))

/-- The character is the hexadecimal digit of the number, in either case. -/
def IsHexDigit (c : Char) (n : Nat) : Prop :=
  (c, n) ∈ [('0', 0), ('1', 1), ('2', 2), ('3', 3), ('4', 4), ('5', 5), ('6', 6), ('7', 7), ('8', 8),
    ('9', 9), ('a', 10), ('b', 11), ('c', 12), ('d', 13), ('e', 14), ('f', 15), ('A', 10), ('B', 11),
    ('C', 12), ('D', 13), ('E', 14), ('F', 15)]

instance (c : Char) (n : Nat) : Decidable (IsHexDigit c n) := by unfold IsHexDigit; infer_instance

/-- The characters are the bytes in hexadecimal, two digits each, the more significant first. -/
inductive HexDenotes : List Char → Bytes → Prop
  | nil : HexDenotes [] []
  | pair {a b : Char} {x y : Nat} {z : UInt8} {s : List Char} {bs : Bytes} : IsHexDigit a x →
      IsHexDigit b y → z.toNat = 16 * x + y → HexDenotes s bs → HexDenotes (a :: b :: s) (z :: bs)

end Spec
end Verif
