import Verif.Spec.JsValues
/-! Keccak-256, after the Keccak reference (version 3.0): lanes of 64 bits as numbers, at `x + 5 * y`. It is
used to check constants of the model. -/
namespace Verif.Spec.Keccak

/-- Rotation of a lane to the left. -/
def rot (x n : Nat) : Nat := ((x <<< n) ||| (x >>> (64 - n))) % 2 ^ 64

/-- The round constants. -/
def roundConstants : List Nat :=
  [0x1, 0x8082, 0x800000000000808A, 0x8000000080008000, 0x808B, 0x80000001, 0x8000000080008081,
   0x8000000000008009, 0x8A, 0x88, 0x80008009, 0x8000000A, 0x8000808B, 0x800000000000008B,
   0x8000000000008089, 0x8000000000008003, 0x8000000000008002, 0x8000000000000080, 0x800A,
   0x800000008000000A, 0x8000000080008081, 0x8000000000008080, 0x80000001, 0x8000000080008008]

/-- The rotation offsets. -/
def offsets : List Nat :=
  [0, 1, 62, 28, 27, 36, 44, 6, 55, 20, 3, 10, 43, 25, 39, 41, 45, 15, 21, 8, 18, 2, 61, 56, 14]

def lane (a : List Nat) (x y : Nat) : Nat := a.getD (x % 5 + 5 * (y % 5)) 0

def theta (a : List Nat) : List Nat :=
  let c := (List.range 5).map fun x =>
    lane a x 0 ^^^ lane a x 1 ^^^ lane a x 2 ^^^ lane a x 3 ^^^ lane a x 4
  let d := (List.range 5).map fun x => c.getD ((x + 4) % 5) 0 ^^^ rot (c.getD ((x + 1) % 5) 0) 1
  (List.range 25).map fun i => a.getD i 0 ^^^ d.getD (i % 5) 0

/-- `B[y, 2 x + 3 y] = rot (A[x, y], offset[x, y])`. -/
def rhoPi (a : List Nat) : List Nat :=
  (List.range 25).map fun i =>
    let y := i % 5
    let x := (i % 5 + 3 * (i / 5)) % 5
    rot (lane a x y) (offsets.getD (x + 5 * y) 0)

def chi (b : List Nat) : List Nat :=
  (List.range 25).map fun i =>
    lane b (i % 5) (i / 5) ^^^
      ((lane b (i % 5 + 1) (i / 5) ^^^ (2 ^ 64 - 1)) &&& lane b (i % 5 + 2) (i / 5))

def round (a : List Nat) (c : Nat) : List Nat :=
  match chi (rhoPi (theta a)) with
  | [] => []
  | l :: rest => (l ^^^ c) :: rest

/-- Keccak-f[1600]. -/
def permute (a : List Nat) : List Nat := roundConstants.foldl round a

/-- The padding to blocks of 136 bytes. -/
def pad (b : Bytes) : Bytes :=
  let n := 136 - b.length % 136
  if n = 1 then b ++ [0x81] else b ++ 0x01 :: List.replicate (n - 2) 0 ++ [0x80]

/-- The lane of eight bytes, the least significant first. -/
def laneOf (b : Bytes) : Nat := beNat b.reverse

/-- The blocks of a padded message are xored into the state, with a permutation after each. -/
def absorb : Nat → Bytes → List Nat → List Nat
  | 0, _, a => a
  | n + 1, b, a =>
    let block := (List.range 17).map fun i => laneOf ((b.drop (8 * i)).take 8)
    absorb n (b.drop 136)
      (permute ((List.range 25).map fun i => a.getD i 0 ^^^ block.getD i 0))

def keccak256 (b : Bytes) : Bytes :=
  let p := pad b
  ((absorb (p.length / 136) p (List.replicate 25 0)).take 4).flatMap fun l =>
    (List.range 8).map fun i => UInt8.ofNat (l / 256 ^ i % 256)

end Verif.Spec.Keccak
