import Verif.Spec.Keccak
import Verif.Model.JsDb
import Verif.Model.State
/-! C59, C30: the code hash that says "no code", by which the database of a JavaScript tracer and the code
lookup of a `vmTrace` decide whether to load code, is the Keccak-256 hash of nothing. -/
namespace Verif.Props
open Spec

set_option maxRecDepth 100000 in
/-- Both forms of the empty code hash in the model are the hash of the empty byte string. -/
theorem C59_empty_code_hash :
    keccakEmpty = Keccak.keccak256 [] ∧ KECCAK_EMPTY.toNat = beNat (Keccak.keccak256 []) := by
  decide +kernel

set_option maxRecDepth 100000 in
/-- The hash function is not made up: the published digest of `abc`. -/
example : beNat (Keccak.keccak256 [0x61, 0x62, 0x63]) =
    0x4e03657aea45a94fc7d47ba826c8d667c0d1e6e33a64a036ec44f58fa12d6c45 := by
  decide +kernel

end Verif.Props
