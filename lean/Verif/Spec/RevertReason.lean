import Verif.Spec.CallFrames
import Verif.Spec.JsValues
/-! What a contract says when it reverts: the ABI encodings of `revert(s)` and of a panic, written from the
ABI specification. -/
namespace Verif.Spec

/-- The bytes of a text. -/
def utf8 (s : String) : Bytes := s.toByteArray.data.toList

/-- A word of 32 bytes that holds the number `n`. -/
def IsWord (w : Bytes) (n : Nat) : Prop := w.length = 32 ∧ beNat w = n

/-- The selector of `Error(string)`. -/
def errorSelector : Bytes := [0x08, 0xc3, 0x79, 0xa0]

/-- The selector of `Panic(uint256)`. -/
def panicSelector : Bytes := [0x4e, 0x48, 0x7b, 0x71]

/-- A word of 32 bytes the last eight of which hold the number `n`. -/
def IsLow (w : Bytes) (n : Nat) : Prop := w.length = 32 ∧ beNat (w.drop 24) = n

/-- The parameters of `Error(string)`, words being read by `R`: the first word is an offset, at the offset is
a word with the length of the text, then the text. -/
def Holds (R : Bytes → Nat → Prop) (params text : Bytes) : Prop :=
  ∃ w l rest o, w <+: params ∧ R w o ∧ params.drop o = l ++ text ++ rest ∧ R l text.length

/-- Data that hold the bytes `text` as the parameter of `Error(string)`. -/
def ErrorWith (text out : Bytes) : Prop := ∃ params, out = errorSelector ++ params ∧ Holds IsWord params text

/-- The data of `revert(s)` and `require(.., s)`, whatever the offset and whatever follows the text (such as
the zeros that fill the last word). -/
def RevertsWith (s : String) (out : Bytes) : Prop := ErrorWith (utf8 s) out

/-- The data of a panic. -/
def PanicsWith (code : U256) (out : Bytes) : Prop :=
  ∃ w rest, IsWord w code.toNat ∧ out = panicSelector ++ w ++ rest

/-- Data that are neither of the two: custom errors, hand-made data, errors and panics that are cut short,
nothing at all. -/
def NoReason (out : Bytes) : Prop := (∀ text, ¬ ErrorWith text out) ∧ ∀ code, ¬ PanicsWith code out

/-- The reason `r` shown for a frame is the one the contract gave: none for a frame that did not fail, the
text of `revert(s)` (none if it is empty), the presentation of a panic, and none for data that is neither. -/
def ReasonGiven (display : ContractError → String) (f : FrameCtx) (r : Option String) : Prop :=
  (f.out.result.result.isOk = true → r = none) ∧
  (f.out.result.result.isOk = false →
    (∀ s, RevertsWith s f.out.result.output → r = if s = "" then none else some s) ∧
    (∀ code, PanicsWith code f.out.result.output →
      r = if display (.panic code) = "" then none else some (display (.panic code))) ∧
    (NoReason f.out.result.output → r = none))

/-- The frame failed with data that are neither error but happen to be text, or that begin with the selector
of `Error(string)` and hold a text if only the last eight bytes of the offset and of the length are looked at. -/
def AccidentalText (lossy : Bytes → String) (f : FrameCtx) : Prop :=
  f.out.result.result.isOk = false ∧ NoReason f.out.result.output ∧
    ((∃ x, x ≠ "" ∧ utf8 x = f.out.result.output) ∨
     ∃ params text, f.out.result.output = errorSelector ++ params ∧ Holds IsLow params text ∧ lossy text ≠ "")

end Verif.Spec
