import Verif.Spec.Writer
import Verif.Spec.JsObjects
/-!
# What can be seen in the text of a trace

The text shows the frames nested as they were entered, and their logs. Of a call it shows the kind, the account,
the value, the input and the output; of a creation only the new account and the length of its code. Of all
frames it shows the gas used and the status.
-/
namespace Verif.Spec

/-- What is seen of the call or creation that entered a frame, and of what the frame returned. -/
inductive Seen where
  | created (address : Address) (codeLength : Nat)
  | called (kind : CallKind) (address : Address) (value : U256) (input output : Bytes)
  deriving DecidableEq

/-- What is seen of a frame. -/
structure SeenFrame where
  gasUsed : Nat
  status : InstructionResult
  what : Seen
  deriving DecidableEq

mutual
/-- What is seen of a frame and of what happened in it. -/
inductive SeenTree where
  | mk (f : SeenFrame) (items : SeenItems)
/-- The logs and sub-frames of a frame in order. -/
inductive SeenItems where
  | nil
  | log (topics : List U256) (data : Bytes) (rest : SeenItems)
  | sub (t : SeenTree) (rest : SeenItems)
end

/-- What is seen of a frame that used `gas`. -/
def seenFrame (gas : Nat) (d : FrameData) : SeenFrame :=
  ⟨gas, d.status,
    if d.kind = .Create ∨ d.kind = .Create2 then .created d.address d.output.length
    else .called d.kind d.address d.value d.input d.output⟩

mutual
/-- What is seen of a document. -/
def Doc.seen : Doc → SeenTree
  | .mk x items => .mk (seenFrame x.trace.gasUsed (readFrame x)) items.seen
def DocItems.seen : DocItems → SeenItems
  | .nil => .nil
  | .log l rest => .log l.rawLog.topics l.rawLog.data rest.seen
  | .step _ rest => rest.seen
  | .sub d rest => .sub d.seen rest.seen
end

mutual
/-- What is seen of an execution, without the gas. -/
def Tree.seen : Tree → SeenTree
  | .mk d items => .mk (seenFrame 0 d) items.seen
def Forest.seen : Forest → SeenItems
  | .nil => .nil
  | .log l rest => .log l.topics l.data rest.seen
  | .step _ rest => rest.seen
  | .sub t rest => .sub t.seen rest.seen
end

mutual
/-- The gas left out. -/
def SeenTree.noGas : SeenTree → SeenTree
  | .mk f items => .mk { f with gasUsed := 0 } items.noGas
def SeenItems.noGas : SeenItems → SeenItems
  | .nil => .nil
  | .log ts d rest => .log ts d rest.noGas
  | .sub t rest => .sub t.noGas rest.noGas
end

/-- The text of an address is `0x` and its forty hexadecimal digits, each in lower or upper case (EIP-55 says which). -/
def AddressText (f : Address → String) : Prop :=
  ∀ a, ∃ ds, (f a).toList = '0' :: 'x' :: ds ∧ ds.map Char.toLower = hexEncode (addressBytes a)

end Verif.Spec
