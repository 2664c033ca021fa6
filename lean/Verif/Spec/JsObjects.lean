import Verif.Model.JsObjects
/-! What the argument objects of the callbacks have to say. -/
namespace Verif
namespace Spec

/-- Something a method reports. -/
inductive Datum where
  | undefined
  | bool (b : Bool)
  | number (n : Nat)
  | text (s : String)
  | bytes (b : Bytes)
  | big (n : Nat)

/-- JavaScript sees the datum in what a method gave. -/
def Reports (w : JsObjWorld) : JsGot → Datum → Prop
  | .scalar .undefined, .undefined => True
  | .scalar (.bool b), .bool b' => b = b'
  | .scalar (.num x), .number n => ∃ q : Rat, x = .fin q ∧ q = (n : Rat)
  | .scalar (.str s), .text s' => s = s'
  | .array cell, .bytes b => w.arrays[cell]? = some b
  | .big n, .big m => n = m
  | _, _ => False

/-- The object has the method, and it reports the datum. -/
def Gives (o : JsMethods) (w : JsObjWorld) (name : String) (d : Datum) : Prop :=
  ∃ w' got, o.callMethod w name = some (w', got) ∧ Reports w' got d

/-- A double can hold the number: at most 53 significant bits. -/
def Representable (n : Nat) : Prop := ∃ m e : Nat, m < 2 ^ 53 ∧ n = m * 2 ^ e

/-- The 20 bytes of an address. -/
def addressBytes (a : Address) : Bytes := (List.range 20).map (fun i => UInt8.ofNat (a.toNat / 256 ^ (19 - i) % 256))

/-- An error, or `undefined`. -/
def errorDatum : Option String → Datum
  | some e => .text e
  | none => .undefined

/-- The names of the call kinds. -/
def kindName : CallKind → String
  | .Call => "CALL" | .StaticCall => "STATICCALL" | .CallCode => "CALLCODE"
  | .DelegateCall => "DELEGATECALL" | .AuthCall => "AUTHCALL" | .Create => "CREATE"
  | .Create2 => "CREATE2"

/-- What the methods of a contract object report. -/
def contractData (c : JsContract) : List (String × Datum) :=
  [("getCaller", .bytes (addressBytes c.caller)), ("getAddress", .bytes (addressBytes c.contract)),
   ("getValue", .big c.value.toNat), ("getInput", .bytes c.input)]

/-- What the methods of the argument of `enter` report. -/
def enterData (f : JsFrameItem) : List (String × Datum) :=
  [("getType", .text (kindName f.kind)), ("getFrom", .bytes (addressBytes f.contract.caller)),
   ("getTo", .bytes (addressBytes f.contract.contract)), ("getInput", .bytes f.contract.input),
   ("getGas", .number f.gas), ("getValue", .big f.contract.value.toNat)]

/-- What the methods of the argument of `exit` report. -/
def exitData (gasUsed : Nat) (output : Bytes) (error : Option String) : List (String × Datum) :=
  [("getGasUsed", .number gasUsed), ("getOutput", .bytes output), ("getError", errorDatum error)]

/-- What the methods of the argument of `step` and `fault` report. -/
def stepData (l : JsStepLog) : List (String × Datum) :=
  [("getPC", .number l.pc), ("getGas", .number l.gas), ("getCost", .number l.cost),
   ("getDepth", .number l.depth), ("getRefund", .number l.refund), ("getError", errorDatum l.error)]

/-- The PUSH instructions. -/
def isPushOp (op : OpCode) : Bool := (List.range 33).any (fun k => op.toNat == 0x5f + k)

/-- What the methods of an opcode object report. -/
def opData (opText : OpCode → String) (op : OpCode) : List (String × Datum) :=
  [("toNumber", .number op.toNat), ("toString", .text (opText op)), ("isPush", .bool (isPushOp op))]

/-- Tracer code that leaves `bigint` and this array alone. -/
def LeavesAlone (cell : Nat) (cs : List JsCode) : Prop :=
  ∀ c ∈ cs, (∀ i x, c ≠ .write cell i x) ∧ ∀ b, c ≠ .setBigint b

/-- Every number among the data can be held by a double. -/
def NumbersFit (d : Datum) : Prop := ∀ n, d = .number n → Representable n

end Spec
end Verif
