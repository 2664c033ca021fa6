import Verif.Model.JsInspector
import Verif.Model.JsResult
/-! Model of the argument objects of the callbacks of a JavaScript tracer,
/repo/src/tracing/js/bindings.rs:182-232 (`StepLog`), 371-413 (`OpObj`), 491-548 (`Contract`), 551-590
(`FrameResult`) and 592-654 (`CallFrame`), and of the builtins `toContract` and `toContract2`,
/repo/src/tracing/js/builtins.rs:199-261.

A `Uint8Array` is an index into a heap of byte arrays, since JavaScript can write to it. A method of an
object is a native closure; what it captured tells what it gives. Building an object and setting its
fields is taken not to throw. The memory and stack objects inside a `StepLog` are those of
`Verif.Model.JsGuards`. -/
namespace Verif

/-- Values that JavaScript cannot change. /repo/src/tracing/js/bindings.rs:182-232. -/
inductive JsScalar where
  | undefined
  | bool (b : Bool)
  | num (n : JsNum)
  | str (s : String)

/-- The global property `bigint` (`Attribute::all()`, so tracer code can replace it): something that
cannot be called, the library of big integers, or another function with its results (`none`: throws).
/repo/src/tracing/js/builtins.rs:67-69. -/
inductive JsBigint where
  | notCallable
  | library
  | other (f : String → Option JsScalar)

/-- What a method gives: a scalar, an array, a big integer, or an exception.
/repo/src/tracing/js/bindings.rs:182-654. -/
inductive JsGot where
  | scalar (v : JsScalar)
  | array (cell : Nat)
  | big (n : Nat)
  | throws

/-- The arrays, and the global `bigint`. /repo/src/tracing/js/bindings.rs:182-232. -/
structure JsObjWorld where
  arrays : List Bytes
  bigint : JsBigint

/-- `JsUint8Array::from_iter`: a new array. /repo/src/tracing/js/bindings.rs:182-232. -/
def JsObjWorld.newArray (w : JsObjWorld) (b : Bytes) : JsObjWorld × Nat :=
  ({ w with arrays := w.arrays ++ [b] }, w.arrays.length)

/-- What the closure of a method captured: a value that is copied on each call (`js_value_getter!`,
`js_value_capture_getter!` of a scalar), an address of which each call makes a new array
(`address_to_byte_array_value`), a number of which each call makes a big integer (`to_bigint`), or an
array that each call returns (`input.clone()`, which clones the reference).
/repo/src/tracing/js/bindings.rs:182-654, the closures. -/
inductive JsMethodObj where
  | value (v : JsScalar)
  | address (a : Address)
  | bigint (n : U256)
  | array (cell : Nat)

/-- Reading a decimal number, as the library of big integers does for strings of digits.
/repo/src/tracing/js/builtins.rs:200-209 passes the text; /repo/src/tracing/js/bigint.js:1. -/
def decimal (s : String) : Option Nat :=
  if s.toList.all Char.isDigit then some (Nat.ofDigitChars 10 s.toList 0) else none

/-- /repo/src/tracing/js/builtins.rs:200-210 `to_bigint`. -/
def toBigint (w : JsObjWorld) (value : U256) : JsGot :=
  match w.bigint with
  | .notCallable => .scalar .undefined
  | .library =>
    match decimal (Nat.repr value.toNat) with
    | some n => .big n
    | none => .throws
  | .other f =>
    match f (Nat.repr value.toNat) with
    | some v => .scalar v
    | none => .throws

/-- A call of a method. /repo/src/tracing/js/bindings.rs:182-654, the closures. -/
def JsMethodObj.call (w : JsObjWorld) : JsMethodObj → JsObjWorld × JsGot
  | .value v => (w, .scalar v)
  | .address a =>
    let (w, cell) := w.newArray (beBytes 20 a.toNat)
    (w, .array cell)
  | .bigint n => (w, toBigint w n)
  | .array cell => (w, .array cell)

/-- An object: names with methods, the last one set counts. /repo/src/tracing/js/bindings.rs:182-232. -/
abbrev JsMethods := List (String × JsMethodObj)

/-- `obj.set`. /repo/src/tracing/js/bindings.rs:182-232. -/
def JsMethods.put (o : JsMethods) (name : String) (m : JsMethodObj) : JsMethods := (name, m) :: o

/-- `obj.name()`: `none` if there is no such method (JavaScript throws).
/repo/src/tracing/js/bindings.rs:182-232. -/
def JsMethods.callMethod (o : JsMethods) (w : JsObjWorld) (name : String) :
    Option (JsObjWorld × JsGot) :=
  (o.lookup name).map (fun m => m.call w)

/-- boa's `JsValue::from(u64)`. /repo/src/tracing/js/bindings.rs:185-230. -/
def JsScalar.ofU64 (n : Nat) : JsScalar := .num (.ofNat (f64OfU64 n))

/-- `error.map(js_string).unwrap_or_default()`, lines 205-209 and 580. /repo/src/tracing/js/bindings.rs. -/
def JsScalar.ofError : Option String → JsScalar
  | some e => .str e
  | none => .undefined

/-- /repo/src/tracing/js/bindings.rs:371-413 `OpObj::into_js_object`. `opText` is revm's `Display` of
an opcode. -/
def opObject (opText : OpCode → String) (op : OpCode) : JsMethods :=
  let isPush := decide (0x5f ≤ op.toNat ∧ op.toNat ≤ 0x7f)
  let o : JsMethods := []
  let o := o.put "toNumber" (.value (.num (.ofNat op.toNat)))
  let o := o.put "toString" (.value (.str (opText op)))
  o.put "isPush" (.value (.bool isPush))

/-- /repo/src/tracing/js/bindings.rs:508-554 `Contract::into_js_object`. -/
def contractObject (w : JsObjWorld) (c : JsContract) : JsObjWorld × JsMethods :=
  let (w, input) := w.newArray c.input
  let o : JsMethods := []
  let o := o.put "getCaller" (.address c.caller)
  let o := o.put "getAddress" (.address c.contract)
  let o := o.put "getValue" (.bigint c.value)
  (w, o.put "getInput" (.array input))

/-- /repo/src/tracing/js/bindings.rs:565-590 `FrameResult::into_js_object`. -/
def frameResultObject (w : JsObjWorld) (gasUsed : Nat) (output : Bytes) (error : Option String) :
    JsObjWorld × JsMethods :=
  let (w, output) := w.newArray output
  let o : JsMethods := []
  let o := o.put "getGasUsed" (.value (.ofU64 gasUsed))
  let o := o.put "getOutput" (.array output)
  (w, o.put "getError" (.value (.ofError error)))

/-- /repo/src/tracing/js/bindings.rs:600-654 `CallFrame::into_js_object`. -/
def callFrameObject (w : JsObjWorld) (f : JsFrameItem) : JsObjWorld × JsMethods :=
  let (w, input) := w.newArray f.contract.input
  let o : JsMethods := []
  let o := o.put "getFrom" (.address f.contract.caller)
  let o := o.put "getTo" (.address f.contract.contract)
  let o := o.put "getValue" (.bigint f.contract.value)
  let o := o.put "getInput" (.array input)
  let o := o.put "getGas" (.value (.ofU64 f.gas))
  (w, o.put "getType" (.value (.str f.kind.toStr)))

/-- The object of a step, without `stack` and `memory`: its own methods, `op` and `contract`.
/repo/src/tracing/js/bindings.rs:182-232. -/
structure JsStepObject where
  methods : JsMethods
  op : JsMethods
  contract : JsMethods

/-- /repo/src/tracing/js/bindings.rs:185-232 `StepLog::into_js_object`. -/
def stepLogObject (opText : OpCode → String) (w : JsObjWorld) (l : JsStepLog) :
    JsObjWorld × JsStepObject :=
  let op := opObject opText l.op
  let (w, contract) := contractObject w l.contract
  let o : JsMethods := []
  let o := o.put "getPC" (.value (.ofU64 l.pc))
  let o := o.put "getError" (.value (.ofError l.error))
  let o := o.put "getGas" (.value (.ofU64 l.gas))
  let o := o.put "getCost" (.value (.ofU64 l.cost))
  let o := o.put "getDepth" (.value (.ofU64 l.depth))
  let o := o.put "getRefund" (.value (.ofU64 l.refund))
  (w, ⟨o, op, contract⟩)

/-- What tracer code does with objects, arrays and the global, in any order: call a method of an object,
make an array, write an element of an array (out of range does nothing), replace `bigint`.
Tracer code, called in /repo/src/tracing/js/mod.rs:285-315. -/
inductive JsCode where
  | call (o : JsMethods) (name : String)
  | newArray (b : Bytes)
  | write (cell index : Nat) (x : UInt8)
  | setBigint (b : JsBigint)

/-- One of these. Tracer code, called in /repo/src/tracing/js/mod.rs:285-315. -/
def JsCode.run (w : JsObjWorld) : JsCode → JsObjWorld
  | .call o name =>
    match o.callMethod w name with
    | some (w, _) => w
    | none => w
  | .newArray b => (w.newArray b).1
  | .write cell index x =>
    { w with arrays := w.arrays.set cell (((w.arrays[cell]?).getD []).set index x) }
  | .setBigint b => { w with bigint := b }

/-- A sequence of these. Tracer code, called in /repo/src/tracing/js/mod.rs:285-315. -/
def runJsCode (w : JsObjWorld) : List JsCode → JsObjWorld
  | [] => w
  | c :: cs => runJsCode (c.run w) cs

/-! ### toContract and toContract2 -/

/-- Rust's `x as u64`. /repo/src/tracing/js/builtins.rs:247-258. -/
def JsNum.asU64 (x : JsNum) : Nat := x.asUsize

/-- /repo/src/tracing/js/builtins.rs:247-261 `to_contract`. The nonce is what `to_number` gives (`none`:
throws); `create` is alloy's `Address::create`, on bytes. -/
def jsToContract (create : Bytes → Nat → Bytes) (from_ : JsBuf) (nonce : Option JsNum) :
    R (Option Bytes) :=
  match nonce with
  | none => .ok none
  | some nonce =>
    match fromBuf from_ with
    | none => .ok none
    | some buf =>
      match bytesToAddress buf with
      | .error p => .error p
      | .ok addr => .ok (some (create addr nonce.asU64))

/-- /repo/src/tracing/js/builtins.rs:215-244 `to_contract2`. The salt is what `to_string` gives (`none`:
throws; `some none`: not valid unicode), read by 288-301 `hex_decode_js_string`; `create2` is alloy's
`Address::create2_from_code`, on bytes. -/
def jsToContract2 (create2 : Bytes → Bytes → Bytes → Bytes) (from_ : JsBuf)
    (salt : Option (Option (List Char))) (initcode : JsBuf) : R (Option Bytes) :=
  match salt with
  | none => .ok none
  | some none => .ok none
  | some (some s) =>
    match hexDecode s with
    | none => .ok none
    | some buf =>
      match bytesToHash buf with
      | .error p => .error p
      | .ok salt =>
        match fromBuf from_ with
        | none => .ok none
        | some buf =>
          match bytesToAddress buf with
          | .error p => .error p
          | .ok addr =>
            match fromBuf initcode with
            | none => .ok none
            | some code => .ok (some (create2 addr salt code))

end Verif
