import Verif.Model.Geth
import Verif.Model.JsJson
/-! Model of recordings as JSON: the `Serialize` and `Deserialize` implementations that
/repo/src/tracing/types.rs and /repo/src/tracing/arena.rs derive with the feature `serde`, with `serde_json`.

What the derive of serde does is written out: a struct is an object with the names of its fields, which are
looked up by their names when read; an `Option` is `null` or the value, and is `None` if the field is missing; a variant without
data is its name, one with data an object with the name as its only key. Of what is accepted when reading,
only the forms that are written are modelled: not structs as sequences, not numbers or sequences for byte
strings and big integers, not underscores in digits; keys that occur twice are an error in serde, here the
first one counts. -/
namespace Verif

/-- Why a recording cannot be read: the text is no JSON, the JSON is no recording, or a panic.
serde_json, for /repo/src/tracing/types.rs and arena.rs. -/
inductive ReadErr where
  | text (e : JsonErr)
  | data
  | panic (p : Panic)
  deriving DecidableEq, Repr

/-! ### Text -/

namespace JsonWrite

/-- A number as `serde_json` writes it. serde_json, for /repo/src/tracing/types.rs and arena.rs. -/
def number : JsonNum → List Char
  | .int n => if n < 0 then '-' :: Nat.toDigits 10 n.natAbs else Nat.toDigits 10 n.natAbs
  | .float t => t

/-- A string as `serde_json` writes it: the escapes are those of `QuoteJSONString`.
serde_json, for /repo/src/tracing/types.rs and arena.rs. -/
def string (s : List Char) : List Char := JsonText.quote (s.map .ch)

mutual
/-- `serde_json::to_string` of a value. serde_json, for /repo/src/tracing/types.rs and arena.rs. -/
def value : Json → List Char
  | .null => ['n', 'u', 'l', 'l']
  | .bool true => ['t', 'r', 'u', 'e']
  | .bool false => ['f', 'a', 'l', 's', 'e']
  | .num n => number n
  | .str s => string s
  | .arr xs => '[' :: (items xs ++ [']'])
  | .obj ms => '{' :: (pairs ms ++ ['}'])
/-- The elements of an array, separated by commas. serde_json, for /repo/src/tracing/types.rs and arena.rs. -/
def items : List Json → List Char
  | [] => []
  | [x] => value x
  | x :: y :: xs => value x ++ ',' :: items (y :: xs)
/-- The members of an object, separated by commas. serde_json, for /repo/src/tracing/types.rs and arena.rs. -/
def pairs : List (List Char × Json) → List Char
  | [] => []
  | [(k, v)] => string k ++ ':' :: value v
  | (k, v) :: m :: ms => string k ++ ':' :: (value v ++ ',' :: pairs (m :: ms))
end

end JsonWrite

/-! ### Values -/

namespace Stored

/-- An object with the names of the fields.
serde, for /repo/src/tracing/types.rs:18-770 and /repo/src/tracing/arena.rs:7. -/
def obj (fs : List (String × Json)) : Json := .obj (fs.map fun f => (f.1.toList, f.2))

/-- The member of an object with this name.
serde, for /repo/src/tracing/types.rs:18-770 and /repo/src/tracing/arena.rs:7. -/
def field (j : Json) (k : String) : Option Json :=
  match j with
  | .obj ms => ms.lookup k.toList
  | _ => none

/-- A field that must be there.
serde, for /repo/src/tracing/types.rs:18-770 and /repo/src/tracing/arena.rs:7. -/
def req {α : Type} (j : Json) (k : String) (f : Json → Except ReadErr α) : Except ReadErr α :=
  match field j k with
  | some v => f v
  | none => .error .data

/-- `Option`. serde, for /repo/src/tracing/types.rs:18-770 and /repo/src/tracing/arena.rs:7. -/
def encOpt {α : Type} (f : α → Json) : Option α → Json
  | none => .null
  | some a => f a

/-- A field of type `Option`. serde, for /repo/src/tracing/types.rs:18-770 and /repo/src/tracing/arena.rs:7. -/
def opt {α : Type} (j : Json) (k : String) (f : Json → Except ReadErr α) : Except ReadErr (Option α) :=
  match field j k with
  | none => .ok none
  | some .null => .ok none
  | some v => do
    let a ← f v
    .ok (some a)

/-- `Vec`. serde, for /repo/src/tracing/types.rs:18-770 and /repo/src/tracing/arena.rs:7. -/
def encList {α : Type} (f : α → Json) (xs : List α) : Json := .arr (xs.map f)

/-- The elements of a `Vec`. serde, for /repo/src/tracing/types.rs:18-770 and /repo/src/tracing/arena.rs:7. -/
def decItems {α : Type} (f : Json → Except ReadErr α) : List Json → Except ReadErr (List α)
  | [] => .ok []
  | x :: xs => do
    let a ← f x
    let as ← decItems f xs
    .ok (a :: as)

/-- `Vec`. serde, for /repo/src/tracing/types.rs:18-770 and /repo/src/tracing/arena.rs:7. -/
def decList {α : Type} (f : Json → Except ReadErr α) : Json → Except ReadErr (List α)
  | .arr xs => decItems f xs
  | _ => .error .data

/-- `u64` and `usize`. serde, for /repo/src/tracing/types.rs:18-770 and /repo/src/tracing/arena.rs:7. -/
def encNat (n : Nat) : Json := .num (.int n)

/-- An unsigned integer below `bound`.
serde, for /repo/src/tracing/types.rs:18-770 and /repo/src/tracing/arena.rs:7. -/
def decNat (bound : Nat) : Json → Except ReadErr Nat
  | .num (.int (.ofNat n)) => if n < bound then .ok n else .error .data
  | _ => .error .data

/-- `u64` and `usize`. serde, for /repo/src/tracing/types.rs:18-770 and /repo/src/tracing/arena.rs:7. -/
def decU64 : Json → Except ReadErr Nat := decNat (2 ^ 64)

/-- `bool`. serde, for /repo/src/tracing/types.rs:18-770 and /repo/src/tracing/arena.rs:7. -/
def decBool : Json → Except ReadErr Bool
  | .bool b => .ok b
  | _ => .error .data

/-- `String`. serde, for /repo/src/tracing/types.rs:18-770 and /repo/src/tracing/arena.rs:7. -/
def encString (s : String) : Json := .str s.toList

/-- `String`. serde, for /repo/src/tracing/types.rs:18-770 and /repo/src/tracing/arena.rs:7. -/
def decString : Json → Except ReadErr String
  | .str s => .ok (String.ofList s)
  | _ => .error .data

/-- alloy's `Bytes`: `0x` and two digits for each byte. -/
def encBytes (b : Bytes) : Json := .str ('0' :: 'x' :: hexEncode b)

/-- alloy's `Bytes`. -/
def decBytes : Json → Except ReadErr Bytes
  | .str s =>
    match hexDecode s with
    | some b => .ok b
    | none => .error .data
  | _ => .error .data

/-- alloy's `FixedBytes<N>` (`Address`, `B256`): all their bytes, as `Bytes`. -/
def encFixed (len n : Nat) : Json := encBytes (beBytes len n)

/-- alloy's `FixedBytes<N>`: exactly `len` bytes. -/
def decFixed (len : Nat) (j : Json) : Except ReadErr Nat := do
  let b ← decBytes j
  if b.length = len then .ok (b.foldl (fun a x => a * 256 + x.toNat) 0) else .error .data

/-- `Address`. serde, for /repo/src/tracing/types.rs:18-770 and /repo/src/tracing/arena.rs:7. -/
def encAddress (a : Address) : Json := encFixed 20 a.toNat

/-- `Address`. serde, for /repo/src/tracing/types.rs:18-770 and /repo/src/tracing/arena.rs:7. -/
def decAddress (j : Json) : Except ReadErr Address := do
  let n ← decFixed 20 j
  .ok (BitVec.ofNat 160 n)

/-- `B256`. serde, for /repo/src/tracing/types.rs:18-770 and /repo/src/tracing/arena.rs:7. -/
def encHash (h : U256) : Json := encFixed 32 h.toNat

/-- `B256`. serde, for /repo/src/tracing/types.rs:18-770 and /repo/src/tracing/arena.rs:7. -/
def decHash (j : Json) : Except ReadErr U256 := do
  let n ← decFixed 32 j
  .ok (BitVec.ofNat 256 n)

/-- ruint's `Uint`: `0x` and the digits without leading zeros.
serde, for /repo/src/tracing/types.rs:18-770 and /repo/src/tracing/arena.rs:7. -/
def encWord (w : U256) : Json := .str ('0' :: 'x' :: Nat.toDigits 16 w.toNat)

/-- The number some hexadecimal digits denote.
serde, for /repo/src/tracing/types.rs:18-770 and /repo/src/tracing/arena.rs:7. -/
def hexNumber : (acc : Nat) → List Char → Option Nat
  | acc, [] => some acc
  | acc, c :: cs =>
    match hexVal c with
    | some d => hexNumber (acc * 16 + d) cs
    | none => none

/-- ruint's `Uint`, with `0x`: an error if it does not fit.
serde, for /repo/src/tracing/types.rs:18-770 and /repo/src/tracing/arena.rs:7. -/
def decWord : Json → Except ReadErr U256
  | .str ('0' :: 'x' :: s) =>
    match hexNumber 0 s with
    | some n => if n < 2 ^ 256 then .ok (BitVec.ofNat 256 n) else .error .data
    | none => .error .data
  | _ => .error .data

/-! ### Recordings -/

/-- /repo/src/tracing/types.rs:411-412 `CallKind`: `rename_all = "UPPERCASE"`. -/
def encKind (k : CallKind) : Json :=
  encString (match k with
    | .Call => "CALL" | .StaticCall => "STATICCALL" | .CallCode => "CALLCODE"
    | .DelegateCall => "DELEGATECALL" | .AuthCall => "AUTHCALL" | .Create => "CREATE" | .Create2 => "CREATE2")

/-- /repo/src/tracing/types.rs:411-412 `CallKind`. -/
def decKind (j : Json) : Except ReadErr CallKind := do
  let s ← decString j
  if s = "CALL" then .ok .Call
  else if s = "STATICCALL" then .ok .StaticCall
  else if s = "CALLCODE" then .ok .CallCode
  else if s = "DELEGATECALL" then .ok .DelegateCall
  else if s = "AUTHCALL" then .ok .AuthCall
  else if s = "CREATE" then .ok .Create
  else if s = "CREATE2" then .ok .Create2
  else .error .data

/-- The values of `InstructionResult`.
serde, for /repo/src/tracing/types.rs:18-770 and /repo/src/tracing/arena.rs:7. -/
def statuses : List InstructionResult :=
  [.Continue, .Stop, .Return, .SelfDestruct, .ReturnContract, .Revert, .CallTooDeep, .OutOfFunds,
    .CreateInitCodeStartingEF00, .InvalidEOFInitCode, .InvalidExtDelegateCallTarget, .CallOrCreate, .OutOfGas,
    .MemoryOOG, .MemoryLimitOOG, .PrecompileOOG, .InvalidOperandOOG, .OpcodeNotFound,
    .CallNotAllowedInsideStatic, .StateChangeDuringStaticCall, .InvalidFEOpcode, .InvalidJump, .NotActivated,
    .StackUnderflow, .StackOverflow, .OutOfOffset, .CreateCollision, .OverflowPayment, .PrecompileError,
    .NonceOverflow, .CreateContractSizeLimit, .CreateContractStartingWithEF, .CreateInitCodeSizeLimit,
    .FatalExternalError, .ReturnContractInNotInitEOF, .EOFOpcodeDisabledInLegacy, .EOFFunctionStackOverflow,
    .EofAuxDataOverflow, .EofAuxDataTooSmall, .InvalidEXTCALLTarget]

/-- `InstructionResult` of revm: the name of the variant, which is what `Debug` shows too. -/
def encStatus (r : InstructionResult) : Json := encString r.debug

/-- `InstructionResult` of revm. -/
def decStatus (j : Json) : Except ReadErr InstructionResult := do
  let s ← decString j
  match statuses.find? fun r => decide (r.debug = s) with
  | some r => .ok r
  | none => .error .data

/-- /repo/src/tracing/types.rs:688-694 `StorageChangeReason`. -/
def encReason : StorageChangeReason → Json
  | .SLOAD => encString "SLOAD"
  | .SSTORE => encString "SSTORE"

/-- /repo/src/tracing/types.rs:688-694 `StorageChangeReason`. -/
def decReason (j : Json) : Except ReadErr StorageChangeReason := do
  let s ← decString j
  if s = "SLOAD" then .ok .SLOAD else if s = "SSTORE" then .ok .SSTORE else .error .data

/-- /repo/src/tracing/types.rs:704-714 `StorageChange`. -/
def encChange (c : StorageChange) : Json :=
  obj [("key", encWord c.key), ("value", encWord c.value), ("had_value", encOpt encWord c.hadValue),
    ("reason", encReason c.reason)]

/-- /repo/src/tracing/types.rs:704-714 `StorageChange`. -/
def decChange (j : Json) : Except ReadErr StorageChange := do
  let key ← req j "key" decWord
  let value ← req j "value" decWord
  let hadValue ← opt j "had_value" decWord
  let reason ← req j "reason" decReason
  .ok { key, value, hadValue, reason }

/-- /repo/src/tracing/types.rs:546-554 `DecodedInternalCall`. -/
def encInternal (c : DecodedInternalCall) : Json :=
  obj [("func_name", encString c.funcName), ("args", encOpt (encList encString) c.args),
    ("return_data", encOpt (encList encString) c.returnData)]

/-- /repo/src/tracing/types.rs:546-554 `DecodedInternalCall`. -/
def decInternal (j : Json) : Except ReadErr DecodedInternalCall := do
  let funcName ← req j "func_name" decString
  let args ← opt j "args" (decList decString)
  let returnData ← opt j "return_data" (decList decString)
  .ok { funcName, args, returnData }

/-- /repo/src/tracing/types.rs:558-567 `DecodedTraceStep`. -/
def encDecodedStep : DecodedTraceStep → Json
  | .internalCall c i => obj [("InternalCall", .arr [encInternal c, encNat i])]
  | .line s => obj [("Line", encString s)]

/-- /repo/src/tracing/types.rs:558-567 `DecodedTraceStep`: exactly one key. -/
def decDecodedStep : Json → Except ReadErr DecodedTraceStep
  | .obj [(k, v)] =>
    if k = "InternalCall".toList then
      match v with
      | .arr [c, i] => do
        let c ← decInternal c
        let i ← decU64 i
        .ok (.internalCall c i)
      | _ => .error .data
    else if k = "Line".toList then do
      let s ← decString v
      .ok (.line s)
    else .error .data
  | _ => .error .data

/-- /repo/src/tracing/types.rs:777-782 `opcode_serde::serialize`. -/
def encOp (op : OpCode) : Json := encNat (serializeOp op).toNat

/-- /repo/src/tracing/types.rs:784-791 `opcode_serde::deserialize`. -/
def decOp (known : UInt8 → Bool) (j : Json) : Except ReadErr OpCode := do
  let n ← decNat 256 j
  match deserializeOp known (UInt8.ofNat n) with
  | .ok op => .ok op
  | .error p => .error (.panic p)

/-- /repo/src/tracing/types.rs:571-610 `CallTraceStep`; `RecordedMemory` (720-721) is written as its bytes. -/
def encStep (s : CallTraceStep) : Json :=
  obj [("depth", encNat s.depth), ("pc", encNat s.pc), ("op", encOp s.op), ("contract", encAddress s.contract),
    ("stack", encOpt (encList encWord) s.stack), ("push_stack", encOpt (encList encWord) s.pushStack),
    ("memory", encOpt encBytes s.memory), ("returndata", encBytes s.returndata),
    ("gas_remaining", encNat s.gasRemaining), ("gas_refund_counter", encNat s.gasRefundCounter),
    ("gas_used", encNat s.gasUsed), ("gas_cost", encNat s.gasCost),
    ("storage_change", encOpt encChange s.storageChange), ("status", encStatus s.status),
    ("decoded", encOpt encDecodedStep s.decoded)]

/-- /repo/src/tracing/types.rs:571-610 `CallTraceStep`. -/
def decStep (known : UInt8 → Bool) (j : Json) : Except ReadErr CallTraceStep := do
  let depth ← req j "depth" decU64
  let pc ← req j "pc" decU64
  let op ← req j "op" (decOp known)
  let contract ← req j "contract" decAddress
  let stack ← opt j "stack" (decList decWord)
  let pushStack ← opt j "push_stack" (decList decWord)
  let memory ← opt j "memory" decBytes
  let returndata ← req j "returndata" decBytes
  let gasRemaining ← req j "gas_remaining" decU64
  let gasRefundCounter ← req j "gas_refund_counter" decU64
  let gasUsed ← req j "gas_used" decU64
  let gasCost ← req j "gas_cost" decU64
  let storageChange ← opt j "storage_change" decChange
  let status ← req j "status" decStatus
  let decoded ← opt j "decoded" decDecodedStep
  .ok { depth, pc, op, contract, stack, pushStack, memory, returndata, gasRemaining, gasRefundCounter, gasUsed,
        gasCost, storageChange, status, decoded }

/-- /repo/src/tracing/types.rs:18-24 `DecodedCallData`. -/
def encCallData (c : DecodedCallData) : Json :=
  obj [("signature", encString c.signature), ("args", encList encString c.args)]

/-- /repo/src/tracing/types.rs:18-24 `DecodedCallData`. -/
def decCallData (j : Json) : Except ReadErr DecodedCallData := do
  let signature ← req j "signature" decString
  let args ← req j "args" (decList decString)
  .ok { signature, args }

/-- /repo/src/tracing/types.rs:28-36 `DecodedCallTrace`. -/
def encDecodedTrace (d : DecodedCallTrace) : Json :=
  obj [("label", encOpt encString d.label), ("return_data", encOpt encString d.returnData),
    ("call_data", encOpt encCallData d.callData)]

/-- /repo/src/tracing/types.rs:28-36 `DecodedCallTrace`. -/
def decDecodedTrace (j : Json) : Except ReadErr DecodedCallTrace :=
  match j with
  | .obj _ => do
    let label ← opt j "label" decString
    let returnData ← opt j "return_data" decString
    let callData ← opt j "call_data" decCallData
    .ok { label, returnData, callData }
  | _ => .error .data

/-- /repo/src/tracing/types.rs:40-91 `CallTrace`. -/
def encTrace (t : CallTrace) : Json :=
  obj [("depth", encNat t.depth), ("success", .bool t.success), ("caller", encAddress t.caller),
    ("address", encAddress t.address), ("maybe_precompile", encOpt .bool t.maybePrecompile),
    ("selfdestruct_refund_target", encOpt encAddress t.selfdestructRefundTarget),
    ("selfdestruct_transferred_value", encOpt encWord t.selfdestructTransferredValue),
    ("kind", encKind t.kind), ("value", encWord t.value), ("data", encBytes t.data),
    ("output", encBytes t.output), ("gas_used", encNat t.gasUsed), ("gas_limit", encNat t.gasLimit),
    ("status", encStatus t.status), ("steps", encList encStep t.steps),
    ("decoded", encDecodedTrace t.decoded)]

/-- /repo/src/tracing/types.rs:40-91 `CallTrace`. -/
def decTrace (known : UInt8 → Bool) (j : Json) : Except ReadErr CallTrace := do
  let depth ← req j "depth" decU64
  let success ← req j "success" decBool
  let caller ← req j "caller" decAddress
  let address ← req j "address" decAddress
  let maybePrecompile ← opt j "maybe_precompile" decBool
  let selfdestructRefundTarget ← opt j "selfdestruct_refund_target" decAddress
  let selfdestructTransferredValue ← opt j "selfdestruct_transferred_value" decWord
  let kind ← req j "kind" decKind
  let value ← req j "value" decWord
  let data ← req j "data" decBytes
  let output ← req j "output" decBytes
  let gasUsed ← req j "gas_used" decU64
  let gasLimit ← req j "gas_limit" decU64
  let status ← req j "status" decStatus
  let steps ← req j "steps" (decList (decStep known))
  let decoded ← req j "decoded" decDecodedTrace
  .ok { depth, success, caller, address, maybePrecompile, selfdestructRefundTarget,
        selfdestructTransferredValue, kind, value, data, output, gasUsed, gasLimit, status, steps, decoded }

/-- A pair of strings: an array.
serde, for /repo/src/tracing/types.rs:18-770 and /repo/src/tracing/arena.rs:7. -/
def encPair (p : String × String) : Json := .arr [encString p.1, encString p.2]

/-- A pair of strings. serde, for /repo/src/tracing/types.rs:18-770 and /repo/src/tracing/arena.rs:7. -/
def decPair : Json → Except ReadErr (String × String)
  | .arr [a, b] => do
    let a ← decString a
    let b ← decString b
    .ok (a, b)
  | _ => .error .data

/-- /repo/src/tracing/types.rs:150-157 `DecodedCallLog`. -/
def encDecodedLog (d : DecodedCallLog) : Json :=
  obj [("name", encOpt encString d.name), ("params", encOpt (encList encPair) d.params)]

/-- /repo/src/tracing/types.rs:150-157 `DecodedCallLog`. -/
def decDecodedLog (j : Json) : Except ReadErr DecodedCallLog :=
  match j with
  | .obj _ => do
    let name ← opt j "name" decString
    let params ← opt j "params" (decList decPair)
    .ok { name, params }
  | _ => .error .data

/-- alloy's `LogData`. -/
def encLogData (l : LogData) : Json := obj [("topics", encList encHash l.topics), ("data", encBytes l.data)]

/-- alloy's `LogData`. -/
def decLogData (j : Json) : Except ReadErr LogData := do
  let topics ← req j "topics" (decList decHash)
  let data ← req j "data" decBytes
  .ok { topics, data }

/-- /repo/src/tracing/types.rs:161-167 `CallLog`. -/
def encLog (l : CallLog) : Json := obj [("raw_log", encLogData l.rawLog), ("decoded", encDecodedLog l.decoded)]

/-- /repo/src/tracing/types.rs:161-167 `CallLog`. -/
def decLog (j : Json) : Except ReadErr CallLog := do
  let rawLog ← req j "raw_log" decLogData
  let decoded ← req j "decoded" decDecodedLog
  .ok { rawLog, decoded }

/-- /repo/src/tracing/types.rs:534-542 `TraceMemberOrder`. -/
def encOrder : TraceMemberOrder → Json
  | .log i => obj [("Log", encNat i)]
  | .call i => obj [("Call", encNat i)]
  | .step i => obj [("Step", encNat i)]

/-- /repo/src/tracing/types.rs:534-542 `TraceMemberOrder`: exactly one key. -/
def decOrder : Json → Except ReadErr TraceMemberOrder
  | .obj [(k, v)] => do
    let i ← decU64 v
    if k = "Log".toList then .ok (.log i)
    else if k = "Call".toList then .ok (.call i)
    else if k = "Step".toList then .ok (.step i)
    else .error .data
  | _ => .error .data

/-- /repo/src/tracing/types.rs:178-192 `CallTraceNode`. -/
def encNode (n : Node) : Json :=
  obj [("parent", encOpt encNat n.parent), ("children", encList encNat n.children), ("idx", encNat n.idx),
    ("trace", encTrace n.trace), ("logs", encList encLog n.logs), ("ordering", encList encOrder n.ordering)]

/-- /repo/src/tracing/types.rs:178-192 `CallTraceNode`. -/
def decNode (known : UInt8 → Bool) (j : Json) : Except ReadErr Node := do
  let parent ← opt j "parent" decU64
  let children ← req j "children" (decList decU64)
  let idx ← req j "idx" decU64
  let trace ← req j "trace" (decTrace known)
  let logs ← req j "logs" (decList decLog)
  let ordering ← req j "ordering" (decList decOrder)
  .ok { parent, children, idx, trace, logs, ordering }

/-- /repo/src/tracing/arena.rs:7-11 `CallTraceArena`. -/
def encArena (ns : List Node) : Json := obj [("arena", encList encNode ns)]

/-- /repo/src/tracing/arena.rs:7-11 `CallTraceArena`. -/
def decArena (known : UInt8 → Bool) (j : Json) : Except ReadErr (List Node) :=
  req j "arena" (decList (decNode known))

/-- `serde_json::to_string` of a `CallTraceArena`. serde_json, for /repo/src/tracing/types.rs and arena.rs. -/
def write (ns : List Node) : List Char := JsonWrite.value (encArena ns)

/-- `serde_json::from_str` to a `CallTraceArena`. serde_json, for /repo/src/tracing/types.rs and arena.rs. -/
def read (known : UInt8 → Bool) (s : List Char) : Except ReadErr (List Node) :=
  match JsonParse.fromStr s with
  | .ok j => decArena known j
  | .error e => .error (.text e)

end Stored

end Verif
