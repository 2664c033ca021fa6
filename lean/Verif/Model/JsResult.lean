import Verif.Model.JsValues
/-! Model of the context object passed to the `result` function of a JavaScript tracer:
/repo/src/tracing/js/mod.rs:222-283 and /repo/src/tracing/js/bindings.rs:656-732.

`Uint8Array`s are modelled by their bytes, `to_bigint` by the number. Setting a field of a fresh object
is taken not to throw. -/
namespace Verif

/-- revm `Output`. -/
inductive TxOutput where
  | call (out : Bytes)
  | create (out : Bytes) (address : Option Address)
  deriving DecidableEq, Repr

/-- revm `ExecutionResult`, without reasons and logs. -/
inductive ExecutionResult where
  | success (gasUsed : Nat) (output : TxOutput)
  | revert (gasUsed : Nat) (output : Bytes)
  | halt (gasUsed : Nat)
  deriving DecidableEq, Repr

/-- revm `ExecutionResult::gas_used`. -/
def ExecutionResult.gasUsed : ExecutionResult → Nat
  | .success g _ => g
  | .revert g _ => g
  | .halt g => g

/-- revm `TransactTo`. -/
inductive TransactTo where
  | call (target : Address)
  | create
  deriving DecidableEq, Repr

/-- The fields of revm's `Env` that are read. -/
structure TxEnv where
  transactTo : TransactTo
  caller : Address
  data : Bytes
  gasLimit : Nat
  gasPrice : U256
  value : U256
  blockNumber : U256
  timestamp : U256
  deriving DecidableEq, Repr

/-- /repo/src/tracing/js/mod.rs:578-592 `TransactionContext`. -/
structure TransactionContext where
  blockHash : Option Bytes := none
  txIndex : Option Nat := none
  txHash : Option Bytes := none
  deriving DecidableEq, Repr

/-- /repo/src/tracing/js/mod.rs:594-612: the builder methods. -/
def TransactionContext.withBlockHash (t : TransactionContext) (h : Bytes) : TransactionContext :=
  { t with blockHash := some h }

/-- /repo/src/tracing/js/mod.rs:601-604. -/
def TransactionContext.withTxIndex (t : TransactionContext) (i : Nat) : TransactionContext :=
  { t with txIndex := some i }

/-- /repo/src/tracing/js/mod.rs:607-610. -/
def TransactionContext.withTxHash (t : TransactionContext) (h : Bytes) : TransactionContext :=
  { t with txHash := some h }

/-- /repo/src/tracing/js/bindings.rs:655-680 `JsEvmContext`. -/
structure JsEvmContext where
  type : String
  from_ : Address
  to : Option Address
  input : Bytes
  gas : Nat
  gasUsed : Nat
  gasPrice : Nat
  intrinsicGas : Nat
  value : U256
  block : Nat
  output : Bytes
  time : String
  transactionCtx : TransactionContext

/-- `u64::try_from(x).unwrap_or(u64::MAX)`. /repo/src/tracing/js/mod.rs:268, 270. -/
def u64OrMax (x : U256) : Nat := if x.toNat < 2 ^ 64 then x.toNat else 2 ^ 64 - 1

/-- /repo/src/tracing/js/mod.rs:236-253: the created address and the output. -/
def resultParts : ExecutionResult → Option Address × Option Bytes
  | .success _ (.call out) => (none, some out)
  | .success _ (.create out addr) => (addr, some out)
  | .revert _ out => (none, some out)
  | .halt _ => (none, none)

/-- /repo/src/tracing/js/mod.rs:255-275. -/
def resultContext (res : ExecutionResult) (env : TxEnv) (tctx : TransactionContext) : JsEvmContext :=
  let parts := resultParts res
  let typeTo := match env.transactTo with
    | .call target => ("CALL", some target)
    | .create => ("CREATE", parts.1)
  { type := typeTo.1
    from_ := env.caller
    to := typeTo.2
    input := env.data
    gas := env.gasLimit
    gasUsed := res.gasUsed
    gasPrice := u64OrMax env.gasPrice
    value := env.value
    block := u64OrMax env.blockNumber
    output := parts.2.getD []
    time := toString env.timestamp.toNat
    intrinsicGas := 0
    transactionCtx := tctx }

/-- The values of the fields. /repo/src/tracing/js/bindings.rs:683-731. -/
inductive JsVal where
  | null
  | str (s : String)
  | bytes (b : Bytes)
  | num (n : JsNum)
  | bigint (n : Nat)

/-- Rust's `x as f64` for a `u64`, as an integer: 53 significant bits, rounded to the nearest, ties to
even. /repo/src/tracing/js/bindings.rs:683-731. -/
def f64OfU64 (n : Nat) : Nat :=
  if n < 2 ^ 53 then n
  else
    let e := n.log2 - 52
    let q := n / 2 ^ e
    let r := n % 2 ^ e
    if 2 * r < 2 ^ e ∨ (2 * r = 2 ^ e ∧ q % 2 = 0) then q * 2 ^ e else (q + 1) * 2 ^ e

/-- boa's `JsValue::from(u64)`. /repo/src/tracing/js/bindings.rs:683-731. -/
def JsVal.ofU64 (n : Nat) : JsVal := .num (.ofNat (f64OfU64 n))

/-- /repo/src/tracing/js/builtins.rs:135-149 `address_to_byte_array`, `address_to_byte_array_value`. -/
def JsVal.ofAddress (a : Address) : JsVal := .bytes (beBytes 20 a.toNat)

/-- An object under construction: names with values, the last one set counts.
/repo/src/tracing/js/bindings.rs:683-731. -/
abbrev JsFields := List (String × JsVal)

/-- `obj.set`. /repo/src/tracing/js/bindings.rs:683-731. -/
def JsFields.put (o : JsFields) (name : String) (v : JsVal) : JsFields := (name, v) :: o

/-- `obj.get` in JavaScript: `none` is `undefined`. /repo/src/tracing/js/bindings.rs:683-731. -/
def JsFields.read (o : JsFields) (name : String) : Option JsVal := o.lookup name

/-- /repo/src/tracing/js/bindings.rs:683-731 `into_js_object`. -/
def JsEvmContext.intoJsObject (c : JsEvmContext) : JsFields :=
  let o : JsFields := []
  let o := o.put "type" (.str c.type)
  let o := o.put "from" (.ofAddress c.from_)
  let o := match c.to with
    | some to => o.put "to" (.ofAddress to)
    | none => o.put "to" .null
  let o := o.put "input" (.bytes c.input)
  let o := o.put "gas" (.ofU64 c.gas)
  let o := o.put "gasUsed" (.ofU64 c.gasUsed)
  let o := o.put "gasPrice" (.ofU64 c.gasPrice)
  let o := o.put "intrinsicGas" (.ofU64 c.intrinsicGas)
  let o := o.put "value" (.bigint c.value.toNat)
  let o := o.put "block" (.ofU64 c.block)
  let o := o.put "output" (.bytes c.output)
  let o := o.put "time" (.str c.time)
  let o := match c.transactionCtx.blockHash with
    | some h => o.put "blockHash" (.bytes h)
    | none => o
  let o := match c.transactionCtx.txIndex with
    | some i => o.put "txIndex" (.ofU64 i)
    | none => o
  match c.transactionCtx.txHash with
    | some h => o.put "txHash" (.bytes h)
    | none => o

/-- The object the `result` function gets. /repo/src/tracing/js/mod.rs:222-283. -/
def jsResultArgument (res : ExecutionResult) (env : TxEnv) (tctx : TransactionContext) : JsFields :=
  (resultContext res env tctx).intoJsObject

end Verif
