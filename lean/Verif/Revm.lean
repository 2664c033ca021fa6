/-!
# Environment: the parts of revm / alloy the crate interacts with

None of these types is defined in /repo; they are the dependency types that the code of /repo
reads. Only the fields /repo reads are kept. The assumptions made here are listed in DESIGN.md,
section 4.
-/
namespace Verif

/-- 20-byte address (alloy `Address`). -/
abbrev Address := BitVec 160
/-- 256-bit word (alloy `U256` / `B256`). -/
abbrev U256 := BitVec 256
/-- Byte string (alloy `Bytes`). -/
abbrev Bytes := List UInt8

/-- The ways modelled Rust code can stop abnormally. revm, which is not in /repo. -/
inductive Panic where
  /-- slice / `Vec` index out of bounds, missing map key -/
  | index
  /-- `Option::expect` on `None` -/
  | expect (msg : String)
  /-- arithmetic underflow / overflow (debug) or the resulting out-of-range slice (release) -/
  | arith
  /-- `todo!()` -/
  | todo
  /-- `unreachable!()` -/
  | unreachable
  /-- a loop that does not terminate -/
  | diverge
  deriving DecidableEq, Repr

/-- Result of code that may panic. revm, which is not in /repo. -/
abbrev R (α : Type) := Except Panic α

/-- revm opcode byte. `OpCode::new_unchecked` admits every byte. -/
abbrev OpCode := UInt8

/-- `revm::interpreter::InstructionResult` (revm-interpreter 6/7), in declaration order. -/
inductive InstructionResult where
  | Continue | Stop | Return | SelfDestruct | ReturnContract
  | Revert | CallTooDeep | OutOfFunds | CreateInitCodeStartingEF00 | InvalidEOFInitCode
  | InvalidExtDelegateCallTarget
  | CallOrCreate
  | OutOfGas | MemoryOOG | MemoryLimitOOG | PrecompileOOG | InvalidOperandOOG | OpcodeNotFound
  | CallNotAllowedInsideStatic | StateChangeDuringStaticCall | InvalidFEOpcode | InvalidJump
  | NotActivated | StackUnderflow | StackOverflow | OutOfOffset | CreateCollision
  | OverflowPayment | PrecompileError | NonceOverflow | CreateContractSizeLimit
  | CreateContractStartingWithEF | CreateInitCodeSizeLimit | FatalExternalError
  | ReturnContractInNotInitEOF | EOFOpcodeDisabledInLegacy | EOFFunctionStackOverflow
  | EofAuxDataOverflow | EofAuxDataTooSmall | InvalidEXTCALLTarget
  deriving DecidableEq, Repr, Inhabited

namespace InstructionResult

/-- `status as u8`: success codes from 0x00, revert codes from 0x10, the action code 0x20, error
codes from 0x50. revm, which is not in /repo. -/
def toU8 : InstructionResult → Nat
  | Continue => 0x00 | Stop => 0x01 | Return => 0x02 | SelfDestruct => 0x03 | ReturnContract => 0x04
  | Revert => 0x10 | CallTooDeep => 0x11 | OutOfFunds => 0x12 | CreateInitCodeStartingEF00 => 0x13
  | InvalidEOFInitCode => 0x14 | InvalidExtDelegateCallTarget => 0x15
  | CallOrCreate => 0x20
  | OutOfGas => 0x50 | MemoryOOG => 0x51 | MemoryLimitOOG => 0x52 | PrecompileOOG => 0x53
  | InvalidOperandOOG => 0x54 | OpcodeNotFound => 0x55 | CallNotAllowedInsideStatic => 0x56
  | StateChangeDuringStaticCall => 0x57 | InvalidFEOpcode => 0x58 | InvalidJump => 0x59
  | NotActivated => 0x5a | StackUnderflow => 0x5b | StackOverflow => 0x5c | OutOfOffset => 0x5d
  | CreateCollision => 0x5e | OverflowPayment => 0x5f | PrecompileError => 0x60
  | NonceOverflow => 0x61 | CreateContractSizeLimit => 0x62 | CreateContractStartingWithEF => 0x63
  | CreateInitCodeSizeLimit => 0x64 | FatalExternalError => 0x65
  | ReturnContractInNotInitEOF => 0x66 | EOFOpcodeDisabledInLegacy => 0x67
  | EOFFunctionStackOverflow => 0x68 | EofAuxDataOverflow => 0x69 | EofAuxDataTooSmall => 0x6a
  | InvalidEXTCALLTarget => 0x6b

/-- `InstructionResult::is_ok` (macro `return_ok!`). revm, which is not in /repo. -/
def isOk : InstructionResult → Bool
  | Continue | Stop | Return | SelfDestruct | ReturnContract => true
  | _ => false

/-- `return_revert!` macro. revm, which is not in /repo. -/
def isRevertClass : InstructionResult → Bool
  | Revert | CallTooDeep | OutOfFunds | CreateInitCodeStartingEF00 | InvalidEOFInitCode
  | InvalidExtDelegateCallTarget => true
  | _ => false

/-- `format!("{:?}", status)` of the derived `Debug`. revm, which is not in /repo. -/
def debug : InstructionResult → String
  | Continue => "Continue" | Stop => "Stop" | Return => "Return" | SelfDestruct => "SelfDestruct"
  | ReturnContract => "ReturnContract" | Revert => "Revert" | CallTooDeep => "CallTooDeep"
  | OutOfFunds => "OutOfFunds" | CreateInitCodeStartingEF00 => "CreateInitCodeStartingEF00"
  | InvalidEOFInitCode => "InvalidEOFInitCode"
  | InvalidExtDelegateCallTarget => "InvalidExtDelegateCallTarget" | CallOrCreate => "CallOrCreate"
  | OutOfGas => "OutOfGas" | MemoryOOG => "MemoryOOG" | MemoryLimitOOG => "MemoryLimitOOG"
  | PrecompileOOG => "PrecompileOOG" | InvalidOperandOOG => "InvalidOperandOOG"
  | OpcodeNotFound => "OpcodeNotFound" | CallNotAllowedInsideStatic => "CallNotAllowedInsideStatic"
  | StateChangeDuringStaticCall => "StateChangeDuringStaticCall"
  | InvalidFEOpcode => "InvalidFEOpcode" | InvalidJump => "InvalidJump"
  | NotActivated => "NotActivated" | StackUnderflow => "StackUnderflow"
  | StackOverflow => "StackOverflow" | OutOfOffset => "OutOfOffset"
  | CreateCollision => "CreateCollision" | OverflowPayment => "OverflowPayment"
  | PrecompileError => "PrecompileError" | NonceOverflow => "NonceOverflow"
  | CreateContractSizeLimit => "CreateContractSizeLimit"
  | CreateContractStartingWithEF => "CreateContractStartingWithEF"
  | CreateInitCodeSizeLimit => "CreateInitCodeSizeLimit"
  | FatalExternalError => "FatalExternalError"
  | ReturnContractInNotInitEOF => "ReturnContractInNotInitEOF"
  | EOFOpcodeDisabledInLegacy => "EOFOpcodeDisabledInLegacy"
  | EOFFunctionStackOverflow => "EOFFunctionStackOverflow"
  | EofAuxDataOverflow => "EofAuxDataOverflow" | EofAuxDataTooSmall => "EofAuxDataTooSmall"
  | InvalidEXTCALLTarget => "InvalidEXTCALLTarget"

end InstructionResult

/-- `SpecId as u8`; `SpecId::enabled(ours, other) = ours as u8 >= other as u8`. revm, which is not in /repo. -/
abbrev SpecId := Nat
/-- `SpecId::LONDON`. revm, which is not in /repo. -/
def LONDON : SpecId := 12
/-- `SpecId::enabled`. revm, which is not in /repo. -/
def SpecId.enabled (ours other : SpecId) : Bool := decide (other ≤ ours)

/-- `revm::interpreter::Gas`: `u64` limit and remaining, `i64` refund counter. Modelled over `Nat`
and `Int`; the 64-bit bounds appear as hypotheses where they matter. -/
structure Gas where
  limit : Nat
  remaining : Nat
  refunded : Int
  deriving DecidableEq, Repr, Inhabited

/-- `Gas::spent` (`limit - remaining`). revm, which is not in /repo. -/
def Gas.spent (g : Gas) : Nat := g.limit - g.remaining

/-- Rust cast `i64 as u64` (two's complement). revm, which is not in /repo. -/
def i64AsU64 (r : Int) : Nat := (r % (2 ^ 64 : Int)).toNat

/-- `revm::JournalEntry`; every variant but `StorageChanged` is irrelevant to /repo. -/
inductive JournalEntry where
  | storageChanged (address : Address) (key : U256) (hadValue : U256)
  | other
  deriving DecidableEq, Repr

/-- What the inspectors read from `&mut EvmContext<DB>`. revm, which is not in /repo. -/
structure Ctx where
  /-- `journaled_state.depth()` -/
  depth : Nat
  /-- `spec_id()` -/
  specId : SpecId
  /-- `env.tx.gas_limit` -/
  txGasLimit : Nat
  /-- `precompiles.contains` / `precompiles.addresses` -/
  precompiles : List Address
  /-- `journaled_state.journal` -/
  journal : List (List JournalEntry)
  /-- `journaled_state.state[address].storage[key].present_value()`, `none` if absent -/
  storage : Address → U256 → Option U256
  /-- `journaled_state.account(address).info.nonce` -/
  nonce : Address → Nat

instance : Inhabited Ctx := ⟨⟨0, 0, 0, [], [[]], fun _ _ => none, fun _ => 0⟩⟩

/-- What the inspectors read from `&mut Interpreter`. revm, which is not in /repo. -/
structure Interp where
  /-- `current_opcode()` -/
  op : OpCode
  /-- `program_counter()` -/
  pc : Nat
  /-- `stack.data()`, bottom of the stack first -/
  stack : List U256
  /-- `shared_memory.context_memory()` -/
  memory : Bytes
  /-- `return_data_buffer` -/
  returnData : Bytes
  gas : Gas
  /-- `contract.target_address` -/
  contract : Address
  /-- `instruction_result` -/
  result : InstructionResult
  deriving DecidableEq, Repr, Inhabited

/-- `stack.peek(n)`: the `n`-th item from the top, an error if there is none. revm, which is not in /repo. -/
def Interp.peek (i : Interp) (n : Nat) : Option U256 := i.stack.reverse[n]?

/-- `revm::interpreter::CallScheme`. -/
inductive CallScheme where
  | Call | CallCode | DelegateCall | StaticCall
  deriving DecidableEq, Repr, Inhabited

/-- `revm::interpreter::CallValue`. -/
inductive CallValue where
  | transfer (v : U256)
  | apparent (v : U256)
  deriving DecidableEq, Repr

instance : Inhabited CallValue := ⟨.transfer 0⟩

/-- `revm::interpreter::CallInputs`. -/
structure CallInputs where
  input : Bytes
  gasLimit : Nat
  bytecodeAddress : Address
  targetAddress : Address
  caller : Address
  value : CallValue
  scheme : CallScheme
  deriving DecidableEq, Repr, Inhabited

/-- `CallInputs::call_value`. revm, which is not in /repo. -/
def CallInputs.callValue (i : CallInputs) : U256 :=
  match i.value with
  | .transfer v => v
  | .apparent v => v

/-- `CallInputs::transfers_value`. revm, which is not in /repo. -/
def CallInputs.transfersValue (i : CallInputs) : Bool :=
  match i.value with
  | .transfer v => decide (v ≠ 0)
  | .apparent _ => false

/-- `CallInputs::transfer_value`. revm, which is not in /repo. -/
def CallInputs.transferValue (i : CallInputs) : Option U256 :=
  match i.value with
  | .transfer v => some v
  | .apparent _ => none

/-- `revm::interpreter::CreateScheme`. -/
inductive CreateScheme where
  | Create
  | Create2 (salt : U256)
  deriving DecidableEq, Repr, Inhabited

/-- `revm::interpreter::CreateInputs`; `createdAddress nonce` stands for the (keccak-based)
`CreateInputs::created_address`, an arbitrary function here. -/
structure CreateInputs where
  caller : Address
  scheme : CreateScheme
  value : U256
  initCode : Bytes
  gasLimit : Nat
  createdAddress : Nat → Address

instance : Inhabited CreateInputs := ⟨⟨0, .Create, 0, [], 0, fun _ => 0⟩⟩

/-- `revm::interpreter::InterpreterResult`. -/
structure InterpreterResult where
  result : InstructionResult
  output : Bytes
  gas : Gas
  deriving DecidableEq, Repr, Inhabited

/-- `alloy_primitives::LogData`. -/
structure LogData where
  topics : List U256
  data : Bytes
  deriving DecidableEq, Repr, Inhabited

/-- `alloy_primitives::Log`. -/
structure Log where
  address : Address
  data : LogData
  deriving DecidableEq, Repr, Inhabited

/-- One invocation of a `revm::Inspector` hook. -/
inductive Event where
  | step (i : Interp) (c : Ctx)
  | stepEnd (i : Interp) (c : Ctx)
  | log (c : Ctx) (l : Log)
  | call (c : Ctx) (inp : CallInputs)
  | callEnd (c : Ctx) (inp : CallInputs) (r : InterpreterResult)
  | create (c : Ctx) (inp : CreateInputs)
  | createEnd (c : Ctx) (inp : CreateInputs) (r : InterpreterResult) (address : Option Address)
  | selfdestruct (contract target : Address) (value : U256)

end Verif
