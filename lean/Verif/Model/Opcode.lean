import Verif.Revm
/-! Opcode constants of the dependency and the opcode predicates of /repo. -/
namespace Verif.Op

/-! `revm::interpreter::opcode` constants (EVM yellow paper numbering). -/
/-- revm `opcode::STOP`. -/
def STOP : OpCode := 0x00
/-- revm `opcode::ADD`. -/
def ADD : OpCode := 0x01
/-- revm `opcode::MUL`. -/
def MUL : OpCode := 0x02
/-- revm `opcode::SUB`. -/
def SUB : OpCode := 0x03
/-- revm `opcode::DIV`. -/
def DIV : OpCode := 0x04
/-- revm `opcode::SDIV`. -/
def SDIV : OpCode := 0x05
/-- revm `opcode::MOD`. -/
def MOD : OpCode := 0x06
/-- revm `opcode::SMOD`. -/
def SMOD : OpCode := 0x07
/-- revm `opcode::ADDMOD`. -/
def ADDMOD : OpCode := 0x08
/-- revm `opcode::MULMOD`. -/
def MULMOD : OpCode := 0x09
/-- revm `opcode::EXP`. -/
def EXP : OpCode := 0x0a
/-- revm `opcode::SIGNEXTEND`. -/
def SIGNEXTEND : OpCode := 0x0b
/-- revm `opcode::LT`. -/
def LT : OpCode := 0x10
/-- revm `opcode::GT`. -/
def GT : OpCode := 0x11
/-- revm `opcode::SLT`. -/
def SLT : OpCode := 0x12
/-- revm `opcode::SGT`. -/
def SGT : OpCode := 0x13
/-- revm `opcode::EQ`. -/
def EQ : OpCode := 0x14
/-- revm `opcode::ISZERO`. -/
def ISZERO : OpCode := 0x15
/-- revm `opcode::AND`. -/
def AND : OpCode := 0x16
/-- revm `opcode::OR`. -/
def OR : OpCode := 0x17
/-- revm `opcode::XOR`. -/
def XOR : OpCode := 0x18
/-- revm `opcode::NOT`. -/
def NOT : OpCode := 0x19
/-- revm `opcode::BYTE`. -/
def BYTE : OpCode := 0x1a
/-- revm `opcode::SHL`. -/
def SHL : OpCode := 0x1b
/-- revm `opcode::SHR`. -/
def SHR : OpCode := 0x1c
/-- revm `opcode::SAR`. -/
def SAR : OpCode := 0x1d
/-- revm `opcode::KECCAK256`. -/
def KECCAK256 : OpCode := 0x20
/-- revm `opcode::ADDRESS`. -/
def ADDRESS : OpCode := 0x30
/-- revm `opcode::BALANCE`. -/
def BALANCE : OpCode := 0x31
/-- revm `opcode::ORIGIN`. -/
def ORIGIN : OpCode := 0x32
/-- revm `opcode::CALLER`. -/
def CALLER : OpCode := 0x33
/-- revm `opcode::CALLVALUE`. -/
def CALLVALUE : OpCode := 0x34
/-- revm `opcode::CALLDATALOAD`. -/
def CALLDATALOAD : OpCode := 0x35
/-- revm `opcode::CALLDATASIZE`. -/
def CALLDATASIZE : OpCode := 0x36
/-- revm `opcode::CALLDATACOPY`. -/
def CALLDATACOPY : OpCode := 0x37
/-- revm `opcode::CODESIZE`. -/
def CODESIZE : OpCode := 0x38
/-- revm `opcode::CODECOPY`. -/
def CODECOPY : OpCode := 0x39
/-- revm `opcode::GASPRICE`. -/
def GASPRICE : OpCode := 0x3a
/-- revm `opcode::EXTCODESIZE`. -/
def EXTCODESIZE : OpCode := 0x3b
/-- revm `opcode::EXTCODECOPY`. -/
def EXTCODECOPY : OpCode := 0x3c
/-- revm `opcode::RETURNDATASIZE`. -/
def RETURNDATASIZE : OpCode := 0x3d
/-- revm `opcode::RETURNDATACOPY`. -/
def RETURNDATACOPY : OpCode := 0x3e
/-- revm `opcode::EXTCODEHASH`. -/
def EXTCODEHASH : OpCode := 0x3f
/-- revm `opcode::BLOCKHASH`. -/
def BLOCKHASH : OpCode := 0x40
/-- revm `opcode::COINBASE`. -/
def COINBASE : OpCode := 0x41
/-- revm `opcode::TIMESTAMP`. -/
def TIMESTAMP : OpCode := 0x42
/-- revm `opcode::NUMBER`. -/
def NUMBER : OpCode := 0x43
/-- revm `opcode::DIFFICULTY`. -/
def DIFFICULTY : OpCode := 0x44
/-- revm `opcode::GASLIMIT`. -/
def GASLIMIT : OpCode := 0x45
/-- revm `opcode::CHAINID`. -/
def CHAINID : OpCode := 0x46
/-- revm `opcode::SELFBALANCE`. -/
def SELFBALANCE : OpCode := 0x47
/-- revm `opcode::BASEFEE`. -/
def BASEFEE : OpCode := 0x48
/-- revm `opcode::BLOBHASH`. -/
def BLOBHASH : OpCode := 0x49
/-- revm `opcode::BLOBBASEFEE`. -/
def BLOBBASEFEE : OpCode := 0x4a
/-- revm `opcode::POP`. -/
def POP : OpCode := 0x50
/-- revm `opcode::MLOAD`. -/
def MLOAD : OpCode := 0x51
/-- revm `opcode::MSTORE`. -/
def MSTORE : OpCode := 0x52
/-- revm `opcode::MSTORE8`. -/
def MSTORE8 : OpCode := 0x53
/-- revm `opcode::SLOAD`. -/
def SLOAD : OpCode := 0x54
/-- revm `opcode::SSTORE`. -/
def SSTORE : OpCode := 0x55
/-- revm `opcode::PC`. -/
def PC : OpCode := 0x58
/-- revm `opcode::MSIZE`. -/
def MSIZE : OpCode := 0x59
/-- revm `opcode::GAS`. -/
def GAS : OpCode := 0x5a
/-- revm `opcode::TLOAD`. -/
def TLOAD : OpCode := 0x5c
/-- revm `opcode::MCOPY`. -/
def MCOPY : OpCode := 0x5e
/-- revm `opcode::PUSH0`. -/
def PUSH0 : OpCode := 0x5f
/-- revm `opcode::PUSH32`. -/
def PUSH32 : OpCode := 0x7f
/-- revm `opcode::DUP1`. -/
def DUP1 : OpCode := 0x80
/-- revm `opcode::DUP16`. -/
def DUP16 : OpCode := 0x8f
/-- revm `opcode::SWAP1`. -/
def SWAP1 : OpCode := 0x90
/-- revm `opcode::SWAP16`. -/
def SWAP16 : OpCode := 0x9f
/-- revm `opcode::LOG0`. -/
def LOG0 : OpCode := 0xa0
/-- revm `opcode::CREATE`. -/
def CREATE : OpCode := 0xf0
/-- revm `opcode::CALL`. -/
def CALL : OpCode := 0xf1
/-- revm `opcode::CALLCODE`. -/
def CALLCODE : OpCode := 0xf2
/-- revm `opcode::DELEGATECALL`. -/
def DELEGATECALL : OpCode := 0xf4
/-- revm `opcode::CREATE2`. -/
def CREATE2 : OpCode := 0xf5
/-- revm `opcode::STATICCALL`. -/
def STATICCALL : OpCode := 0xfa
/-- revm `opcode::INVALID`. -/
def INVALID : OpCode := 0xfe
/-- revm `opcode::SELFDESTRUCT`. -/
def SELFDESTRUCT : OpCode := 0xff

/-- /repo/src/opcode.rs:86-102 `may_modify_memory`. -/
def mayModifyMemory (op : OpCode) : Bool :=
  [EXTCODECOPY, MLOAD, MSTORE, MSTORE8, MCOPY, CODECOPY, CALLDATACOPY, RETURNDATACOPY, CALL,
    CALLCODE, DELEGATECALL, STATICCALL].contains op

/-- The opcodes of the last but one arm of `stack_push_count`,
/repo/src/tracing/builder/parity.rs:558-609. -/
def pushOneOps : List OpCode :=
  [CALLDATALOAD, SLOAD, MLOAD, CALLDATASIZE, LT, GT, DIV, SDIV, SAR, AND, EQ, CALLVALUE, ISZERO,
   ADD, EXP, CALLER, KECCAK256, SUB, ADDRESS, GAS, MUL, RETURNDATASIZE, NOT, SHR, SHL,
   EXTCODESIZE, SLT, OR, NUMBER, PC, TIMESTAMP, BALANCE, SELFBALANCE, MULMOD, ADDMOD, BASEFEE,
   BLOCKHASH, BYTE, XOR, ORIGIN, CODESIZE, MOD, SIGNEXTEND, GASLIMIT, DIFFICULTY, SGT, GASPRICE,
   MSIZE, EXTCODEHASH, SMOD, CHAINID, COINBASE]

/-- /repo/src/tracing/builder/parity.rs:552-612 `stack_push_count`. -/
def stackPushCount (op : OpCode) : Nat :=
  if PUSH0 ≤ op ∧ op ≤ PUSH32 then 1
  else if SWAP1 ≤ op ∧ op ≤ SWAP16 then (op - SWAP1).toNat + 2
  else if DUP1 ≤ op ∧ op ≤ DUP16 then (op - DUP1).toNat + 2
  else if pushOneOps.contains op then 1
  else 0

/-- /repo/src/tracing/types.rs:659-669 `CallTraceStep::is_calllike_op` (on the opcode). -/
def isCalllike (op : OpCode) : Bool :=
  [CALL, DELEGATECALL, STATICCALL, CREATE, CALLCODE, CREATE2].contains op

end Verif.Op
