import Verif.Model.Opcode
/-! Model of /repo/src/tracing/config.rs. -/
namespace Verif

/-- /repo/src/tracing/config.rs:12 `OpcodeFilter(U256)`. -/
structure OpcodeFilter where
  bits : U256
  deriving DecidableEq, Repr

namespace OpcodeFilter

/-- /repo/src/tracing/config.rs:23-25 `new` (also `Default::default`, 14-18). -/
def new : OpcodeFilter := ⟨0⟩

/-- /repo/src/tracing/config.rs:29-31 `is_enabled` (`U256::bit`). -/
def isEnabled (f : OpcodeFilter) (op : OpCode) : Bool := f.bits.getLsbD op.toNat

/-- /repo/src/tracing/config.rs:35-38 `enable` (`U256::set_bit(i, true)`: or with `1 << i`). -/
def enable (f : OpcodeFilter) (op : OpCode) : OpcodeFilter :=
  ⟨f.bits ||| (1#256 <<< op.toNat)⟩

/-- `U256::into_limbs` (ruint, little endian). Used in /repo/src/tracing/config.rs:44. -/
def intoLimbs (x : U256) : List (BitVec 64) :=
  [x.extractLsb' 0 64, x.extractLsb' 64 64, x.extractLsb' 128 64, x.extractLsb' 192 64]

/-- `U256::from_limbs` (ruint, little endian) on exactly four limbs. Used in /repo/src/tracing/config.rs:47. -/
def fromLimbs : List (BitVec 64) → U256
  | [l0, l1, l2, l3] => ((l3 ++ l2 : BitVec 128) ++ l1 : BitVec 192) ++ l0
  | _ => 0

/-- /repo/src/tracing/config.rs:42-49 `enabled`. -/
def enabled (f : OpcodeFilter) (op : OpCode) : OpcodeFilter :=
  let index := op.toNat
  let limbs := intoLimbs f.bits
  let limb := index / 64
  let bit := index % 64
  ⟨fromLimbs (limbs.modify limb (· ||| (1#64 <<< bit)))⟩

end OpcodeFilter

/-- /repo/src/tracing/config.rs:305-313. -/
inductive StackSnapshotType where
  | None | Pushes | Full
  deriving DecidableEq, Repr, Inhabited

/-- /repo/src/tracing/config.rs:318-320. -/
def StackSnapshotType.isFull : StackSnapshotType → Bool
  | .Full => true
  | _ => false

/-- /repo/src/tracing/config.rs:324-326. -/
def StackSnapshotType.isPushes : StackSnapshotType → Bool
  | .Pushes => true
  | _ => false

/-- /repo/src/tracing/config.rs:333-346 `TraceStyle`. -/
inductive TraceStyle where
  | Parity | Geth
  deriving DecidableEq, Repr

/-- /repo/src/tracing/config.rs:57-75. The derived `Default` is all `false`/`None`. -/
structure Config where
  recordSteps : Bool := false
  recordMemorySnapshots : Bool := false
  recordStackSnapshots : StackSnapshotType := .None
  recordStateDiff : Bool := false
  recordReturndataSnapshots : Bool := false
  recordOpcodesFilter : Option OpcodeFilter := none
  excludePrecompileCalls : Bool := false
  recordLogs : Bool := false
  deriving DecidableEq, Repr, Inhabited

/-- alloy `TraceType` (parity). -/
inductive TraceType where
  | Trace | VmTrace | StateDiff
  deriving DecidableEq, Repr

/-- alloy `GethDefaultTracingOptions`: the fields /repo reads, and `limit`, which nothing in /repo reads
(/repo/src/tracing/config.rs:161-176, /repo/src/tracing/builder/geth.rs:31-109). -/
structure GethOptions where
  enableMemory : Option Bool := none
  disableStack : Option Bool := none
  disableStorage : Option Bool := none
  enableReturnData : Option Bool := none
  limit : Option Nat := none
  deriving DecidableEq, Repr, Inhabited

/-- alloy `GethDefaultTracingOptions::is_stack_enabled`. -/
def GethOptions.isStackEnabled (o : GethOptions) : Bool := !(o.disableStack.getD false)
/-- alloy `GethDefaultTracingOptions::is_storage_enabled`. -/
def GethOptions.isStorageEnabled (o : GethOptions) : Bool := !(o.disableStorage.getD false)
/-- alloy `GethDefaultTracingOptions::is_memory_enabled`. -/
def GethOptions.isMemoryEnabled (o : GethOptions) : Bool := o.enableMemory.getD false
/-- alloy `GethDefaultTracingOptions::is_return_data_enabled`. -/
def GethOptions.isReturnDataEnabled (o : GethOptions) : Bool := o.enableReturnData.getD false

/-- alloy `CallConfig`. -/
structure CallConfig where
  onlyTopCall : Option Bool := none
  withLog : Option Bool := none
  deriving DecidableEq, Repr, Inhabited

/-- alloy `PreStateConfig`. -/
structure PreStateConfig where
  diffMode : Option Bool := none
  deriving DecidableEq, Repr, Inhabited

/-- alloy `PreStateConfig::is_diff_mode`. -/
def PreStateConfig.isDiffMode (c : PreStateConfig) : Bool := c.diffMode.getD false
/-- alloy `PreStateConfig::is_default_mode`. -/
def PreStateConfig.isDefaultMode (c : PreStateConfig) : Bool := !c.isDiffMode

namespace Config

/-- /repo/src/tracing/config.rs:79-90. -/
def all : Config where
  recordSteps := true
  recordMemorySnapshots := true
  recordStackSnapshots := .Full
  recordStateDiff := false
  recordReturndataSnapshots := true
  recordOpcodesFilter := Option.none
  excludePrecompileCalls := false
  recordLogs := true

/-- /repo/src/tracing/config.rs:93-104. -/
def none : Config where
  recordSteps := false
  recordMemorySnapshots := false
  recordStackSnapshots := .None
  recordStateDiff := false
  recordReturndataSnapshots := false
  excludePrecompileCalls := false
  recordLogs := false
  recordOpcodesFilter := Option.none

/-- /repo/src/tracing/config.rs:109-120. -/
def defaultParity : Config where
  recordSteps := false
  recordMemorySnapshots := false
  recordStackSnapshots := .None
  recordStateDiff := false
  recordReturndataSnapshots := false
  excludePrecompileCalls := true
  recordLogs := false
  recordOpcodesFilter := Option.none

/-- /repo/src/tracing/config.rs:128-139. -/
def defaultGeth : Config where
  recordSteps := true
  recordMemorySnapshots := false
  recordStackSnapshots := .Full
  recordStateDiff := true
  recordReturndataSnapshots := false
  excludePrecompileCalls := false
  recordLogs := false
  recordOpcodesFilter := Option.none

/-- /repo/src/tracing/config.rs:198-201. -/
def setExcludePrecompileCalls (c : Config) (b : Bool) : Config := { c with excludePrecompileCalls := b }
/-- /repo/src/tracing/config.rs:214-217. -/
def setSteps (c : Config) (b : Bool) : Config := { c with recordSteps := b }
/-- /repo/src/tracing/config.rs:204-206. -/
def disableSteps (c : Config) : Config := c.setSteps false
/-- /repo/src/tracing/config.rs:209-211. -/
def steps (c : Config) : Config := c.setSteps true
/-- /repo/src/tracing/config.rs:230-233. -/
def setMemorySnapshots (c : Config) (b : Bool) : Config := { c with recordMemorySnapshots := b }
/-- /repo/src/tracing/config.rs:220-222. -/
def disableMemorySnapshots (c : Config) : Config := c.setMemorySnapshots false
/-- /repo/src/tracing/config.rs:225-227. -/
def memorySnapshots (c : Config) : Config := c.setMemorySnapshots true
/-- /repo/src/tracing/config.rs:246-249. -/
def setStackSnapshots (c : Config) (t : StackSnapshotType) : Config :=
  { c with recordStackSnapshots := t }
/-- /repo/src/tracing/config.rs:236-238. -/
def disableStackSnapshots (c : Config) : Config := c.setStackSnapshots .None
/-- /repo/src/tracing/config.rs:241-243. -/
def stackSnapshots (c : Config) : Config := c.setStackSnapshots .Full
/-- /repo/src/tracing/config.rs:257-260. -/
def setStateDiffs (c : Config) (b : Bool) : Config := { c with recordStateDiff := b }
/-- /repo/src/tracing/config.rs:252-254. -/
def disableStateDiffs (c : Config) : Config := c.setStateDiffs false
/-- /repo/src/tracing/config.rs:273-277. -/
def setStepsAndStateDiffs (c : Config) (b : Bool) : Config :=
  { c with recordSteps := b, recordStateDiff := b }
/-- /repo/src/tracing/config.rs:265-267. -/
def withStateDiffs (c : Config) : Config := c.setStepsAndStateDiffs true
/-- /repo/src/tracing/config.rs:290-293. -/
def setRecordLogs (c : Config) (b : Bool) : Config := { c with recordLogs := b }
/-- /repo/src/tracing/config.rs:280-282. -/
def disableRecordLogs (c : Config) : Config := c.setRecordLogs false
/-- /repo/src/tracing/config.rs:285-287 (the setter of the same name as the field). -/
def withRecordLogs (c : Config) : Config := c.setRecordLogs true

/-- /repo/src/tracing/config.rs:146-154. The `HashSet` is modelled by its membership list. -/
def fromParityConfig (traceTypes : List TraceType) : Config :=
  let needsVmTrace := traceTypes.contains .VmTrace
  let snapType := if needsVmTrace then StackSnapshotType.Pushes else .None
  ((defaultParity.setSteps needsVmTrace).setStackSnapshots snapType).setMemorySnapshots needsVmTrace

/-- /repo/src/tracing/config.rs:161-172. -/
def fromGethConfig (config : GethOptions) : Config :=
  { defaultGeth with
    recordMemorySnapshots := config.enableMemory.getD false
    recordStackSnapshots := if config.disableStack.getD false then .None else .Full
    recordStateDiff := !(config.disableStorage.getD false) }

/-- /repo/src/tracing/config.rs:179-183. -/
def fromGethCallConfig (config : CallConfig) : Config :=
  none.setRecordLogs (config.withLog.getD false)

/-- /repo/src/tracing/config.rs:191-193. -/
def fromGethPrestateConfig (_config : PreStateConfig) : Config := none

/-- /repo/src/tracing/config.rs:298-300. -/
def shouldRecordOpcode (c : Config) (op : OpCode) : Bool :=
  match c.recordOpcodesFilter with
  | Option.none => true
  | some filter => filter.isEnabled op

end Config
end Verif
