import Verif.Model.Config
/-! The methods of the configuration as calls in a chain. -/
namespace Verif

/-- A call of one of the methods of `TracingInspectorConfig` that take the configuration and return it changed.
/repo/src/tracing/config.rs:195-293. -/
inductive ConfigMethod where
  | setExcludePrecompileCalls (b : Bool)
  | disableSteps | steps | setSteps (b : Bool)
  | disableMemorySnapshots | memorySnapshots | setMemorySnapshots (b : Bool)
  | disableStackSnapshots | stackSnapshots | setStackSnapshots (t : StackSnapshotType)
  | disableStateDiffs | setStateDiffs (b : Bool) | withStateDiffs | setStepsAndStateDiffs (b : Bool)
  | disableRecordLogs | recordLogs | setRecordLogs (b : Bool)
  deriving DecidableEq, Repr

/-- What the call does. /repo/src/tracing/config.rs:195-293. -/
def ConfigMethod.run (c : Config) : ConfigMethod → Config
  | .setExcludePrecompileCalls b => c.setExcludePrecompileCalls b
  | .disableSteps => c.disableSteps
  | .steps => c.steps
  | .setSteps b => c.setSteps b
  | .disableMemorySnapshots => c.disableMemorySnapshots
  | .memorySnapshots => c.memorySnapshots
  | .setMemorySnapshots b => c.setMemorySnapshots b
  | .disableStackSnapshots => c.disableStackSnapshots
  | .stackSnapshots => c.stackSnapshots
  | .setStackSnapshots t => c.setStackSnapshots t
  | .disableStateDiffs => c.disableStateDiffs
  | .setStateDiffs b => c.setStateDiffs b
  | .withStateDiffs => c.withStateDiffs
  | .setStepsAndStateDiffs b => c.setStepsAndStateDiffs b
  | .disableRecordLogs => c.disableRecordLogs
  | .recordLogs => c.withRecordLogs
  | .setRecordLogs b => c.setRecordLogs b

/-- A chain of calls, the first one first: `c.steps().disable_record_logs()…`. /repo/src/tracing/config.rs:195-293. -/
def Config.chain (c : Config) (calls : List ConfigMethod) : Config := calls.foldl ConfigMethod.run c

end Verif
