import Verif.Model.ConfigChain
import Verif.Spec.Frames
/-! What the documentation of the methods of the configuration says they ask for (C132). -/
namespace Verif.Spec

/-- Whether the call asks for steps (`some true`), for none (`some false`), or says nothing about them. -/
def asksSteps : ConfigMethod → Option Bool
  | .steps | .withStateDiffs => some true
  | .disableSteps => some false
  | .setSteps b | .setStepsAndStateDiffs b => some b
  | _ => none

/-- The same for memory snapshots. -/
def asksMemory : ConfigMethod → Option Bool
  | .memorySnapshots => some true
  | .disableMemorySnapshots => some false
  | .setMemorySnapshots b => some b
  | _ => none

/-- What the call asks to be recorded of the stack, if it says something about it. -/
def asksStack : ConfigMethod → Option StackSnapshotType
  | .stackSnapshots => some .Full
  | .disableStackSnapshots => some .None
  | .setStackSnapshots t => some t
  | _ => none

/-- The same for storage changes. -/
def asksDiffs : ConfigMethod → Option Bool
  | .withStateDiffs => some true
  | .disableStateDiffs => some false
  | .setStateDiffs b | .setStepsAndStateDiffs b => some b
  | _ => none

/-- The same for logs. -/
def asksLogs : ConfigMethod → Option Bool
  | .recordLogs => some true
  | .disableRecordLogs => some false
  | .setRecordLogs b => some b
  | _ => none

/-- The same for leaving out calls of precompiles. -/
def asksExclude : ConfigMethod → Option Bool
  | .setExcludePrecompileCalls b => some b
  | _ => none

/-- `v` is what was asked last, or `start` if nothing was asked. -/
def LastAsked {α : Type} (asks : ConfigMethod → Option α) (calls : List ConfigMethod) (start v : α) : Prop :=
  (∃ before call after, calls = before ++ call :: after ∧ asks call = some v ∧ ∀ m ∈ after, asks m = none) ∨
  ((∀ m ∈ calls, asks m = none) ∧ v = start)

/-- The instructions that were started in a frame, in order. -/
def startedIn : Body → List Interp
  | .nil => []
  | .act (.step i _ _ _) rest => i :: startedIn rest
  | .act (.aborted i _) rest => i :: startedIn rest
  | .act _ rest => startedIn rest
  | .sub _ _ _ rest => startedIn rest

end Verif.Spec
