import Verif.Model.Inspector
/-! What it means that one configuration records less than another, and what is left of a recording
when the rest is taken away. -/
namespace Verif.Spec

/-- `less` records nothing that `more` does not: the same calls are left out, the same opcodes pass
the filter if `less` records steps at all, and every other option that is on in `less` is on in
`more`. -/
structure RecordsLess (less more : Config) : Prop where
  exclude : less.excludePrecompileCalls = more.excludePrecompileCalls
  filter : less.recordSteps = true → less.recordOpcodesFilter = more.recordOpcodesFilter
  steps : less.recordSteps = true → more.recordSteps = true
  logs : less.recordLogs = true → more.recordLogs = true
  memory : less.recordMemorySnapshots = true → more.recordMemorySnapshots = true
  returndata : less.recordReturndataSnapshots = true → more.recordReturndataSnapshots = true
  stateDiff : less.recordStateDiff = true → more.recordStateDiff = true
  stack : less.recordStackSnapshots = .None ∨ less.recordStackSnapshots = more.recordStackSnapshots

/-- A step without the snapshots that are off. -/
def keepFields (cfg : Config) (st : CallTraceStep) : CallTraceStep :=
  { st with
    stack := if cfg.recordStackSnapshots = .Full then st.stack else none
    pushStack := if cfg.recordStackSnapshots = .Pushes then st.pushStack else none
    memory := if cfg.recordMemorySnapshots then st.memory else none
    returndata := if cfg.recordReturndataSnapshots then st.returndata else []
    storageChange := if cfg.recordStateDiff then st.storageChange else none }

/-- Is an item of the ordering of a node kept? -/
def keepItem (cfg : Config) : TraceMemberOrder → Bool
  | .step _ => cfg.recordSteps
  | .log _ => cfg.recordLogs
  | .call _ => true

/-- A node without the steps, logs and snapshots that are off. -/
def keepOnly (cfg : Config) (x : Node) : Node :=
  { x with
    trace := { x.trace with
      steps := if cfg.recordSteps then x.trace.steps.map (keepFields cfg) else [] }
    logs := if cfg.recordLogs then x.logs else []
    ordering := x.ordering.filter (keepItem cfg) }

end Verif.Spec
