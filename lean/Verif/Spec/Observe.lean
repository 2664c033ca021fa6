import Verif.Spec.Frames
/-! What a user reads off a recorded node. Only field accesses. -/
namespace Verif.Spec

/-- The frame data shown by a node. -/
def readFrame (x : Node) : FrameData where
  parent := x.parent
  depth := x.trace.depth
  kind := x.trace.kind
  caller := x.trace.caller
  address := x.trace.address
  value := x.trace.value
  input := x.trace.data
  output := x.trace.output
  status := x.trace.status
  success := x.trace.success
  refundTarget := x.trace.selfdestructRefundTarget
  refundValue := x.trace.selfdestructTransferredValue

/-- The view of a recorded step. -/
def readStep (s : CallTraceStep) : StepView where
  depth := s.depth
  pc := s.pc
  op := s.op
  contract := s.contract
  gasRemaining := s.gasRemaining
  stack := s.stack
  returndata := s.returndata
  hasMemory := s.memory.isSome
  pushStack := s.pushStack
  gasCost := s.gasCost
  status := s.status

/-- Resolve one entry of the ordering list of a node; `none` if the index points nowhere. -/
def resolve (x : Node) : TraceMemberOrder → Option Item
  | .step i => (x.trace.steps[i]?).map (fun s => .step (readStep s))
  | .log i => (x.logs[i]?).map (fun l => .log l.rawLog)
  | .call i => (x.children[i]?).map .call

/-- The steps among the items. -/
def stepItems (l : List Item) : List StepView :=
  l.filterMap fun | .step v => some v | _ => none
/-- The logs among the items. -/
def logItems (l : List Item) : List LogData :=
  l.filterMap fun | .log v => some v | _ => none
/-- The calls among the items. -/
def callItems (l : List Item) : List Nat :=
  l.filterMap fun | .call v => some v | _ => none

end Verif.Spec
