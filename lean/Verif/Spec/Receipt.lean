import Verif.Spec.CallFrames
/-! The logs of a transaction, and the logs that a tree of call frames shows. -/
namespace Verif.Spec

/-- The logs that a frame and the frames below leave behind if the frame succeeds, in the order of their
emission: what a sub-frame that failed emitted is taken back. -/
def keptLogs : Body → List Log
  | .nil => []
  | .act (.log _ l) rest => l :: keptLogs rest
  | .act _ rest => keptLogs rest
  | .sub _ b o rest => (if o.result.result.isOk then keptLogs b else []) ++ keptLogs rest

/-- The logs in the receipt of a transaction. -/
def receiptLogs (t : Tx) : List Log := if t.out.result.result.isOk then keptLogs t.body else []

mutual
/-- The logs of a call frame and of the frames below it. -/
def shownLogs : CallFrame → List CallLogFrame
  | ⟨_, _, _, _, _, _, _, _, _, _, calls, logs⟩ => logs ++ logsBelow calls
def logsBelow : List CallFrame → List CallLogFrame
  | [] => []
  | c :: cs => shownLogs c ++ logsBelow cs
end

/-- A log in a call frame. -/
def asShown (l : Log) : CallLogFrame := ⟨some l.address, some l.data.topics, some l.data.data⟩

/-- No frame emits a log after a sub-frame that left logs behind. -/
def LogsFirst : Body → Prop
  | .nil => True
  | .act _ rest => LogsFirst rest
  | .sub _ b o rest => LogsFirst b ∧ LogsFirst rest ∧
    ((o.result.result.isOk = true ∧ keptLogs b ≠ []) → emitted rest = [])

end Verif.Spec
