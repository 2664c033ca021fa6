import Verif.Model.Parity
/-! The parity traces of several transactions in one list: the specification of C136. -/
namespace Verif.Spec
open Verif

/-- A path below the root of the second transaction, after `c` calls of the first. -/
def laterPath (c : Nat) : List Nat → List Nat
  | [] => []
  | k :: path => (k + c) :: path

/-- A trace below the root of the second transaction, after `c` calls of the first. -/
def laterTrace (c : Nat) (tr : TransactionTrace) : TransactionTrace :=
  { tr with traceAddress := laterPath c tr.traceAddress }

/-- The trace of the selfdestruct of a root frame. -/
def rootEnd (tr : TransactionTrace) : Bool :=
  match tr.action with
  | .selfdestruct .. => tr.traceAddress.length == 1
  | _ => false

/-- The traces `first` and those of a transaction after it. There is one root, which is that of the second with
the calls of both; the selfdestruct of the second root, if any, but not that of the first; then the other traces
of the first, then those of the second, with paths that count the calls `c` of the first. -/
def joinTraces : List TransactionTrace → List TransactionTrace → List TransactionTrace
  | a :: as, b :: bs =>
    let c := a.subtraces - (as.filter rootEnd).length
    { b with subtraces := c + b.subtraces } :: ((bs.filter rootEnd).map (laterTrace c) ++
      as.filter (fun tr => !rootEnd tr) ++ (bs.filter (fun tr => !rootEnd tr)).map (laterTrace c))
  | first, [] => first
  | [], second => second

end Verif.Spec
