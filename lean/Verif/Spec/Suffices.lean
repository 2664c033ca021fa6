import Verif.Model.Parity
import Verif.Model.Geth
/-! Struct logs and a `vmTrace` from which everything that stems from snapshots of a kind is taken away. -/
namespace Verif.Spec
open Parity

/-- The answer with only the stacks, memories and storage maps that are asked for left in it. -/
def onlyOf (stack memory storage : Bool) (f : DefaultFrame) : DefaultFrame :=
  { f with structLogs := f.structLogs.map (fun l =>
      { l with
        stack := if stack then l.stack else none
        memory := if memory then l.memory else none
        storage := if storage then l.storage else none }) }

mutual
/-- The trace with only the pushed items, pieces of memory and storage entries that are asked for left in
its entries, those of the sub-traces included. -/
def vmOnly (push memory store : Bool) : VmTrace → VmTrace
  | .mk code ops => .mk code (vmOnlyList push memory store ops)
/-- The same for a list of entries. -/
def vmOnlyList (push memory store : Bool) : List VmInstruction → List VmInstruction
  | [] => []
  | x :: rest => vmOnlyIn push memory store x :: vmOnlyList push memory store rest
/-- The same for an entry. -/
def vmOnlyIn (push memory store : Bool) : VmInstruction → VmInstruction
  | .mk pc cost ex sub op =>
    .mk pc cost
      { ex with
        push := if push then ex.push else []
        mem := if memory then ex.mem else none
        store := if store then ex.store else none }
      (vmOnlyOpt push memory store sub) op
/-- An absent sub-trace stays absent. -/
def vmOnlyOpt (push memory store : Bool) : Option VmTrace → Option VmTrace
  | none => none
  | some v => some (vmOnly push memory store v)
end

end Verif.Spec
