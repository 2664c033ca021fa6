import Verif.Spec.Writer
import Verif.Spec.CallFrames
/-! Which arenas can be printed: the specification of C134. -/
namespace Verif.Spec

/-- Printing node `idx` leads to node `i`, `d` frames below it. -/
inductive LeadsTo (nodes : List Node) : Nat → Nat → Nat → Prop
  | here (idx : Nat) : LeadsTo nodes idx idx 0
  | into {idx i d k c : Nat} {x : Node} : nodes[idx]? = some x → .call k ∈ x.ordering →
      x.children[k]? = some c → LeadsTo nodes c i d → LeadsTo nodes idx i (d + 1)

/-- The entry of the ordering list refers to something the node has. -/
def Refers (x : Node) : TraceMemberOrder → Prop
  | .log i => i < x.logs.length
  | .step i => i < x.trace.steps.length
  | .call i => i < x.children.length

/-- The arena can be printed from node `idx`, at indentation `level`: every node to which printing leads is
there, all entries of its ordering list refer to something, and its lines can be indented. -/
def Printable (nodes : List Node) (level idx : Nat) : Prop :=
  ∀ i d, LeadsTo nodes idx i d →
    level + d + 1 < 65536 ∧ ∃ x, nodes[i]? = some x ∧ ∀ o ∈ x.ordering, Refers x o

/-- An entry of the ordering list that is not a step. -/
def notStep : TraceMemberOrder → Bool
  | .step _ => false
  | _ => true

/-- The node without its steps. -/
def withoutSteps (x : Node) : Node :=
  { x with trace := { x.trace with steps := [] }, ordering := x.ordering.filter notStep }

/-- The data of the frame a document shows. -/
def Doc.rootTrace : Doc → CallTrace
  | .mk x _ => x.trace

/-- The lines between the first and the last line of a frame shown at `level`. -/
def Doc.inside (w : Writer.Settings) (level : Nat) : Doc → List Line
  | .mk x items => items.lines w x (level + 1) [] 0

/-- The number of steps that are recorded in the root of a transaction. -/
def rootSteps (cfg : Config) (t : Tx) : Nat := (stepItems (items cfg (rootOf t))).length

end Verif.Spec
