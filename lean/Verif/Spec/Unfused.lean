import Verif.Spec.Frames
/-! What two transactions leave in one recording: the specification of C120. -/
namespace Verif.Spec

/-- The position that the frame `i` of the second transaction has: the root is shared, the other frames
come after the `n` frames below the root of the first. -/
def movedTo (n i : Nat) : Nat := if i = 0 then 0 else i + n

/-- A node of the second transaction, its frames being moved. -/
def movedNode (n : Nat) (x : Node) : Node :=
  { x with parent := x.parent.map (movedTo n), children := x.children.map (movedTo n),
           idx := movedTo n x.idx }

/-- An entry of the ordering of the second root, after `c` children and `l` logs of the first. -/
def movedMember (c l : Nat) : TraceMemberOrder → TraceMemberOrder
  | .call k => .call (k + c)
  | .log k => .log (k + l)
  | .step k => .step k

/-- The root that two transactions share: the data (and the steps) of the second, the children, logs and
ordering of both. -/
def sharedRoot (n : Nat) (o x : Node) : Node :=
  { o with trace := x.trace
           children := o.children ++ x.children.map (movedTo n)
           logs := o.logs ++ x.logs
           ordering := o.ordering ++ x.ordering.map (movedMember o.children.length o.logs.length) }

/-- The recordings `first` and `second` in one arena. -/
def together : List Node → List Node → List Node
  | o :: os, x :: xs => sharedRoot os.length o x :: (os ++ xs.map (movedNode os.length))
  | first, [] => first
  | [], second => second

end Verif.Spec
