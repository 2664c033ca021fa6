import Verif.Spec.Parity
/-! Trees of parity traces, and how a tree is written as a flat list. -/
namespace Verif.Spec

/-- A trace with the traces below it. -/
inductive TraceTree where
  | node (action : Action) (error : Option String) (result : Option TraceOutput) (below : List TraceTree)

mutual
/-- The flat list of a tree: first the trace itself, then the trees below it one after the other; the address is
the path from the root, `subtraces` the number of trees directly below. -/
def TraceTree.flat (path : List Nat) : TraceTree → List TransactionTrace
  | .node a e r below =>
    { action := a, error := e, result := r, traceAddress := path, subtraces := below.length } ::
      flatAll path 0 below
def flatAll (path : List Nat) : Nat → List TraceTree → List TransactionTrace
  | _, [] => []
  | k, t :: ts => t.flat (path ++ [k]) ++ flatAll path (k + 1) ts
end

/-- The selfdestruct of a frame as a tree without further traces. -/
def sdLeaf (f : FrameCtx) : List TraceTree :=
  if selfdestructed f then
    [.node (.selfdestruct (frameData f).address (((lastSelfdestruct f.body).map (·.2.1)).getD 0)
      (((lastSelfdestruct f.body).map (·.2.2)).getD 0)) none none []]
  else []

/-- The error shown for a frame. -/
def frameError (f : FrameCtx) : Option String :=
  if f.out.result.result.isOk then none else some (errorText .Parity f.out.result.result)

/-- The trees of the shown calls of a body, in call order. -/
def forest (cfg : Config) (rootGas : Nat) : (d p : Nat) → (v : U256) → (n : Nat) → Body → List TraceTree
  | _, _, _, _, .nil => []
  | d, p, v, n, .act _ rest => forest cfg rootGas d p v n rest
  | d, p, v, n, .sub h b o rest =>
    if excluded cfg ⟨n, some p, d, some v, h, b, o⟩ then forest cfg rootGas d p v (n + 1 + b.size) rest
    else
      .node (action ⟨n, some p, d, some v, h, b, o⟩) (frameError ⟨n, some p, d, some v, h, b, o⟩)
        (outcome rootGas ⟨n, some p, d, some v, h, b, o⟩)
        (forest cfg rootGas (d + 1) n (valueInScope (some v) h) (n + 1) b ++ sdLeaf ⟨n, some p, d, some v, h, b, o⟩) ::
      forest cfg rootGas d p v (n + 1 + b.size) rest

/-- The tree of a transaction: its shown frames, and below each frame its shown calls in call order and last its
selfdestruct. -/
def traceTree (cfg : Config) (rootGas : Nat) (t : Tx) : TraceTree :=
  .node (action (rootOf t)) (frameError (rootOf t)) (outcome rootGas (rootOf t))
    (forest cfg rootGas 1 0 (valueInScope none t.hdr) 1 t.body ++ sdLeaf (rootOf t))

end Verif.Spec
