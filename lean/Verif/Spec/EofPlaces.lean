import Verif.Spec.Eof
import Verif.Spec.Frames
/-!
# Where the frames of an execution with EOFCREATE are put

The frames that are recorded are those entered by a call or a create. This file says which of them they find
as their parent, and when they find none. It does not mention any definition of the recording model.
-/
namespace Verif.Spec

/-- Left out of the children of its parent: exclusion is on, a call to a precompile, with no value in scope;
`v` is the value in scope of the innermost recorded frame. -/
def leftOut (cfg : Config) (v : U256) (h : Header) : Bool :=
  cfg.excludePrecompileCalls && h.isPrecompile && valueInScope (some v) h == 0

/-- A frame entered by a call or a create. -/
structure Entered where
  /-- the number of frames open when it is entered, those of EOFCREATE included -/
  depth : Nat
  /-- it is listed among the children of its parent -/
  shown : Bool
  /-- the recorded frames open when it is entered, the innermost first -/
  opened : List Nat
  /-- the frame that enters it is a recorded one, not one of EOFCREATE -/
  direct : Bool
  deriving DecidableEq, Repr

end Verif.Spec

namespace Verif

/-- The number of frames below entered by a call or a create. -/
def EofBody.calls : EofBody → Nat
  | .nil => 0
  | .act _ rest => rest.calls
  | .sub _ b _ rest => 1 + b.calls + rest.calls
  | .eof _ _ _ b rest => b.calls + rest.calls

/-- Every completed step below satisfies `StepSafe`. -/
def EofBody.Safe (cfg : Config) : EofBody → Prop
  | .nil => True
  | .act a rest => (∀ i c i' c', a = .step i c i' c' → StepSafe cfg i c i' c') ∧ rest.Safe cfg
  | .sub _ b _ rest => b.Safe cfg ∧ rest.Safe cfg
  | .eof _ _ _ b rest => b.Safe cfg ∧ rest.Safe cfg

/-- As `Body.WF`: what every revm execution satisfies. -/
def EofBody.WF : EofBody → Prop
  | .nil => True
  | .act _ rest => rest.WF
  | .sub h b _ rest => h.WF ∧ (h.isPrecompile = true → b.calls = 0) ∧ b.WF ∧ rest.WF
  | .eof _ _ _ b rest => b.WF ∧ rest.WF

end Verif

namespace Verif.Spec

/-- The frames below entered by a call or a create, in the order in which they are entered: `d` frames are
open now, `os` are the recorded ones among them, `v` is the value in scope of the innermost of these, `direct`
says whether that is the innermost of all, and the first frame to come has the number `n`. -/
def entered (cfg : Config) : (d : Nat) → (v : U256) → (os : List Nat) → (direct : Bool) → (n : Nat) →
    EofBody → List Entered
  | _, _, _, _, _, .nil => []
  | d, v, os, dir, n, .act _ rest => entered cfg d v os dir n rest
  | d, v, os, dir, n, .sub h b _ rest =>
    ⟨d, !leftOut cfg v h, os, dir⟩ ::
      (entered cfg (d + 1) (valueInScope (some v) h) (n :: os) true (n + 1) b ++
        entered cfg d v os dir (n + 1 + b.calls) rest)
  | d, v, os, dir, n, .eof _ _ _ b rest =>
    entered cfg (d + 1) v os false n b ++ entered cfg d v os dir (n + b.calls) rest

/-- The parent a frame entered at depth `d` finds, `hist` being the depths and the numbers of the shown frames
so far, the last first: the last one a step above. There is none if the last frame of all is not that deep. -/
def parentAt (hist : List (Nat × Nat)) (d : Nat) : Option Nat :=
  match hist with
  | [] => none
  | (deepest, _) :: _ => if d ≤ deepest + 1 then (hist.find? (·.1 == d - 1)).map (·.2) else none

/-- The parents the frames find, one after the other, the first having the number `n`; `none` if one of them
finds none. -/
def placed : (hist : List (Nat × Nat)) → (n : Nat) → List Entered → Option (List Nat)
  | _, _, [] => some []
  | hist, n, e :: l =>
    match parentAt hist e.depth with
    | none => none
    | some p => (placed (if e.shown then (e.depth, n) :: hist else hist) (n + 1) l).map (p :: ·)

/-- The parents the frames of a transaction find. -/
def parents (cfg : Config) (t : EofTx) : Option (List Nat) :=
  placed [(0, 0)] 1 (entered cfg 1 (valueInScope none t.hdr) [0] true 1 t.body)

end Verif.Spec
