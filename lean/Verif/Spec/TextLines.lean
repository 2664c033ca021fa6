import Verif.Spec.Writer
import Verif.Spec.ReadBack
/-!
# The lines a reader finds in the text of a trace

A reader cuts the text at the line breaks. `Doc.shown` lists the decoded texts that are printed: labels, names and
arguments of calls, decoded return values and logs, internal calls and lines of steps.
-/
namespace Verif.Spec

/-- The pieces of a text between its line breaks. -/
def cutLines : List Glyph → List (List Glyph)
  | [] => []
  | g :: r =>
    if g = .ch '\n' then [] :: cutLines r
    else match cutLines r with
      | [] => [[g]]
      | l :: ls => (g :: l) :: ls

/-- A line as it should be found: the drawing on the left and the text. -/
def Line.whole (l : Line) : List Glyph := margin l.level l.mark ++ l.text

/-- The decoded texts in the first line of a frame. -/
def headerShown (t : CallTrace) : List String :=
  t.decoded.label.toList ++
  if t.kind = .Create ∨ t.kind = .Create2 then []
  else match t.decoded.callData with
    | some d => String.ofList (d.signature.toList.takeWhile (· ≠ '(')) :: d.args
    | none => []

/-- The decoded texts of a log. -/
def logShown (l : CallLog) : List String :=
  match l.decoded.name with
  | some name => name :: (l.decoded.params.getD []).flatMap fun p => [p.1, p.2]
  | none => []

mutual
/-- The decoded texts that are printed for a frame. -/
def Doc.shown : Doc → List String
  | .mk x items => headerShown x.trace ++ (items.shown [] 0 ++ x.trace.decoded.returnData.toList)
/-- The decoded texts that are printed for the items of a frame; arguments as for the lines: the open internal calls,
innermost first, and the number of steps before the items. -/
def DocItems.shown (opens : List (Nat × Option (List String))) (n : Nat) : DocItems → List String
  | .nil => []
  | .log l rest => logShown l ++ rest.shown opens n
  | .sub d rest => d.shown ++ rest.shown opens n
  | .step s rest =>
    match opens with
    | (e, ret) :: opens' =>
      if e = n then ret.getD [] ++ rest.shown opens' (n + 1)
      else match s.decoded with
        | none => rest.shown opens (n + 1)
        | some (.line t) => t :: rest.shown opens (n + 1)
        | some (.internalCall c e') =>
          c.funcName :: (c.args.getD [] ++ rest.shown ((e', c.returnData) :: opens) (n + 1))
    | [] => match s.decoded with
        | none => rest.shown [] (n + 1)
        | some (.line t) => t :: rest.shown [] (n + 1)
        | some (.internalCall c e') =>
          c.funcName :: (c.args.getD [] ++ rest.shown [(e', c.returnData)] (n + 1))
end

/-- All decoded texts of a node. -/
def decodedTexts (x : Node) : List String :=
  x.trace.decoded.label.toList ++ x.trace.decoded.returnData.toList ++
  (match x.trace.decoded.callData with
    | some d => d.signature :: d.args
    | none => []) ++
  x.logs.flatMap (fun l => l.decoded.name.toList ++ (l.decoded.params.getD []).flatMap fun p => [p.1, p.2]) ++
  x.trace.steps.flatMap fun s => match s.decoded with
    | some (.line t) => [t]
    | some (.internalCall c _) => c.funcName :: (c.args.getD [] ++ c.returnData.getD [])
    | none => []

end Verif.Spec
