import Verif.Model.Writer
import Verif.Spec.Observe
import Verif.Spec.BigInt
/-!
# What the text of a trace should be

A `Doc` is the tree a reader of the text sees: frames with, between header and footer, their logs, steps
and sub-frames in order. `Doc.lines` says which lines are printed for it, by one pass over the items with
the list of the internal calls that are open; `Line.print` says how a line looks at its nesting level.
-/
namespace Verif.Spec

mutual
/-- A frame as shown: its node and what happened in it, in order. -/
inductive Doc where
  | mk (x : Node) (items : DocItems)
/-- The logs, steps and sub-frames of a frame in order. -/
inductive DocItems where
  | nil
  | log (l : CallLog) (rest : DocItems)
  | step (s : CallTraceStep) (rest : DocItems)
  | sub (d : Doc) (rest : DocItems)
end

mutual
/-- The document is the arena seen from node `idx`: the entries of the ordering list of each node are
looked up, sub-calls are followed. -/
def Unfolds (nodes : List Node) (idx : Nat) : Doc → Prop
  | .mk x items => nodes[idx]? = some x ∧ UnfoldsItems nodes idx x x.ordering 0 items
/-- The rest `os` of the ordering list of node `x`, `n` steps having been listed before. -/
def UnfoldsItems (nodes : List Node) (idx : Nat) (x : Node) (os : List TraceMemberOrder) (n : Nat) :
    DocItems → Prop
  | .nil => os = []
  | .log l rest => ∃ i os', os = .log i :: os' ∧ x.logs[i]? = some l ∧
      UnfoldsItems nodes idx x os' n rest
  | .step s rest => ∃ os', os = .step n :: os' ∧ x.trace.steps[n]? = some s ∧
      UnfoldsItems nodes idx x os' (n + 1) rest
  | .sub d rest => ∃ i c os', os = .call i :: os' ∧ x.children[i]? = some c ∧ idx < c ∧
      Unfolds nodes c d ∧ UnfoldsItems nodes idx x os' n rest
end

/-! ### Texts -/

/-- A text in a colour, if colours are on. -/
def painted (w : Writer.Settings) (c : Ansi) (s : String) : List Glyph :=
  if w.useColors then .on c :: (txt s ++ [.off]) else txt s

/-- Blue for the cheatcode account if asked for, otherwise green or red. -/
def frameColor (w : Writer.Settings) (t : CallTrace) : Ansi :=
  if w.colorCheatcodes = true ∧ t.address = 0x7109709ECfa91a80626fF3989D68f67F5b1DD12D then .blue
  else if t.success then .green else .red

/-- The suffix that names the kind of a call. -/
def kindSuffix : CallKind → Option String
  | .StaticCall => some " [staticcall]"
  | .CallCode => some " [callcode]"
  | .DelegateCall => some " [delegatecall]"
  | .AuthCall => some " [authcall]"
  | _ => none

/-- Function name and arguments of a call: decoded if known, else selector and rest in hex. -/
def shownCall (t : CallTrace) : String × String :=
  match t.decoded.callData, t.data with
  | some d, _ => (String.ofList (d.signature.toList.takeWhile (· ≠ '(')), String.intercalate ", " d.args)
  | none, a :: b :: c :: d :: rest =>
    (String.ofList (hexEncode [a, b, c, d]), String.ofList (hexEncode rest))
  | none, short => ("fallback", String.ofList (hexEncode short))

/-- The first line of a frame. -/
def headerText (w : Writer.Settings) (t : CallTrace) : List Glyph :=
  txt s!"[{t.gasUsed}] " ++
  if t.kind = .Create ∨ t.kind = .Create2 then
    painted w .yellow "→ new" ++
      txt s!" {t.decoded.label.getD "<unknown>"}@{w.checksum t.address}"
  else
    painted w (frameColor w t) (t.decoded.label.getD (w.checksum t.address)) ++ txt "::" ++
    painted w (frameColor w t) (shownCall t).1 ++
    (if t.value = 0 then [] else txt ("{value: " ++ toString t.value.toNat ++ "}")) ++
    txt s!"({(shownCall t).2})" ++
    (match kindSuffix t.kind with
      | some s => painted w .yellow s
      | none => [])

/-- The last line of a frame. -/
def footerText (w : Writer.Settings) (t : CallTrace) : List Glyph :=
  painted w (frameColor w t) s!"← [{t.status.debug}] " ++
  match t.decoded.returnData with
  | some d => txt d
  | none =>
    if t.kind = .Create ∨ t.kind = .Create2 then txt s!"{t.output.length} bytes of code"
    else if t.output = [] then []
    else txt ("0x" ++ String.ofList (hexEncode t.output))

/-- How a line is connected to the tree drawn on its left. -/
inductive Mark where
  | branch | pipes | edge

/-- A line of output. -/
structure Line where
  level : Nat
  mark : Mark
  text : List Glyph

/-- The drawing on the left of a line. -/
def margin (level : Nat) : Mark → List Glyph
  | .branch => txt "  " ++ (List.replicate (level - 1) (txt "  │ ")).flatten ++
      (if level = 0 then [] else txt "  ├─ ")
  | .pipes => txt "  " ++ (List.replicate (level - 1) (txt "  │ ")).flatten ++ txt "  │ "
  | .edge => txt "  " ++ (List.replicate (level - 1) (txt "  │ ")).flatten ++ txt "  └─ "

/-- What is printed for a line. -/
def Line.print (l : Line) : List Glyph := margin l.level l.mark ++ l.text ++ [.ch '\n']

/-- What is printed for lines. -/
def printLines (ls : List Line) : List Glyph := ls.flatMap Line.print

/-- The 64 hexadecimal digits of a word, the most significant first. -/
def wordDigits (w : U256) : List Char :=
  (List.range 64).map fun i => digit (w.toNat / 16 ^ (63 - i) % 16)

/-- The text of the `i`-th topic of an undecoded log. -/
def topicText (w : Writer.Settings) (topic : U256) (i : Nat) : List Glyph :=
  txt (if i = 0 then " emit topic 0: " else s!"       topic {i}: ") ++
    painted w .cyan ("0x" ++ String.ofList (wordDigits topic))

/-- The lines of a log. -/
def logLines (w : Writer.Settings) (level : Nat) (l : CallLog) : List Line :=
  match l.decoded.name with
  | some name =>
    [⟨level, .branch, txt s!"emit {name}(" ++
      painted w .cyan (String.intercalate ", " ((l.decoded.params.getD []).map
        fun p => s!"{p.1}: {p.2}")) ++ txt ")"⟩]
  | none =>
    let data := txt "          data: " ++
      painted w .cyan ("0x" ++ String.ofList (hexEncode l.rawLog.data))
    match l.rawLog.topics with
    | [] => [⟨level, .branch, data⟩]
    | t :: ts => ⟨level, .branch, topicText w t 0⟩ ::
        ((ts.zipIdx 1).map (fun p => ⟨level, .pipes, topicText w p.1 p.2⟩) ++ [⟨level, .pipes, data⟩])

/-- Gas used between two steps of a frame. -/
def gasBetween (x : Node) (s : CallTraceStep) (last : Nat) : Nat :=
  match x.trace.steps[last]? with
  | some e => e.gasUsed - s.gasUsed
  | none => 0

/-- The first line of an internal call. -/
def internalText (x : Node) (s : CallTraceStep) (c : DecodedInternalCall) (last : Nat) : List Glyph :=
  txt (s!"[{gasBetween x s last}] {c.funcName}" ++
    match c.args with
    | some args => "(" ++ String.intercalate ", " args ++ ")"
    | none => "")

/-- The last line of an internal call. -/
def internalEnd (ret : Option (List String)) : List Glyph :=
  txt ("← " ++ String.intercalate ", " (ret.getD []))

mutual
/-- The lines of a frame shown at `level`. -/
def Doc.lines (w : Writer.Settings) (level : Nat) : Doc → List Line
  | .mk x items => ⟨level, .branch, headerText w x.trace⟩ ::
      (items.lines w x (level + 1) [] 0 ++ [⟨level + 1, .edge, footerText w x.trace⟩])
/-- The lines of the items of a frame; `opens` are the open internal calls, innermost first, each with
the step at which it ends and what it returns, and `n` is the number of steps before the items. -/
def DocItems.lines (w : Writer.Settings) (x : Node) (base : Nat)
    (opens : List (Nat × Option (List String))) (n : Nat) : DocItems → List Line
  | .nil => []
  | .log l rest => logLines w (base + opens.length) l ++ rest.lines w x base opens n
  | .sub d rest => d.lines w (base + opens.length) ++ rest.lines w x base opens n
  | .step s rest =>
    match opens with
    | (e, ret) :: opens' =>
      if e = n then
        ⟨base + opens.length, .edge, internalEnd ret⟩ :: rest.lines w x base opens' (n + 1)
      else match s.decoded with
        | none => rest.lines w x base opens (n + 1)
        | some (.line t) => ⟨base + opens.length, .branch, txt t⟩ :: rest.lines w x base opens (n + 1)
        | some (.internalCall c e') =>
          ⟨base + opens.length, .branch, internalText x s c e'⟩ ::
            rest.lines w x base ((e', c.returnData) :: opens) (n + 1)
    | [] => match s.decoded with
        | none => rest.lines w x base [] (n + 1)
        | some (.line t) => ⟨base, .branch, txt t⟩ :: rest.lines w x base [] (n + 1)
        | some (.internalCall c e') =>
          ⟨base, .branch, internalText x s c e'⟩ ::
            rest.lines w x base [(e', c.returnData)] (n + 1)
end

mutual
/-- The decoded internal calls of all frames are properly nested: each ends at a later step of its
frame, strictly before the end of the internal call around it. -/
def Doc.Nested : Doc → Prop
  | .mk _ items => items.Nested [] 0
/-- `opens` are the ends of the open internal calls, innermost first. -/
def DocItems.Nested (opens : List Nat) (n : Nat) : DocItems → Prop
  | .nil => opens = []
  | .log _ rest => rest.Nested opens n
  | .sub d rest => d.Nested ∧ rest.Nested opens n
  | .step s rest =>
    if opens.head? = some n then rest.Nested opens.tail (n + 1)
    else match s.decoded with
      | some (.internalCall _ e) =>
        n < e ∧ (∀ o, opens.head? = some o → e < o) ∧ rest.Nested (e :: opens) (n + 1)
      | _ => rest.Nested opens (n + 1)
end

/-! ### The execution a document shows -/

mutual
/-- The observable content of a document. -/
inductive Tree where
  | mk (d : FrameData) (items : Forest)
inductive Forest where
  | nil
  | log (l : LogData) (rest : Forest)
  | step (s : StepView) (rest : Forest)
  | sub (t : Tree) (rest : Forest)
end

mutual
def Doc.view : Doc → Tree
  | .mk x items => .mk (readFrame x) items.view
def DocItems.view : DocItems → Forest
  | .nil => .nil
  | .log l rest => .log l.rawLog rest.view
  | .step s rest => .step (readStep s) rest.view
  | .sub d rest => .sub d.view rest.view
end

/-- The tree of an execution as far as the configuration asks to record it: frames that are left out of
the call graph are not shown. Arguments as in `bodyItems`. -/
def execForest (cfg : Config) (d p : Nat) (v : U256) (n : Nat) : Body → Forest
  | .nil => .nil
  | .act a rest =>
    let rest' := execForest cfg d p v n rest
    match bodyItems cfg d p v n (.act a .nil) with
    | [.step s] => .step s rest'
    | [.log l] => .log l rest'
    | _ => rest'
  | .sub h b o rest =>
    let f : FrameCtx := ⟨n, some p, d, some v, h, b, o⟩
    let rest' := execForest cfg d p v (n + 1 + b.size) rest
    if excluded cfg f then rest'
    else .sub (.mk (frameData f) (execForest cfg (d + 1) n (valueInScope (some v) h) (n + 1) b)) rest'

/-- The tree of a transaction. -/
def execTree (cfg : Config) (t : Tx) : Tree :=
  .mk (frameData ⟨0, none, 0, none, t.hdr, t.body, t.out⟩)
    (execForest cfg 1 0 (valueInScope none t.hdr) 1 t.body)

/-! ### Decoded information -/

/-- A node without decoded information. -/
def stripNode (x : Node) : Node :=
  { x with
    trace := { x.trace with
      decoded := {}
      steps := x.trace.steps.map fun s => { s with decoded := none } }
    logs := x.logs.map fun l => { l with decoded := {} } }

/-- The arena differs from another one at most in decoded information: labels, decoded calls, return
values and logs, and the decoded steps. -/
def Decorates (nodes arena : List Node) : Prop := nodes.map stripNode = arena.map stripNode

/-- Only characters, no escape sequences. -/
def dropColors (g : List Glyph) : List Glyph :=
  g.filter fun | .ch _ => true | _ => false

end Verif.Spec
