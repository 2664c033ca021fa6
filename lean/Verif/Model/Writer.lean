import Verif.Model.Geth
/-! Model of /repo/src/tracing/writer.rs, the text writer of call traces.

What is written is a list of glyphs: characters, and the escape sequences that switch a colour on and
off (`anstyle`). One `write!`, `writeln!` or `write_all` of the code is one `emit` of the model. The
sink is any `std::io::Write`: a `Sink` says for the `n`-th write whether it succeeds, or after how many
glyphs it fails (a failure in the middle of one UTF-8 character or of one escape sequence is not
distinguished). -/
namespace Verif

/-- The colours of /repo/src/tracing/writer.rs:21-22,374-380 (`anstyle::AnsiColor`). -/
inductive Ansi where
  | yellow | cyan | blue | green | red
  deriving DecidableEq, Repr

/-- A unit of output: a character, or an escape sequence of `anstyle` (`{style}` / `{style:#}`).
/repo/src/tracing/writer.rs:166-220. -/
inductive Glyph where
  | ch (c : Char)
  | on (c : Ansi)
  | off
  deriving DecidableEq, Repr

/-- The glyphs of a string. /repo/src/tracing/writer.rs:166-220. -/
def txt (s : String) : List Glyph := s.toList.map .ch

namespace Writer

/-- /repo/src/tracing/writer.rs:13 `CHEATCODE_ADDRESS`. -/
def cheatcodeAddress : Address := 0x7109709ECfa91a80626fF3989D68f67F5b1DD12D
/-- /repo/src/tracing/writer.rs:15. -/
def PIPE : String := "  │ "
/-- /repo/src/tracing/writer.rs:16. -/
def EDGE : String := "  └─ "
/-- /repo/src/tracing/writer.rs:17. -/
def BRANCH : String := "  ├─ "
/-- /repo/src/tracing/writer.rs:18. -/
def CALL : String := "→ "
/-- /repo/src/tracing/writer.rs:19. -/
def RETURN : String := "← "

/-- /repo/src/tracing/writer.rs:28-33, the settings of a `TraceWriter`. `checksum` stands for
`Address::to_checksum_buffer` (the EIP-55 text of an address, an alloy function), which is a
parameter of the model. -/
structure Settings where
  useColors : Bool
  colorCheatcodes : Bool
  checksum : Address → String

/-- The sink under the writer: for the `n`-th write, `none` if it succeeds and `some k` if it fails
after `k` glyphs. /repo/src/tracing/writer.rs:28-35. -/
structure Sink where
  fault : Nat → Option Nat
  flushFails : Bool

/-- /repo/src/tracing/writer.rs:28-33, the changing part of a `TraceWriter`: what the inner writer
received, the number of writes so far, and the `u16` indentation level. -/
structure State where
  out : List Glyph := []
  writes : Nat := 0
  indent : Nat := 0
  deriving DecidableEq, Repr

/-- Why a call did not return `Ok`. /repo/src/tracing/writer.rs:87-90. -/
inductive Fail where
  | io
  | panic (p : Panic)
  deriving DecidableEq, Repr

/-- A method of the writer: result and the state it leaves, also when it fails.
/repo/src/tracing/writer.rs:87-370. -/
def W (α : Type) : Type := State → Except Fail α × State

/-- The `?` operator. /repo/src/tracing/writer.rs:87-370. -/
def W.bind (m : W α) (f : α → W β) : W β := fun s =>
  match m s with
  | (.ok a, s') => f a s'
  | (.error e, s') => (.error e, s')

instance : Monad W where
  pure a := fun s => (.ok a, s)
  bind := W.bind

/-- A Rust panic. /repo/src/tracing/writer.rs:87-370. -/
def panic (p : Panic) : W α := fun s => (.error (.panic p), s)

/-- Indexing `v[i]`. /repo/src/tracing/writer.rs:97-118. -/
def index (l : List α) (i : Nat) : W α := fun s =>
  match l[i]? with
  | some a => (.ok a, s)
  | none => (.error (.panic .index), s)

/-- One `write!` / `write_all` on the inner writer. /repo/src/tracing/writer.rs:149, 167 and the like. -/
def emit (k : Sink) (g : List Glyph) : W Unit := fun s =>
  match k.fault s.writes with
  | none => (.ok (), { s with out := s.out ++ g, writes := s.writes + 1 })
  | some n => (.error .io, { s with out := s.out ++ g.take n, writes := s.writes + 1 })

/-- The current `indentation_level`. /repo/src/tracing/writer.rs:344, 353. -/
def getIndent : W Nat := fun s => (.ok s.indent, s)

/-- `self.indentation_level += 1` on a `u16` (with overflow checks). /repo/src/tracing/writer.rs:152, 283. -/
def indentUp : W Unit := fun s =>
  if s.indent + 1 < 65536 then (.ok (), { s with indent := s.indent + 1 })
  else (.error (.panic .arith), s)

/-- `self.indentation_level -= 1` on a `u16` (with overflow checks). /repo/src/tracing/writer.rs:160, 307. -/
def indentDown : W Unit := fun s =>
  if s.indent = 0 then (.error (.panic .arith), s)
  else (.ok (), { s with indent := s.indent - 1 })

/-- A style: nothing for `Style::default()`, or a foreground colour. /repo/src/tracing/writer.rs:370-396. -/
abbrev Style := Option Ansi

/-- `{style}`. /repo/src/tracing/writer.rs:216. -/
def Style.start : Style → List Glyph
  | none => []
  | some c => [.on c]
/-- `{style:#}`. /repo/src/tracing/writer.rs:216. -/
def Style.stop : Style → List Glyph
  | none => []
  | some _ => [.off]

/-- /repo/src/tracing/writer.rs:370-382 `trace_style`. -/
def traceStyle (w : Settings) (t : CallTrace) : Style :=
  if !w.useColors then none
  else if w.colorCheatcodes && decide (t.address = cheatcodeAddress) then some .blue
  else if t.success then some .green
  else some .red

/-- /repo/src/tracing/writer.rs:384-389 `trace_kind_style`. -/
def traceKindStyle (w : Settings) : Style := if !w.useColors then none else some .yellow

/-- /repo/src/tracing/writer.rs:391-396 `log_style`. -/
def logStyle (w : Settings) : Style := if !w.useColors then none else some .cyan

/-- `n` times the pipe, the loop of /repo/src/tracing/writer.rs:344-346. -/
def writePipesLoop (k : Sink) : Nat → W Unit
  | 0 => pure ()
  | n + 1 => do
    emit k (txt PIPE)
    writePipesLoop k n

/-- /repo/src/tracing/writer.rs:342-348 `write_indentation`; `1..level` has `level - 1` elements. -/
def writeIndentation (k : Sink) : W Unit := do
  emit k (txt "  ")
  let level ← getIndent
  writePipesLoop k (level - 1)

/-- /repo/src/tracing/writer.rs:351-357 `write_branch`. -/
def writeBranch (k : Sink) : W Unit := do
  writeIndentation k
  let level ← getIndent
  (if level ≠ 0 then emit k (txt BRANCH) else pure ())

/-- /repo/src/tracing/writer.rs:360-363 `write_pipes`. -/
def writePipes (k : Sink) : W Unit := do
  writeIndentation k
  emit k (txt PIPE)

/-- /repo/src/tracing/writer.rs:365-368 `write_edge`. -/
def writeEdge (k : Sink) : W Unit := do
  writeIndentation k
  emit k (txt EDGE)

/-- `hex::encode` as a string. /repo/src/tracing/writer.rs:186-189. -/
def hexString (bs : Bytes) : String := String.ofList (hexEncode bs)

/-- `Display` of alloy's `Bytes`: `0x` and the hex digits. -/
def bytesString (bs : Bytes) : String := "0x" ++ hexString bs

/-- The 32 big-endian bytes of a word. /repo/src/tracing/writer.rs:241-250. -/
def wordBytes (w : U256) : Bytes :=
  (List.range 32).map fun i => UInt8.ofNat (w.toNat / 256 ^ (31 - i) % 256)

/-- `Display` of alloy's `B256`. -/
def topicString (w : U256) : String := "0x" ++ hexString (wordBytes w)

/-- `signature.split('(').next()`: the part before the first parenthesis. /repo/src/tracing/writer.rs:181. -/
def beforeParen (s : String) : String := String.ofList (s.toList.takeWhile (· ≠ '('))

/-- /repo/src/tracing/writer.rs:179-192: name and arguments shown for a call. -/
def callText (t : CallTrace) : String × String :=
  match t.decoded.callData with
  | some d => (beforeParen d.signature, String.intercalate ", " d.args)
  | none =>
    if t.data.length < 4 then ("fallback", hexString t.data)
    else (hexString (t.data.take 4), hexString (t.data.drop 4))

/-- /repo/src/tracing/writer.rs:207-214: the suffix of a call; `unreachable!()` for creations. -/
def callAction : CallKind → W (Option String)
  | .Call => pure none
  | .StaticCall => pure (some " [staticcall]")
  | .CallCode => pure (some " [callcode]")
  | .DelegateCall => pure (some " [delegatecall]")
  | .AuthCall => pure (some " [authcall]")
  | .Create | .Create2 => panic .unreachable

/-- /repo/src/tracing/writer.rs:166-221 `write_trace_header`. -/
def writeTraceHeader (w : Settings) (k : Sink) (t : CallTrace) : W Unit := do
  emit k (txt "[" ++ txt (toString t.gasUsed) ++ txt "] ")
  let ks := traceKindStyle w
  let address := w.checksum t.address
  if t.kind.isAnyCreate then
    emit k (ks.start ++ txt CALL ++ txt "new" ++ ks.stop ++ txt " " ++
      txt (t.decoded.label.getD "<unknown>") ++ txt "@" ++ txt address)
  else do
    let style := traceStyle w t
    emit k (style.start ++ txt (t.decoded.label.getD address) ++ style.stop ++ txt "::" ++
      style.start ++ txt (callText t).1 ++ style.stop)
    (if t.value ≠ 0 then emit k (txt "{value: " ++ txt (toString t.value.toNat) ++ txt "}")
      else pure ())
    emit k (txt "(" ++ txt (callText t).2 ++ txt ")")
    let action ← callAction t.kind
    match action with
    | some a => emit k (ks.start ++ txt a ++ ks.stop)
    | none => pure ()

/-- /repo/src/tracing/writer.rs:321-340 `write_trace_footer`. -/
def writeTraceFooter (w : Settings) (k : Sink) (t : CallTrace) : W Unit := do
  let style := traceStyle w t
  emit k (style.start ++ txt RETURN ++ txt "[" ++ txt t.status.debug ++ txt "] " ++ style.stop)
  match t.decoded.returnData with
  | some d => emit k (txt d)
  | none =>
    if t.kind.isAnyCreate then emit k (txt (toString t.output.length) ++ txt " bytes of code")
    else if !t.output.isEmpty then emit k (txt (bytesString t.output))
    else pure ()

/-- /repo/src/tracing/writer.rs:230-235: the parameters of a decoded log, `i` the position of the
first of them. -/
def writeParams (k : Sink) : Nat → List (String × String) → W Unit
  | _, [] => pure ()
  | i, (name, value) :: rest => do
    (if i > 0 then emit k (txt ", ") else pure ())
    emit k (txt name ++ txt ": " ++ txt value)
    writeParams k (i + 1) rest

/-- /repo/src/tracing/writer.rs:239-247: the topics of an undecoded log, `i` the position of the
first of them. -/
def writeTopics (w : Settings) (k : Sink) : Nat → List U256 → W Unit
  | _, [] => pure ()
  | i, topic :: rest => do
    (if i = 0 then emit k (txt " emit topic 0")
      else do
        writePipes k
        emit k (txt "       topic " ++ txt (toString i)))
    emit k (txt ": " ++ (logStyle w).start ++ txt (topicString topic) ++ (logStyle w).stop ++ txt "\n")
    writeTopics w k (i + 1) rest

/-- /repo/src/tracing/writer.rs:223-260 `write_log`. -/
def writeLog (w : Settings) (k : Sink) (l : CallLog) : W Unit := do
  writeBranch k
  match l.decoded.name with
  | some name =>
    emit k (txt "emit " ++ txt name ++ txt "(" ++ (logStyle w).start)
    (match l.decoded.params with
      | some params => writeParams k 0 params
      | none => pure ())
    emit k ((logStyle w).stop ++ txt ")" ++ txt "\n")
  | none =>
    writeTopics w k 0 l.rawLog.topics
    (if !l.rawLog.topics.isEmpty then writePipes k else pure ())
    emit k (txt "          data: " ++ (logStyle w).start ++ txt (bytesString l.rawLog.data) ++
      (logStyle w).stop ++ txt "\n")

/-- The predicates passed to `write_items_until`. /repo/src/tracing/writer.rs:138, 294-297. -/
inductive Until where
  /-- /repo/src/tracing/writer.rs:138: the index equals the given number -/
  | at (n : Nat)
  /-- /repo/src/tracing/writer.rs:294-296: the item is the given step -/
  | step (endIdx : Nat)

/-- Evaluation of the predicate on an item index of a node. /repo/src/tracing/writer.rs:138, 294-297. -/
def Until.eval (u : Until) (x : Node) (i : Nat) : W Bool :=
  match u with
  | .at n => pure (decide (i = n))
  | .step e => do
    let o ← index x.ordering i
    pure (decide (o = .step e))

/- The recursive part. The Rust functions recurse without a bound; the model spends one unit of fuel
per call and per loop iteration and reports `diverge` when it runs out. -/
mutual
/-- /repo/src/tracing/writer.rs:97-115 `write_item`. -/
def writeItem (w : Settings) (k : Sink) (nodes : List Node) : Nat → Nat → Nat → W Nat
  | 0, _, _ => panic .diverge
  | fuel + 1, nodeIdx, itemIdx => do
    let node ← index nodes nodeIdx
    match ← index node.ordering itemIdx with
    | .log i => do
      let l ← index node.logs i
      writeLog w k l
      pure (itemIdx + 1)
    | .call i => do
      let c ← index node.children i
      writeNode w k nodes fuel c
      pure (itemIdx + 1)
    | .step i => writeStep w k nodes fuel nodeIdx itemIdx i

/-- /repo/src/tracing/writer.rs:121-133 `write_items_until`. -/
def writeItemsUntil (w : Settings) (k : Sink) (nodes : List Node) : Nat → Nat → Nat → Until → W Nat
  | 0, _, _, _ => panic .diverge
  | fuel + 1, nodeIdx, itemIdx, u => do
    let node ← index nodes nodeIdx
    if ← u.eval node itemIdx then pure itemIdx
    else do
      let next ← writeItem w k nodes fuel nodeIdx itemIdx
      writeItemsUntil w k nodes fuel nodeIdx next u

/-- /repo/src/tracing/writer.rs:143-163 `write_node`, with `write_items` (136-140) inlined. -/
def writeNode (w : Settings) (k : Sink) (nodes : List Node) : Nat → Nat → W Unit
  | 0, _ => panic .diverge
  | fuel + 1, idx => do
    let node ← index nodes idx
    writeBranch k
    writeTraceHeader w k node.trace
    emit k (txt "\n")
    indentUp
    let _ ← writeItemsUntil w k nodes fuel idx 0 (.at node.ordering.length)
    writeEdge k
    writeTraceFooter w k node.trace
    emit k (txt "\n")
    indentDown

/-- /repo/src/tracing/writer.rs:264-318 `write_step`. -/
def writeStep (w : Settings) (k : Sink) (nodes : List Node) : Nat → Nat → Nat → Nat → W Nat
  | 0, _, _, _ => panic .diverge
  | fuel + 1, nodeIdx, itemIdx, stepIdx => do
    let node ← index nodes nodeIdx
    let step ← index node.trace.steps stepIdx
    match step.decoded with
    | none => pure (itemIdx + 1)
    | some (.internalCall call endIdx) => do
      let last ← index node.trace.steps endIdx
      let gasUsed := last.gasUsed - step.gasUsed
      writeBranch k
      indentUp
      emit k (txt "[" ++ txt (toString gasUsed) ++ txt "] " ++ txt call.funcName ++
        txt (match call.args with
          | some args => "(" ++ String.intercalate ", " args ++ ")"
          | none => "") ++ txt "\n")
      let endItemIdx ← writeItemsUntil w k nodes fuel nodeIdx (itemIdx + 1) (.step endIdx)
      writeEdge k
      emit k (txt RETURN)
      (match call.returnData with
        | some outputs => emit k (txt (String.intercalate ", " outputs))
        | none => pure ())
      emit k (txt "\n")
      indentDown
      pure (endItemIdx + 1)
    | some (.line line) => do
      writeBranch k
      emit k (txt line ++ txt "\n")
      pure (itemIdx + 1)
end

/-- Fuel for a whole arena: at most `nodes.length` nested nodes, in each of them at most three calls
per item of its ordering. No part of the code; for /repo/src/tracing/writer.rs:97-165. -/
def arenaFuel (nodes : List Node) : Nat :=
  (nodes.length + 1) * (3 * (nodes.map (·.ordering.length)).sum + 6)

/-- `self.writer.flush()`. /repo/src/tracing/writer.rs:89. -/
def flush (k : Sink) : W Unit := fun s => if k.flushFails then (.error .io, s) else (.ok (), s)

/-- /repo/src/tracing/writer.rs:87-90 `write_arena`. -/
def writeArena (w : Settings) (k : Sink) (nodes : List Node) : W Unit := do
  writeNode w k nodes (arenaFuel nodes) 0
  flush k

end Writer
end Verif
