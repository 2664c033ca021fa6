import Verif.Lemmas.TextLines
import Verif.Props.Writer
import Verif.Props.ReadBack
/-!
# C128 (decoded texts and the lines of a trace)
-/
namespace Verif.Props
open Spec Writer

/-- **C128, exactly.** For the recording of any transaction with any decoded information: the lines a reader finds in
the text are the lines of the frames, logs, internal calls and decoded steps, one for one, if none of the decoded
texts that are printed contains a line break. If one does, the reader finds more lines. -/
theorem C128_exact (cfg : Config) (t : Tx) (hwf : t.WF) (hsafe : Safe cfg t.body) :
    ∃ s, TI.run cfg TI.new t.events = .ok s ∧ ∀ nodes, Decorates nodes s.arena →
      ∃ d, Unfolds nodes 0 d ∧ d.view = execTree cfg t ∧
        ∀ (w : Settings) (k : Sink) (st : State), AddressText w.checksum → d.Nested →
          (∀ l ∈ d.lines w st.indent, l.level < 65536) → (∀ n, k.fault n = none) → k.flushFails = false →
          ∃ st' text, writeArena w k nodes st = (.ok (), st') ∧ st'.out = st.out ++ text ∧
            ((∀ s ∈ d.shown, '\n' ∉ s.toList) → cutLines text = (d.lines w st.indent).map Line.whole) ∧
            ((∃ s ∈ d.shown, '\n' ∈ s.toList) → (d.lines w st.indent).length < (cutLines text).length) := by
  obtain ⟨s, hr, h⟩ := C51_text cfg t hwf hsafe
  refine ⟨s, hr, fun nodes hd => ?_⟩
  obtain ⟨d, hu, hv, h⟩ := h nodes hd
  refine ⟨d, hu, hv, fun w k st hw hn hl hk hf => ?_⟩
  obtain ⟨st', h1, h2, _⟩ := h w k st hn hl hk hf
  refine ⟨st', _, h1, h2, fun hs => ?_, fun ⟨s, hs, hb⟩ => ?_⟩
  · exact cutLines_printLines _ ((doc_break hw d st.indent).2 hs)
  · have h3 : (cutLines (printLines (d.lines w st.indent))).length ≠ (d.lines w st.indent).length := fun e =>
      (doc_break hw d st.indent).1 ((cutLines_iff _).1 e) s hs hb
    have h4 := cutLines_count (printLines (d.lines w st.indent))
    rw [count_printLines] at h4
    omega

/-- **C128** (partial: missing are decoded texts with line breaks, see `C128_refuted`). If no decoded text of the nodes
contains a line break, the lines of the text are those of the trace, one for one. -/
theorem C128_lines_partial (cfg : Config) (t : Tx) (hwf : t.WF) (hsafe : Safe cfg t.body) :
    ∃ s, TI.run cfg TI.new t.events = .ok s ∧ ∀ nodes, Decorates nodes s.arena →
      (∀ x ∈ nodes, ∀ s ∈ decodedTexts x, '\n' ∉ s.toList) →
      ∃ d, Unfolds nodes 0 d ∧ d.view = execTree cfg t ∧
        ∀ (w : Settings) (k : Sink) (st : State), AddressText w.checksum → d.Nested →
          (∀ l ∈ d.lines w st.indent, l.level < 65536) → (∀ n, k.fault n = none) → k.flushFails = false →
          ∃ st' text, writeArena w k nodes st = (.ok (), st') ∧ st'.out = st.out ++ text ∧
            cutLines text = (d.lines w st.indent).map Line.whole := by
  obtain ⟨s, hr, h⟩ := C128_exact cfg t hwf hsafe
  refine ⟨s, hr, fun nodes hd ht => ?_⟩
  obtain ⟨d, hu, hv, h⟩ := h nodes hd
  refine ⟨d, hu, hv, fun w k st hw hn hl hk hf => ?_⟩
  obtain ⟨st', text, h1, h2, h3, _⟩ := h w k st hw hn hl hk hf
  exact ⟨st', text, h1, h2, h3 (shown_of_nodes ht d 0 hu)⟩

/-! ### Examples -/

/-- The example of C51, in which internal calls and a line are decoded, has no line breaks in decoded texts; the text
of addresses in lower case is as assumed. -/
example : AddressText lowerCase ∧ writerTx.WF ∧ Safe writerConfig writerTx.body ∧
    Decorates (decorate goodSteps writerArena) writerArena ∧
    (∀ x ∈ decorate goodSteps writerArena, ∀ s ∈ decodedTexts x, '\n' ∉ s.toList) ∧
    (decorate goodSteps writerArena).flatMap decodedTexts = ["Root", "f", "1", "2", "7", "calling"] :=
  ⟨lowerCase_text, writerTx_wf, writerTx_safe, decorate_decorates _ _, by decide +kernel, by decide +kernel⟩

/-- A call of a contract, which does nothing. -/
def forgingTx : Tx where
  hdr := Example.callHdr .Call 0x99 0xa 0xa 0
  body := .nil
  out := Example.out .Stop

/-- A call of a contract, which pays another one and tells of it. -/
def payingTx : Tx where
  hdr := Example.callHdr .Call 0x99 0xa 0xa 0
  body := .sub (Example.callHdr .Call 0xa 0xb 0xb 6) .nil (Example.out .Return)
    (.act (.log Example.ctx ⟨0xa, [1], [9]⟩) .nil)
  out := Example.out .Stop

def recordedNodes (t : Tx) : List Node :=
  match TI.run writerConfig TI.new t.events with
  | .ok s => s.arena
  | .error _ => []

/-- The nodes with the first call decoded, and with the logs of the first frame decoded. -/
def decodeFirst (args : List String) (log : DecodedCallLog) : List Node → List Node
  | [] => []
  | x :: r => { x with
      trace := { x.trace with decoded := { x.trace.decoded with callData := some ⟨"say(string)", args⟩ } }
      logs := x.logs.map fun l => { l with decoded := log } } :: r

theorem decodeFirst_decorates (args : List String) (log : DecodedCallLog) (l : List Node) :
    Decorates (decodeFirst args log l) l := by
  cases l with
  | nil => rfl
  | cons x r =>
    simp only [Decorates, decodeFirst, List.map_cons, List.cons.injEq, and_true]
    simp only [stripNode, Node.mk.injEq, CallTrace.mk.injEq, and_true, true_and, List.map_map, Function.comp_def]

/-- What the caller of the first contract passes to it. -/
def forgedText : String :=
"hi)
    ├─ [600] 0x0b::01020304{value: 6}(05)
    │   └─ ← [Return] 0x0708
    ├─ emit Paid(to: 0x0b"

set_option maxRecDepth 20000 in
/-- **C128, refuted.** The two transactions are shown with the same text, if an argument of the first call is decoded
to a text with line breaks: in one of them the contract pays another one and emits a log, in the other one it does
nothing. -/
theorem C128_refuted :
    forgingTx.WF ∧ Safe writerConfig forgingTx.body ∧ payingTx.WF ∧ Safe writerConfig payingTx.body ∧
    (frames forgingTx).length = 1 ∧ (frames payingTx).length = 2 ∧
    Decorates (decodeFirst [forgedText] {} (recordedNodes forgingTx)) (recordedNodes forgingTx) ∧
    Decorates (decodeFirst ["hi"] ⟨some "Paid", some [("to", "0x0b")]⟩ (recordedNodes payingTx))
      (recordedNodes payingTx) ∧
    (writeArena plainWriter goodSink (decodeFirst [forgedText] {} (recordedNodes forgingTx)) {}).2.out =
      (writeArena plainWriter goodSink
        (decodeFirst ["hi"] ⟨some "Paid", some [("to", "0x0b")]⟩ (recordedNodes payingTx)) {}).2.out ∧
    glyphText (writeArena plainWriter goodSink (decodeFirst [forgedText] {} (recordedNodes forgingTx)) {}).2.out =
"  [550] 0x0a::say(hi)
    ├─ [600] 0x0b::01020304{value: 6}(05)
    │   └─ ← [Return] 0x0708
    ├─ emit Paid(to: 0x0b)
    └─ ← [Stop] 0x0708
" := by
  refine ⟨⟨fun _ => rfl, fun h => absurd h (by decide), trivial⟩, trivial,
    ⟨fun _ => rfl, fun h => absurd h (by decide),
      ⟨fun _ => rfl, fun h => absurd h (by decide), trivial, trivial⟩⟩,
    ⟨trivial, trivial⟩, by decide, by decide, decodeFirst_decorates .., decodeFirst_decorates .., ?_, ?_⟩
  · decide +kernel
  · decide +kernel

end Verif.Props
