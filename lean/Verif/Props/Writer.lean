import Verif.Lemmas.WriterArena
import Verif.Lemmas.WriterColors
import Verif.Lemmas.WriterPanics
import Verif.Spec.Example
import Verif.Props.Arena
/-!
# C51 (the text of a trace), C65 (colours)
-/
namespace Verif.Props
open Spec Rec Writer

/-! ## C51 -/

theorem sum_le_of_mem {l : List Nat} {a : Nat} (h : a ∈ l) : a ≤ l.sum := by
  induction l with
  | nil => simp at h
  | cons b l ih =>
    simp only [List.mem_cons] at h
    rw [List.sum_cons]
    rcases h with rfl | h
    · omega
    · have := ih h; omega

/-- **C51, the text.** For every arena that can be read as a document, every sink, every starting
indentation and every setting: if the decoded internal calls are properly nested and no line needs an
indentation level beyond 65535, then writing does not panic. Either it succeeds, the output grew by
exactly the lines of the document, and the indentation level is what it was; or the sink failed, and the
output grew by a prefix of these lines. -/
theorem C51_prints (w : Settings) (k : Sink) (nodes : List Node) (d : Doc) (st : State)
    (hu : Unfolds nodes 0 d) (hn : d.Nested) (hl : ∀ l ∈ d.lines w st.indent, l.level < 65536) :
    (∃ st', writeArena w k nodes st = (.ok (), st') ∧
      st'.out = st.out ++ printLines (d.lines w st.indent) ∧ st'.indent = st.indent) ∨
    (∃ st' p, writeArena w k nodes st = (.error .io, st') ∧ p <+: printLines (d.lines w st.indent) ∧
      st'.out = st.out ++ p ∧ ((∃ n c, k.fault n = some c) ∨ k.flushFails = true)) := by
  have hK : ∀ x ∈ nodes, 3 * x.ordering.length + 3 ≤ 3 * (nodes.map (·.ordering.length)).sum + 6 := by
    intro x hx
    have : x.ordering.length ≤ (nodes.map (·.ordering.length)).sum :=
      sum_le_of_mem (List.mem_map_of_mem hx)
    omega
  have hp := (claims w k nodes _ hK (sizeOf d + 1)).1 d (Nat.lt_succ_self _) 0 st.indent
    (arenaFuel nodes) hu hn hl (Nat.le_refl _)
  have hb : writeArena w k nodes st =
      W.bind (writeNode w k nodes (arenaFuel nodes) 0) (fun _ => flush k) st := rfl
  rw [hb]
  unfold W.bind
  rcases hp st rfl with ⟨st', h1, h2, h3⟩ | ⟨st', p, h1, h2, h3, h4⟩
  · rw [h1]
    simp only [flush]
    cases hf : k.flushFails with
    | false => exact Or.inl ⟨st', rfl, h2, h3⟩
    | true => exact Or.inr ⟨st', _, rfl, List.prefix_refl _, h2, Or.inr rfl⟩
  · rw [h1]
    exact Or.inr ⟨st', p, rfl, h2, h3, Or.inl h4⟩

/-- Only the first hook of a transaction opens a root frame. -/
theorem events_tail (t : Tx) : t.events.tail.all (fun e => !opensRoot e) = true := by
  have hbody : ∀ (b : Body) (d : Nat), d ≠ 0 → (b.events d).all (fun e => !opensRoot e) = true := by
    intro b
    induction b with
    | nil => intro d _; rfl
    | act a rest ih =>
      intro d hd
      simp only [Body.events, List.all_append, ih d hd, Bool.and_true]
      cases a <;> rfl
    | sub h b o rest ihb ihr =>
      intro d hd
      simp only [Body.events, List.all_cons, List.all_append, ihb (d + 1) (by omega), ihr d hd]
      cases h <;> simp [Header.enter, Header.leave, opensRoot, Ctx.at, hd]
  simp only [Tx.events, List.tail_cons, List.all_append, hbody t.body 1 (by omega)]
  cases t.hdr <;> rfl

/-- **C51, recorded arenas can be printed.** At any moment of the recording of any transaction, and
whatever decoded information is attached to the nodes, logs and steps of the recorded arena, it can be
read as exactly one document. With `C51_prints` this determines the text. -/
theorem C51_recorded (cfg : Config) (t : Tx) (es : List Event) (hes : es <+: t.events) (s : TI)
    (hr : TI.run cfg TI.new es = .ok s) (nodes : List Node) (hd : Decorates nodes s.arena) :
    ∃ d, Unfolds nodes 0 d ∧ ∀ d', Unfolds nodes 0 d' → d' = d := by
  have htail : es.tail.all (fun e => !opensRoot e) = true := by
    have h := events_tail t
    rw [List.all_eq_true] at h ⊢
    intro e he
    obtain ⟨r, hr'⟩ := hes
    refine h e ?_
    rw [← hr']
    cases es with
    | nil => simp at he
    | cons a l => simp only [List.cons_append, List.tail_cons, List.mem_append] at he ⊢; exact Or.inl he
  have hl := C04_links cfg es s hr
  have hw := walkable_of hl (run_kept (canon_kept cfg) htail hr) hd
  have h0 : 0 < nodes.length := by
    rw [Decorates.length hd]
    exact List.length_pos_iff.2 hl.nonempty
  obtain ⟨d, hu⟩ := exists_doc hw nodes.length 0 h0 (by omega)
  exact ⟨d, hu, fun d' h' => (unfolds_unique nodes (sizeOf d' + 1)).1 d' (Nat.lt_succ_self _) 0 d h' hu⟩

/-- The nodes of a recorded and decorated transaction show its frames. -/
theorem shows_frames (cfg : Config) (t : Tx) (hwf : t.WF) (hsafe : Safe cfg t.body) {s : TI}
    (har : s.arena = (frames t).map (nodeOf cfg)) {nodes : List Node} (hd : Decorates nodes s.arena) :
    ∀ f ∈ frames t, ShowsFrame cfg nodes f := by
  intro f hf
  obtain ⟨k, hk⟩ := List.mem_iff_getElem?.1 hf
  have hi := frames_index hk
  have hx : s.arena[k]? = some (nodeOf cfg f) := by rw [har, List.getElem?_map, hk]; rfl
  obtain ⟨y, hy, hs⟩ := Decorates.get (Decorates.symm hd) hx
  obtain ⟨h1, _, _, _, h5, h6, _⟩ := strip_eq hs.symm
  have hg := nodeOf_good cfg f (frames_wf hwf hf).2.1 (frames_all hsafe hf)
  refine ⟨y, by rw [hi]; exact hy, ?_, ?_⟩
  · rw [h5]
    exact nodeOf_readFrame cfg f
  · rw [h1, ← hg.ord]
    exact List.map_congr_left (fun o _ => h6 o)

/-- **C51, the text is the execution.** The document that is printed for the recording of a transaction,
with any decoded information attached, has exactly the frames of the execution that are not left out of
the call graph, nested as they were entered, each with its recorded steps, logs and sub-frames in the
order in which they happened. -/
theorem C51_text (cfg : Config) (t : Tx) (hwf : t.WF) (hsafe : Safe cfg t.body) :
    ∃ s, TI.run cfg TI.new t.events = .ok s ∧ ∀ nodes, Decorates nodes s.arena →
      ∃ d, Unfolds nodes 0 d ∧ d.view = execTree cfg t ∧
        ∀ (w : Settings) (k : Sink) (st : State), d.Nested →
          (∀ l ∈ d.lines w st.indent, l.level < 65536) → (∀ n, k.fault n = none) →
          k.flushFails = false →
          ∃ st', writeArena w k nodes st = (.ok (), st') ∧
            st'.out = st.out ++ printLines (d.lines w st.indent) ∧ st'.indent = st.indent := by
  obtain ⟨s, hr, _, har, _⟩ := run_frames cfg t hwf hsafe
  refine ⟨s, hr, ?_⟩
  intro nodes hd
  obtain ⟨d, hu, _⟩ := C51_recorded cfg t t.events (List.prefix_refl _) s hr nodes hd
  have hshow := shows_frames cfg t hwf hsafe har hd
  refine ⟨d, hu, ?_, ?_⟩
  · obtain ⟨y, hy, hy1, hy2⟩ := hshow ⟨0, none, 0, none, t.hdr, t.body, t.out⟩ (by simp [frames])
    obtain ⟨x, it⟩ := d
    simp only [Unfolds] at hu
    have : x = y := by
      have := hu.1; simp only at hy; rw [hy] at this; simpa using this.symm
    subst this
    simp only [Doc.view, execTree, hy1]
    rw [view_items cfg nodes t.body 1 0 (valueInScope none t.hdr) 1
      (fun f hf => hshow f (by simp [frames, hf])) 0 x x.ordering 0 it hy2 hu.2]
  · intro w k st hn hl hk hf
    rcases C51_prints w k nodes d st hu hn hl with h | ⟨_, _, _, _, _, ⟨n, c, hc⟩ | hc⟩
    · exact h
    · rw [hk n] at hc; simp at hc
    · rw [hf] at hc; simp at hc

/-- **C51, without decoded information.** The recorded arena itself is always printed without a panic, if
the frames are not nested deeper than the indentation level can count. -/
theorem C51_undecoded (cfg : Config) (t : Tx) (hwf : t.WF) (hsafe : Safe cfg t.body)
    (w : Settings) (k : Sink) (st : State) (hk : ∀ n, k.fault n = none) (hf : k.flushFails = false)
    (hdep : ∀ f ∈ frames t, st.indent + f.depth + 1 < 65536) :
    ∃ s d st', TI.run cfg TI.new t.events = .ok s ∧ Unfolds s.arena 0 d ∧ d.view = execTree cfg t ∧
      writeArena w k s.arena st = (.ok (), st') ∧
      st'.out = st.out ++ printLines (d.lines w st.indent) ∧ st'.indent = st.indent := by
  obtain ⟨s, hr, hs⟩ := C51_text cfg t hwf hsafe
  obtain ⟨s', hr', _, har, _⟩ := run_frames cfg t hwf hsafe
  have hss : s' = s := by rw [hr] at hr'; simpa using hr'.symm
  subst hss
  obtain ⟨d, hu, hv, hp⟩ := hs s'.arena rfl
  have hplain := run_kept (plain_kept cfg) (events_tail t) hr
  have hl := C04_links cfg _ s' hr
  have hlev : ∀ l ∈ d.lines w st.indent, l.level < 65536 := by
    intro l hm
    obtain ⟨x, it⟩ := d
    have hx : s'.arena[0]? = some x := by simp only [Unfolds] at hu; exact hu.1
    have h0 := (hl.root x hx).2
    have hmax : ∀ y ∈ s'.arena, y.trace.depth ≤ 65534 - st.indent := by
      intro y hy
      rw [har, List.mem_map] at hy
      obtain ⟨f, hf, rfl⟩ := hy
      have h1 := hdep f hf
      have h2 : (nodeOf cfg f).trace.depth = f.depth :=
        congrArg FrameData.depth (nodeOf_readFrame cfg f)
      rw [h2]; omega
    have := (plain_levels hplain (fun i y hy c hc z hz => by
        obtain ⟨_, z', hz', hd'⟩ := links_child hl i y hy c hc
        rw [hz] at hz'; simp only [Option.some.injEq] at hz'; rw [hz']; exact hd')
      w st.indent (65534 - st.indent) hmax (sizeOf (Doc.mk x it) + 1)).1 (.mk x it)
      (Nat.lt_succ_self _) 0 x hx hu l (by rw [h0]; exact hm)
    have h1 := hdep ⟨0, none, 0, none, t.hdr, t.body, t.out⟩ (by simp [frames])
    simp only at h1
    omega
  obtain ⟨st', h1, h2, h3⟩ := hp w k st
    ((plain_nested hplain (sizeOf d + 1)).1 d (Nat.lt_succ_self _) 0 hu) hlev hk hf
  exact ⟨s', d, st', hr, hu, hv, h1, h2, h3⟩

/-- **C51, when the writer panics.** On an arena that can be read as a document, with a sink that does
not fail, writing panics exactly if some decoded internal call is not properly nested, or the
indentation level does not fit into sixteen bits. -/
theorem C51_panic_iff (w : Settings) (k : Sink) (nodes : List Node) (d : Doc) (st : State)
    (hk : ∀ n, k.fault n = none) (hi : st.indent < 65536) (hu : Unfolds nodes 0 d) :
    (∃ p st', writeArena w k nodes st = (.error (.panic p), st')) ↔
      ¬ (d.Nested ∧ ∀ l ∈ d.lines w st.indent, l.level < 65536) := by
  constructor
  · rintro ⟨p, st', h⟩ ⟨hn, hl⟩
    rcases C51_prints w k nodes d st hu hn hl with ⟨_, h', _⟩ | ⟨_, _, h', _⟩ <;> rw [h] at h' <;>
      simp at h'
  · intro hbad
    have hK : ∀ x ∈ nodes, 3 * x.ordering.length + 3 ≤ 3 * (nodes.map (·.ordering.length)).sum + 6 := by
      intro x hx
      have : x.ordering.length ≤ (nodes.map (·.ordering.length)).sum :=
        sum_le_of_mem (List.mem_map_of_mem hx)
      omega
    rcases (fates w k nodes _ hK (sizeOf d + 1)).1 d (Nat.lt_succ_self _) 0 st.indent
      (arenaFuel nodes) hu hi (Nat.le_refl _) with ⟨_, _, hf⟩ | ⟨hf, _⟩
    · exact absurd hf hbad
    · obtain ⟨st', e, he, ⟨p, rfl, _⟩ | ⟨_, n, c, hc⟩⟩ :=
        (hf.bind (f := fun _ => flush k)) st rfl
      · exact ⟨p, st', he⟩
      · rw [hk n] at hc; simp at hc

/-! ### Concrete cases -/

/-- A configuration that records steps and logs. -/
def writerConfig : Config := { Config.none with recordSteps := true, recordLogs := true }

/-- A transaction of a root call that executes four instructions and calls a contract after the second. -/
def writerTx : Tx where
  hdr := Example.callHdr .Call 0x99 0xa 0xa 11
  body := .act (Example.stepAct Op.ADD 0 500)
    (.act (Example.stepAct Op.CALL 1 490 .CallOrCreate)
      (.sub (Example.callHdr .Call 0xa 0xb 0xb 6) (.act (.log Example.ctx ⟨0xb, [1, 2], [9]⟩) .nil)
        (Example.out .Return)
        (.act (Example.stepAct Op.ADD 2 400) (.act (Example.stepAct Op.STOP 3 300 .Stop) .nil))))
  out := Example.out .Stop

/-- The arena recorded for `writerTx`. -/
def writerArena : List Node :=
  match TI.run writerConfig TI.new writerTx.events with
  | .ok s => s.arena
  | .error _ => []

/-- Attaches decoded information to the steps of the first node. -/
def decorate (f : Nat → Option DecodedTraceStep) : List Node → List Node
  | [] => []
  | x :: r => { x with trace := { x.trace with
      decoded := { x.trace.decoded with label := some "Root" }
      steps := x.trace.steps.mapIdx fun i s => { s with decoded := f i } } } :: r

def plainWriter : Settings where
  useColors := false
  colorCheatcodes := false
  checksum := fun a => "0x" ++ String.ofList (hexEncode [UInt8.ofNat (a.toNat % 256)])

/-- A sink without failures. -/
def goodSink : Sink := ⟨fun _ => none, false⟩

/-- The text of glyphs, without colours. -/
def glyphText (g : List Glyph) : String := String.ofList (g.filterMap fun | .ch c => some c | _ => none)

/-- An internal call over the first three steps, with a line at the second. -/
def goodSteps : Nat → Option DecodedTraceStep
  | 0 => some (.internalCall ⟨"f", some ["1", "2"], some ["7"]⟩ 2)
  | 1 => some (.line "calling")
  | _ => none

/-- How a call of the writer ended. -/
def failure (r : Except Fail Unit × State) : Option Fail :=
  match r.1 with
  | .ok _ => none
  | .error e => some e

theorem writerTx_wf : writerTx.WF :=
  ⟨fun _ => rfl, fun h => absurd h (by decide), ⟨fun _ => rfl, fun h => absurd h (by decide), trivial,
    trivial⟩⟩

theorem writerTx_safe : Safe writerConfig writerTx.body :=
  ⟨Example.stepSafe _ _ _ _ (by decide), Example.stepSafe _ _ _ _ (by decide), trivial,
    Example.stepSafe _ _ _ _ (by decide), Example.stepSafe _ _ _ _ (by decide), trivial⟩

/-- The nodes with decoded steps differ from the recorded ones only in decoded information. -/
theorem decorate_decorates (f : Nat → Option DecodedTraceStep) (l : List Node) :
    Decorates (decorate f l) l := by
  cases l with
  | nil => rfl
  | cons x r =>
    simp only [Decorates, decorate, List.map_cons, List.cons.injEq, and_true]
    simp only [stripNode, Node.mk.injEq, CallTrace.mk.injEq, and_true, true_and]
    apply List.ext_getElem
    · simp
    · intro i h1 h2
      simp

set_option maxRecDepth 20000 in
/-- The hypotheses can be met: the text of the example, with an internal call around a sub-call. -/
example : failure (writeArena plainWriter goodSink (decorate goodSteps writerArena) {}) = none ∧
    glyphText (writeArena plainWriter goodSink (decorate goodSteps writerArena) {}).2.out =
"  [550] Root::01020304{value: 11}(05)
    ├─ [100] f(1, 2)
    │   ├─ calling
    │   ├─ [600] 0x0b::01020304{value: 6}(05)
    │   │   ├─  emit topic 0: 0x0000000000000000000000000000000000000000000000000000000000000001
    │   │   │        topic 1: 0x0000000000000000000000000000000000000000000000000000000000000002
    │   │   │           data: 0x09
    │   │   └─ ← [Return] 0x0708
    │   └─ ← 7
    └─ ← [Stop] 0x0708
" := by
  decide +kernel

/-- The document of the example is nested and its levels are small, so `C51_prints` applies to it. -/
example : ∃ d, Unfolds (decorate goodSteps writerArena) 0 d ∧ d.Nested ∧
    ∀ l ∈ d.lines plainWriter 0, l.level < 65536 := by
  obtain ⟨s, hr, hs⟩ := C51_text writerConfig writerTx writerTx_wf writerTx_safe
  have ha : writerArena = s.arena := by unfold writerArena; rw [hr]
  obtain ⟨d, hu, _⟩ := hs (decorate goodSteps writerArena) (ha ▸ decorate_decorates _ _)
  refine ⟨d, hu, ?_⟩
  apply Classical.byContradiction
  intro hc
  obtain ⟨p, st', h⟩ := (C51_panic_iff plainWriter goodSink (decorate goodSteps writerArena) d {}
    (fun _ => rfl) (by decide) hu).2 hc
  have h1 : failure (writeArena plainWriter goodSink (decorate goodSteps writerArena) {}) = none := by
    decide +kernel
  rw [h] at h1
  simp [failure] at h1

/-- Two internal calls that end at the same step. -/
def sameEnd : Nat → Option DecodedTraceStep
  | 0 => some (.internalCall ⟨"f", none, none⟩ 2)
  | 1 => some (.internalCall ⟨"g", none, none⟩ 2)
  | _ => none

set_option maxRecDepth 20000 in
/-- **C51 fails for decoded arenas**: two internal calls that end at the same later step of the frame
make the writer panic. -/
theorem C51_refuted_same_end : ∃ (t : Tx) (s : TI) (nodes : List Node), t.WF ∧
    Safe writerConfig t.body ∧ TI.run writerConfig TI.new t.events = .ok s ∧
    Decorates nodes s.arena ∧
    (∀ x ∈ nodes, ∀ st ∈ x.trace.steps.zipIdx, ∀ c e, st.1.decoded = some (.internalCall c e) →
      st.2 < e ∧ e < x.trace.steps.length) ∧
    failure (writeArena plainWriter goodSink nodes {}) = some (.panic .index) := by
  obtain ⟨s, hr, _⟩ := C51_text writerConfig writerTx writerTx_wf writerTx_safe
  have ha : writerArena = s.arena := by unfold writerArena; rw [hr]
  refine ⟨writerTx, s, decorate sameEnd writerArena, writerTx_wf, writerTx_safe, hr,
    ha ▸ decorate_decorates _ _, ?_, by decide +kernel⟩
  have h : (decorate sameEnd writerArena).all (fun x => x.trace.steps.zipIdx.all fun st =>
      match st.1.decoded with
      | some (.internalCall _ e) => decide (st.2 < e ∧ e < x.trace.steps.length)
      | _ => true) = true := by decide +kernel
  intro x hx st hst c e hd
  have h1 := List.all_eq_true.1 (List.all_eq_true.1 h x hx) st hst
  rw [hd] at h1
  simpa using h1

/-- A transaction that only transfers value. -/
def transferTx : Tx where
  hdr := Example.callHdr .Call 0x99 0xa 0xa 11
  body := .nil
  out := Example.out .Stop

set_option maxRecDepth 20000 in
/-- **C51 fails after a second transaction**: an inspector that records two transactions without being
fused in between makes an arena whose root refers to steps that are not there, and the writer panics. -/
theorem C51_refuted_second_transaction : ∃ (t1 t2 : Tx) (s : TI), t1.WF ∧ Safe writerConfig t1.body ∧
    t2.WF ∧ Safe writerConfig t2.body ∧ TI.run writerConfig TI.new (t1.events ++ t2.events) = .ok s ∧
    failure (writeArena plainWriter goodSink s.arena {}) = some (.panic .index) := by
  have h : (match TI.run writerConfig TI.new (writerTx.events ++ transferTx.events) with
      | .ok s => decide (failure (writeArena plainWriter goodSink s.arena {}) = some (.panic .index))
      | .error _ => false) = true := by decide +kernel
  cases hr : TI.run writerConfig TI.new (writerTx.events ++ transferTx.events) with
  | error e => rw [hr] at h; simp at h
  | ok s =>
    rw [hr] at h
    exact ⟨writerTx, transferTx, s, writerTx_wf, writerTx_safe,
      ⟨fun _ => rfl, fun h => absurd h (by decide), trivial⟩, trivial, hr, of_decide_eq_true h⟩

set_option maxRecDepth 20000 in
/-- **After a failed write the indentation is not restored.** -/
theorem C51_refuted_indentation : ∃ (k : Sink) (nodes : List Node),
    failure (writeArena plainWriter k nodes {}) = some .io ∧
    (writeArena plainWriter k nodes {}).2.indent ≠ 0 := by
  refine ⟨⟨fun n => if n = 6 then some 1 else none, false⟩, decorate goodSteps writerArena, ?_⟩
  decide +kernel

/-! ## C65 -/

/-- **C65, colours are only colours.** With a sink that does not fail, writing with and without colours
ends the same way with the same indentation, and the text without colours is the text with colours
without the escape sequences. -/
theorem C65_colours (w : Settings) (k : Sink) (hk : ∀ n, k.fault n = none) (nodes : List Node)
    (st : State) :
    ∃ r s1 s2, writeArena { w with useColors := true } k nodes st = (r, s1) ∧
      writeArena { w with useColors := false } k nodes { st with out := dropColors st.out } = (r, s2) ∧
      s1.indent = s2.indent ∧ s2.out = dropColors s1.out := by
  obtain ⟨h1, h2, h3⟩ := Sim.arena hk w nodes st { st with out := dropColors st.out } rfl rfl
  exact ⟨(writeArena (colored w true) k nodes st).1, (writeArena (colored w true) k nodes st).2,
    (writeArena (colored w false) k nodes { st with out := dropColors st.out }).2, rfl,
    Prod.ext h1.symm rfl, h2, h3⟩

theorem dropColors_idem (g : List Glyph) : dropColors (dropColors g) = dropColors g := by
  simp [dropColors]

/-- **C65, no escape sequence without colours.** -/
theorem C65_plain (w : Settings) (k : Sink) (hk : ∀ n, k.fault n = none) (hw : w.useColors = false)
    (nodes : List Node) (st : State) (hst : dropColors st.out = st.out) :
    dropColors (writeArena w k nodes st).2.out = (writeArena w k nodes st).2.out := by
  obtain ⟨r, s1, s2, _, h2, _, h4⟩ := C65_colours w k hk nodes st
  have hw' : { w with useColors := false } = w := by rw [← hw]
  have hs' : { st with out := dropColors st.out } = st := by rw [hst]
  rw [hw', hs'] at h2
  rw [h2]
  simp only
  rw [h4, dropColors_idem]

set_option maxRecDepth 20000 in
/-- In the example colours are really used. -/
example : Glyph.on .green ∈ (writeArena { plainWriter with useColors := true } goodSink
    (decorate goodSteps writerArena) {}).2.out := by decide +kernel

end Verif.Props
