import Verif.Props.JsSteps
import Verif.Spec.Refund
/-!
# C110: the refund counter of struct logs and step callbacks
-/
namespace Verif.Props
open Spec Rec

/-! ## Helpers -/

/-- The transaction's counter is that of the frame and of those around it. -/
theorem counters_eq (b : Body) : ∀ (c r e : Int) (f : FrameCtx) (n : Nat), FrameRefunds r b e →
    counters (c + r) b =
      (List.zipWith (· + ·) (around c r b) ((chronBody f n b).map (·.2.before.gas.refunded)), c + e) ∧
    (around c r b).length = (chronBody f n b).length := by
  induction b with
  | nil =>
    intro c r e f n h
    have h : e = r := h
    subst h
    exact ⟨rfl, rfl⟩
  | act a rest ih =>
    intro c r e f n h
    cases a with
    | step i x i' x' =>
      obtain ⟨rfl, h⟩ := h
      obtain ⟨h1, h2⟩ := ih c _ e f n h
      have hs : c + i.gas.refunded + (i'.gas.refunded - i.gas.refunded) = c + i'.gas.refunded := by omega
      simp only [counters, around, chronBody, hs, h1, List.map_cons, List.zipWith_cons_cons,
        List.length_cons, h2]
      exact ⟨trivial, trivial⟩
    | aborted i x =>
      obtain ⟨rfl, h⟩ := h
      obtain ⟨h1, h2⟩ := ih c _ e f n h
      simp only [counters, around, chronBody, h1, List.map_cons, List.zipWith_cons_cons,
        List.length_cons, h2]
      exact ⟨trivial, trivial⟩
    | log x l => exact ih c r e f n h
    | selfdestruct x y z => exact ih c r e f n h
  | sub hd b o rest ihb ihr =>
    intro c r e f n h
    obtain ⟨x, hb, hok, hr⟩ := h
    obtain ⟨h1, h2⟩ := ihb (c + r) 0 x ⟨n, some f.index, f.depth + 1, some f.value, hd, b, o⟩ (n + 1) hb
    obtain ⟨h3, h4⟩ := ihr c _ e f (n + 1 + b.size) hr
    rw [Int.add_zero] at h1
    have hc : (if o.result.result.isOk = true then c + r + x else c + r) =
        c + (if o.result.result.isOk = true then r + o.result.gas.refunded else r) := by
      by_cases hk : o.result.result.isOk = true
      · rw [if_pos hk, if_pos hk, hok hk]; omega
      · rw [if_neg hk, if_neg hk]
    simp only [counters, around, chronBody, h1, hc, h3, List.map_append, List.length_append, h2, h4]
    rw [List.zipWith_append (by rw [List.length_map, h2])]
    exact ⟨rfl, trivial⟩

/-- The instructions of the root frame have no frames around theirs. -/
theorem around_root (b : Body) : ∀ (r : Int) (f : FrameCtx) (n : Nat), f.index < n →
    ∀ (k : Nat) (e : FrameCtx × Instr) (x : Int), (chronBody f n b)[k]? = some e →
      (around 0 r b)[k]? = some x → e.1.index = f.index → x = 0 := by
  have inner : ∀ (b : Body) (f : FrameCtx) (n : Nat), f.index < n → ∀ e ∈ chronBody f n b,
      f.index ≤ e.1.index ∧ (e.1.index = f.index ∨ n ≤ e.1.index) := by
    intro b
    induction b with
    | nil => intro f n _ e he; simp [chronBody] at he
    | act a rest ih =>
      intro f n hn e he
      cases a with
      | step i x i' x' =>
        simp only [chronBody, List.mem_cons] at he
        rcases he with rfl | he
        · exact ⟨Nat.le_refl _, Or.inl rfl⟩
        · exact ih f n hn e he
      | aborted i x =>
        simp only [chronBody, List.mem_cons] at he
        rcases he with rfl | he
        · exact ⟨Nat.le_refl _, Or.inl rfl⟩
        · exact ih f n hn e he
      | log x l => exact ih f n hn e he
      | selfdestruct x y z => exact ih f n hn e he
    | sub hd b o rest ihb ihr =>
      intro f n hn e he
      simp only [chronBody, List.mem_append] at he
      rcases he with he | he
      · obtain ⟨h1, _⟩ := ihb _ (n + 1) (Nat.lt_succ_self n) e he
        have h1 : n ≤ e.1.index := h1
        exact ⟨by omega, Or.inr h1⟩
      · obtain ⟨h1, h2⟩ := ihr f (n + 1 + b.size) (by omega) e he
        refine ⟨h1, ?_⟩
        rcases h2 with h2 | h2
        · exact Or.inl h2
        · exact Or.inr (by omega)
  have len : ∀ (b : Body) (c r : Int) (f : FrameCtx) (n : Nat),
      (around c r b).length = (chronBody f n b).length := by
    intro b
    induction b with
    | nil => intro c r f n; rfl
    | act a rest ih =>
      intro c r f n
      cases a <;> simp [around, chronBody, ih _ _ f n]
    | sub hd b o rest ihb ihr =>
      intro c r f n
      simp only [around, chronBody, List.length_append]
      rw [ihb _ _ ⟨n, some f.index, f.depth + 1, some f.value, hd, b, o⟩ (n + 1),
        ihr _ _ f (n + 1 + b.size)]
  induction b with
  | nil => intro r f n _ k e x he; simp [chronBody] at he
  | act a rest ih =>
    intro r f n hn k e x he hx hi
    cases a with
    | step i y i' y' =>
      cases k with
      | zero => simp [around] at hx; exact hx.symm
      | succ k =>
        simp only [chronBody, around, List.getElem?_cons_succ] at he hx
        exact ih _ f n hn k e x he hx hi
    | aborted i y =>
      cases k with
      | zero => simp [around] at hx; exact hx.symm
      | succ k =>
        simp only [chronBody, around, List.getElem?_cons_succ] at he hx
        exact ih _ f n hn k e x he hx hi
    | log y l => exact ih _ f n hn k e x he hx hi
    | selfdestruct y z w => exact ih _ f n hn k e x he hx hi
  | sub hd b o rest ihb ihr =>
    intro r f n hn k e x he hx hi
    simp only [chronBody, around] at he hx
    have hl := len b (0 + r) 0 ⟨n, some f.index, f.depth + 1, some f.value, hd, b, o⟩ (n + 1)
    by_cases hk : k < (chronBody ⟨n, some f.index, f.depth + 1, some f.value, hd, b, o⟩ (n + 1) b).length
    · rw [List.getElem?_append_left hk] at he
      obtain ⟨h1, _⟩ := inner b ⟨n, some f.index, f.depth + 1, some f.value, hd, b, o⟩ (n + 1)
        (Nat.lt_succ_self n) e (List.mem_of_getElem? he)
      have h1 : n ≤ e.1.index := h1
      omega
    · rw [List.getElem?_append_right (by omega)] at he
      rw [List.getElem?_append_right (by omega)] at hx
      rw [hl] at hx
      exact ihr _ f _ (by omega) _ e x he hx hi

/-- The struct logs, one by one, with the transaction's counter and the part of it around the frame. -/
theorem refund_logs (cfg : Config) (t : Tx) (opts : GethOptions) (gas : Nat) (ret : Bytes)
    (hwf : t.WF) (hsafe : Safe cfg t.body) (hatt : Attached false t.body)
    (hsteps : cfg.recordSteps = true) (hfilter : cfg.recordOpcodesFilter = none)
    (hcalls : ∀ f ∈ frames t, Spec.excluded cfg f = false) {e : Int} (hrev : FrameRefunds 0 t.body e) :
    ∃ s out, TI.run cfg TI.new t.events = .ok s ∧ gethTraces s.arena gas ret opts = .ok out ∧
      out.structLogs.length = (chron t).length ∧
      (counters 0 t.body).1.length = (chron t).length ∧ (around 0 0 t.body).length = (chron t).length ∧
      ∀ (k : Nat) (log : StructLog) (c x : Int), out.structLogs[k]? = some log →
        (counters 0 t.body).1[k]? = some c → (around 0 0 t.body)[k]? = some x →
        ∃ f a, (chron t)[k]? = some (f, a) ∧ c = x + a.before.gas.refunded ∧
          log.depth = f.depth + 1 ∧
          log.refundCounter = if (c - x) % 2 ^ 64 = 0 then none else some ((c - x) % 2 ^ 64).toNat := by
  obtain ⟨s, out, hr, hg, _, _, _, h⟩ :=
    C16_chronological cfg t opts gas ret hwf hsafe hatt hsteps hfilter hcalls
  obtain ⟨h1, h2⟩ := counters_eq t.body 0 0 e ⟨0, none, 0, none, t.hdr, t.body, t.out⟩ 1 hrev
  have hlen : out.structLogs.length = (chron t).length := by
    have := congrArg List.length h
    simpa using this
  rw [Int.add_zero] at h1
  have hch : chronBody ⟨0, none, 0, none, t.hdr, t.body, t.out⟩ 1 t.body = chron t := rfl
  rw [hch] at h1 h2
  refine ⟨s, out, hr, hg, hlen, ?_, h2, ?_⟩
  · rw [h1]; simp [h2]
  · intro k log c x hlog hc hx
    have hk : k < (chron t).length := by
      have := (List.getElem?_eq_some_iff.1 hlog).1; omega
    obtain ⟨⟨f, a⟩, ha⟩ : ∃ p, (chron t)[k]? = some p := ⟨_, List.getElem?_eq_getElem hk⟩
    have hl := congrArg (fun l => l[k]?) h
    simp only [List.getElem?_map, hlog, ha, Option.map_some, Option.some.injEq] at hl
    rw [h1] at hc
    simp only [List.getElem?_zipWith, hx, List.getElem?_map, ha, Option.map_some,
      Option.some.injEq] at hc
    have hd := congrArg LogView.depth hl
    have hf := congrArg LogView.refund hl
    simp only [readLog, expectedLog] at hd hf
    refine ⟨f, a, ha, hc.symm, hd, ?_⟩
    have : c - x = a.before.gas.refunded := by omega
    rw [this]
    exact hf

/-! ## C110 -/

/-- **C110, exactly.** For every execution: the struct log of an instruction shows the refund counter of
the transaction, less what the frames around the instruction's had when they called, as 64 bits, and
nothing if that is zero. -/
theorem C110_exact (cfg : Config) (t : Tx) (opts : GethOptions) (gas : Nat) (ret : Bytes)
    (hwf : t.WF) (hsafe : Safe cfg t.body) (hatt : Attached false t.body)
    (hsteps : cfg.recordSteps = true) (hfilter : cfg.recordOpcodesFilter = none)
    (hcalls : ∀ f ∈ frames t, Spec.excluded cfg f = false) {e : Int} (hrev : FrameRefunds 0 t.body e) :
    ∃ s out, TI.run cfg TI.new t.events = .ok s ∧ gethTraces s.arena gas ret opts = .ok out ∧
      (counters 0 t.body).1.length = out.structLogs.length ∧
      (around 0 0 t.body).length = out.structLogs.length ∧
      ∀ (k : Nat) (log : StructLog) (c x : Int), out.structLogs[k]? = some log →
        (counters 0 t.body).1[k]? = some c → (around 0 0 t.body)[k]? = some x →
        log.refundCounter = (if (c - x) % 2 ^ 64 = 0 then none else some ((c - x) % 2 ^ 64).toNat) ∧
        (0 ≤ c → c < 2 ^ 64 → x.natAbs < 2 ^ 64 → (log.refundCounter = shownRefund c ↔ x = 0)) := by
  obtain ⟨s, out, hr, hg, hlen, h1, h2, h⟩ :=
    refund_logs cfg t opts gas ret hwf hsafe hatt hsteps hfilter hcalls hrev
  refine ⟨s, out, hr, hg, by omega, by omega, ?_⟩
  intro k log c x hlog hc hx
  obtain ⟨f, a, _, _, _, hshow⟩ := h k log c x hlog hc hx
  refine ⟨hshow, fun c0 c1 x1 => ?_⟩
  rw [hshow, shownRefund]
  constructor
  · intro heq
    split at heq <;> split at heq
    · omega
    · nomatch heq
    · nomatch heq
    · have := Option.some.inj heq
      omega
  · rintro rfl
    have : (c - 0) % 2 ^ 64 = c := by omega
    rw [this]

/-- **C110** (partial: missing are the instructions in frames whose callers have collected refunds, see
`C110_refuted`). For every execution whose refund counter stays within 64 bits, the struct logs of the
root's instructions, and of all others if no frame around theirs had a refund when it called, show the
refund counter of the transaction. -/
theorem C110_refund_partial (cfg : Config) (t : Tx) (opts : GethOptions) (gas : Nat) (ret : Bytes)
    (hwf : t.WF) (hsafe : Safe cfg t.body) (hatt : Attached false t.body)
    (hsteps : cfg.recordSteps = true) (hfilter : cfg.recordOpcodesFilter = none)
    (hcalls : ∀ f ∈ frames t, Spec.excluded cfg f = false) {e : Int} (hrev : FrameRefunds 0 t.body e)
    (hpos : ∀ c ∈ (counters 0 t.body).1, 0 ≤ c ∧ c < 2 ^ 64) :
    ∃ s out, TI.run cfg TI.new t.events = .ok s ∧ gethTraces s.arena gas ret opts = .ok out ∧
      (counters 0 t.body).1.length = out.structLogs.length ∧
      ∀ (k : Nat) (f : FrameCtx) (a : Instr) (log : StructLog) (c x : Int), (chron t)[k]? = some (f, a) →
        out.structLogs[k]? = some log → (counters 0 t.body).1[k]? = some c →
        (around 0 0 t.body)[k]? = some x → f.index = 0 ∨ x = 0 → log.refundCounter = shownRefund c := by
  obtain ⟨s, out, hr, hg, h1, _, h⟩ :=
    C110_exact cfg t opts gas ret hwf hsafe hatt hsteps hfilter hcalls hrev
  refine ⟨s, out, hr, hg, h1, ?_⟩
  intro k f a log c x hk hlog hc hx h0
  have hx0 : x = 0 := by
    rcases h0 with h0 | h0
    · exact around_root t.body 0 ⟨0, none, 0, none, t.hdr, t.body, t.out⟩ 1 Nat.one_pos k (f, a) x hk hx h0
    · exact h0
  obtain ⟨c0, c1⟩ := hpos c (List.mem_of_getElem? hc)
  exact ((h k log c x hlog hc hx).2 c0 c1 (by omega)).2 hx0

/-- **C110, JavaScript.** What `getRefund` of the log object of a step callback gives is likewise the
counter of the transaction less what the frames around had when they called, as 64 bits. -/
theorem C110_js (t : Tx) (hwf : t.WF) (hsafe : Safe (Config.fromGethConfig {}) t.body)
    (hatt : Attached false t.body) {e : Int} (hrev : FrameRefunds 0 t.body e)
    (shape : JsShape) (fails : JsFails) (hstep : shape.hasStep = true)
    (hex : shape.hasExit = true → shape.hasEnter = true) (js : JsInsp)
    (hjs : runHooks (JsInsp.hook shape fails) {} t.events = .ok js) :
    (js.calls.filter isStep).length = (counters 0 t.body).1.length ∧
    ∀ (k : Nat) (v : JsStepLog) (c x : Int), (js.calls.filter isStep)[k]? = some (.step v) →
      (counters 0 t.body).1[k]? = some c → (around 0 0 t.body)[k]? = some x →
      (v.refund : Int) = (c - x) % 2 ^ 64 := by
  obtain ⟨h1, h2, h3⟩ := fromGethConfig_records {} t
  obtain ⟨s, out, hr, hg, hl, hl', h⟩ :=
    C110_exact (Config.fromGethConfig {}) t {} 0 [] hwf hsafe hatt h1 h2 h3 hrev
  obtain ⟨s', out', hr', hg', hn, hj⟩ := C88_steps_partial t {} 0 [] hwf hsafe hatt shape fails hstep hex js hjs
  rw [hr] at hr'
  obtain rfl := Except.ok.inj hr'
  rw [hg] at hg'
  obtain rfl := Except.ok.inj hg'
  refine ⟨by omega, ?_⟩
  intro k v c x hv hc hx
  obtain ⟨log, hlog⟩ : ∃ log, out.structLogs[k]? = some log := by
    have := (List.getElem?_eq_some_iff.1 hc).1
    exact ⟨_, List.getElem?_eq_getElem (by omega)⟩
  have e1 := (h k log c x hlog hc hx).1
  have e2 := (hj k log v hlog hv).2.2.2.2.1
  rw [e1] at e2
  split at e2 <;> split at e2
  · omega
  · nomatch e2
  · nomatch e2
  · have := Option.some.inj e2
    omega

/-! ## Witnesses -/

namespace RefundExample

/-- One instruction that changes the counter of its frame from `r` to `r'`. -/
def at_ (op : OpCode) (pc : Nat) (r r' : Int) (res : InstructionResult) : Act :=
  .step { Example.interp op pc 100 .Continue with gas := ⟨1000, 100, r⟩ } Example.ctx
    { Example.interp op (pc + 1) 90 .Continue with gas := ⟨1000, 90, r'⟩, result := res } Example.ctx

/-- The root clears a slot (refund 4800), calls itself, and the call executes `inner` and then stops; then
the root stops. `r` is the counter of the call at its end. -/
def tx (inner : Act) (r : Int) : Tx where
  hdr := Example.callHdr .Call 0x99 0xa 0xa 0
  body := .act (at_ Op.SSTORE 0 0 4800 .Continue) (.act (at_ Op.CALL 1 4800 4800 .CallOrCreate)
    (.sub (Example.callHdr .Call 0xa 0xa 0xa 0) (.act inner (.act (at_ Op.STOP 1 r r .Stop) .nil))
      { Example.out .Stop with result := { (Example.out .Stop).result with gas := ⟨900, 300, r⟩ } }
      (.act (at_ Op.STOP 2 (4800 + r) (4800 + r) .Stop) .nil)))
  out := Example.out .Stop

/-- The call does nothing to the storage. -/
def idle : Tx := tx (at_ Op.ADD 0 0 0 .Continue) 0

/-- The call sets the slot back, which takes the refund away. -/
def back : Tx := tx (at_ Op.SSTORE 0 0 (-4800) .Continue) (-4800)

theorem ok (inner : Act) (hs : Body.AllSteps (StepSafe Config.defaultGeth) (.act inner .nil)) (r : Int)
    (hw : (Body.act inner (.act (at_ Op.STOP 1 r r .Stop) .nil)).WF) :
    (tx inner r).WF ∧ Safe Config.defaultGeth (tx inner r).body ∧ Attached false (tx inner r).body := by
  have safe : ∀ op pc r r' res, StepSafe Config.defaultGeth
      { Example.interp op pc 100 .Continue with gas := ⟨1000, 100, r⟩ } Example.ctx
      { Example.interp op (pc + 1) 90 .Continue with gas := ⟨1000, 90, r'⟩, result := res } Example.ctx := by
    intro op pc r r' res
    exact ⟨fun _ h => by simp [Config.defaultGeth, StackSnapshotType.isPushes] at h,
      fun _ => Example.journalOK⟩
  refine ⟨⟨fun _ => rfl, fun h => absurd h (by simp [tx, Example.callHdr, Header.isPrecompile,
      Example.ctx]), ?_⟩, ?_, ?_⟩
  · exact ⟨fun _ => rfl, fun h => absurd h (by decide), hw, trivial⟩
  · refine ⟨safe .., safe .., ?_, safe .., trivial⟩
    cases inner with
    | step i c i' c' => exact ⟨hs.1, safe .., trivial⟩
    | aborted i c => exact ⟨safe .., trivial⟩
    | log c l => exact ⟨safe .., trivial⟩
    | selfdestruct x y z => exact ⟨safe .., trivial⟩
  · simp [Attached, tx, isCallStep, entersFrame, at_, Example.interp, Op.CALL, Op.SSTORE, Op.STOP,
      Body.hasSub]

theorem ok_step (op : OpCode) (r r' : Int) :
    Body.AllSteps (StepSafe Config.defaultGeth) (.act (at_ op 0 r r' .Continue) .nil) :=
  ⟨⟨fun _ h => by simp [Config.defaultGeth, StackSnapshotType.isPushes] at h,
    fun _ => Example.journalOK⟩, trivial⟩

theorem idle_ok : idle.WF ∧ Safe Config.defaultGeth idle.body ∧ Attached false idle.body :=
  ok _ (ok_step ..) _ trivial

theorem back_ok : back.WF ∧ Safe Config.defaultGeth back.body ∧ Attached false back.body :=
  ok _ (ok_step ..) _ trivial

theorem idle_refunds : FrameRefunds 0 idle.body 4800 :=
  ⟨rfl, rfl, 0, ⟨rfl, rfl, rfl⟩, fun _ => rfl, rfl, rfl⟩

theorem back_refunds : FrameRefunds 0 back.body 0 :=
  ⟨rfl, rfl, -4800, ⟨rfl, rfl, rfl⟩, fun _ => rfl, rfl, rfl⟩

end RefundExample

/-- The example meets the hypotheses; the counters, and what the frames around have. -/
example : RefundExample.idle.WF ∧ Safe Config.defaultGeth RefundExample.idle.body ∧
    Attached false RefundExample.idle.body ∧ FrameRefunds 0 RefundExample.idle.body 4800 ∧
    (∀ c ∈ (counters 0 RefundExample.idle.body).1, 0 ≤ c ∧ c < 2 ^ 64) ∧
    (counters 0 RefundExample.idle.body).1 = [0, 4800, 4800, 4800, 4800] ∧
    around 0 0 RefundExample.idle.body = [0, 0, 4800, 4800, 0] :=
  ⟨RefundExample.idle_ok.1, RefundExample.idle_ok.2.1, RefundExample.idle_ok.2.2,
    RefundExample.idle_refunds, by decide, by decide, by decide⟩

/-- **C110, refuted.** The root collects a refund of 4800 and calls: the logs of the call show no refund,
although the transaction has one. If the call takes the refund away again, its next log shows
18446744073709546816, although the transaction has none. -/
theorem C110_refuted :
    (RefundExample.idle.WF ∧ Safe Config.defaultGeth RefundExample.idle.body ∧
      Attached false RefundExample.idle.body ∧ FrameRefunds 0 RefundExample.idle.body 4800) ∧
    (RefundExample.back.WF ∧ Safe Config.defaultGeth RefundExample.back.body ∧
      Attached false RefundExample.back.body ∧ FrameRefunds 0 RefundExample.back.body 0) ∧
    (∃ s out, TI.run Config.defaultGeth TI.new RefundExample.idle.events = .ok s ∧
      gethTraces s.arena 0 [] {} = .ok out ∧
      (counters 0 RefundExample.idle.body).1.map shownRefund =
        [none, some 4800, some 4800, some 4800, some 4800] ∧
      out.structLogs.map (·.refundCounter) = [none, some 4800, none, none, some 4800]) ∧
    ∃ s out, TI.run Config.defaultGeth TI.new RefundExample.back.events = .ok s ∧
      gethTraces s.arena 0 [] {} = .ok out ∧
      (counters 0 RefundExample.back.body).1.map shownRefund =
        [none, some 4800, some 4800, none, none] ∧
      out.structLogs.map (·.refundCounter) =
        [none, some 4800, none, some 18446744073709546816, none] :=
  ⟨⟨RefundExample.idle_ok.1, RefundExample.idle_ok.2.1, RefundExample.idle_ok.2.2,
      RefundExample.idle_refunds⟩,
    ⟨RefundExample.back_ok.1, RefundExample.back_ok.2.1, RefundExample.back_ok.2.2,
      RefundExample.back_refunds⟩,
    ⟨_, _, rfl, rfl, by decide, by decide⟩, ⟨_, _, rfl, rfl, by decide, by decide⟩⟩

end Verif.Props
