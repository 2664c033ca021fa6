import Verif.Props.JsExact
/-! C121: a JavaScript tracer that watches several transactions. -/
namespace Verif.Props
open Spec

/-- The state of a tracer that had heard `pre` before. -/
def JsInsp.after (pre : List JsCallback) (s : JsInsp) : JsInsp := { s with calls := pre ++ s.calls }

/-- The exceptions of the callbacks after the first `n`. -/
def laterFails (n : Nat) (fails : JsFails) : JsFails := fun k => fails (n + k)

/-- The state in which a hook leaves the inspector, in a tracer that had heard `pre` before. -/
def liftJs (pre : List JsCallback) : R (JsInsp × JsReply) → R (JsInsp × JsReply)
  | .error p => .error p
  | .ok (s, r) => .ok (JsInsp.after pre s, r)

theorem invoke_after (fails : JsFails) (pre : List JsCallback) (s : JsInsp) (cb : JsCallback) :
    (JsInsp.after pre s).invoke fails cb =
      (JsInsp.after pre (s.invoke (laterFails pre.length fails) cb).1,
       (s.invoke (laterFails pre.length fails) cb).2) := by
  simp [JsInsp.invoke, JsInsp.after, laterFails]

theorem tryEnter_after (shape : JsShape) (fails : JsFails) (pre : List JsCallback) (s : JsInsp)
    (f : JsFrameItem) : (JsInsp.after pre s).tryEnter shape fails f =
      (JsInsp.after pre (s.tryEnter shape (laterFails pre.length fails) f).1,
       (s.tryEnter shape (laterFails pre.length fails) f).2) := by
  unfold JsInsp.tryEnter
  split
  · exact invoke_after ..
  · rfl

theorem tryExit_after (shape : JsShape) (fails : JsFails) (pre : List JsCallback) (s : JsInsp)
    (g : Nat) (o : Bytes) (e : Option String) : (JsInsp.after pre s).tryExit shape fails g o e =
      (JsInsp.after pre (s.tryExit shape (laterFails pre.length fails) g o e).1,
       (s.tryExit shape (laterFails pre.length fails) g o e).2) := by
  unfold JsInsp.tryExit
  split
  · exact invoke_after ..
  · rfl

theorem tryFault_after (shape : JsShape) (fails : JsFails) (pre : List JsCallback) (s : JsInsp)
    (l : JsStepLog) : (JsInsp.after pre s).tryFault shape fails l =
      JsInsp.after pre (s.tryFault shape (laterFails pre.length fails) l) := by
  unfold JsInsp.tryFault
  split
  · rw [invoke_after]
  · rfl

theorem frameEnd_after (shape : JsShape) (fails : JsFails) (pre : List JsCallback) (s : JsInsp)
    (r : InterpreterResult) (a : Option Address) : (JsInsp.after pre s).frameEnd shape fails r a =
      liftJs pre (s.frameEnd shape (laterFails pre.length fails) r a) := by
  unfold JsInsp.frameEnd
  rw [show (JsInsp.after pre s).canCallExit shape = s.canCallExit shape from rfl]
  split
  · rw [tryExit_after]
    cases s.tryExit shape (laterFails pre.length fails) r.gas.spent r.output none with
    | mk s' e => cases e <;> rfl
  · rfl

theorem start_after (shape : JsShape) (fails : JsFails) (pre : List JsCallback) (s : JsInsp)
    (k : JsFrameItem → JsFrameItem)
    (onErr : JsInsp → Bytes → R (JsInsp × JsReply)) (hErr : ∀ s e, onErr (JsInsp.after pre s) e = liftJs pre (onErr s e)) :
    (if (JsInsp.after pre s).canCallEnter shape then
      match (JsInsp.after pre s).activeCall with
      | .error p => .error p
      | .ok call =>
        match (JsInsp.after pre s).tryEnter shape fails (k call) with
        | (s, some e) => onErr s e
        | (s, none) => .ok (s, { reply := .start none })
     else (.ok (JsInsp.after pre s, { reply := .start none }) : R (JsInsp × JsReply))) =
    liftJs pre (if s.canCallEnter shape then
      match s.activeCall with
      | .error p => .error p
      | .ok call =>
        match s.tryEnter shape (laterFails pre.length fails) (k call) with
        | (s, some e) => onErr s e
        | (s, none) => .ok (s, { reply := .start none })
     else .ok (s, { reply := .start none })) := by
  rw [show (JsInsp.after pre s).canCallEnter shape = s.canCallEnter shape from rfl,
    show (JsInsp.after pre s).activeCall = s.activeCall from rfl]
  split
  · cases s.activeCall with
    | error p => rfl
    | ok call =>
      simp only
      rw [tryEnter_after]
      cases s.tryEnter shape (laterFails pre.length fails) (k call) with
      | mk s' e =>
        cases e with
        | none => rfl
        | some e => exact hErr _ _
  · rfl

theorem register_after (pre : List JsCallback) (s : JsInsp) (ps : List Address) :
    (JsInsp.after pre s).registerPrecompiles ps = JsInsp.after pre (s.registerPrecompiles ps) := by
  unfold JsInsp.registerPrecompiles
  rw [show (JsInsp.after pre s).precompilesRegistered = s.precompilesRegistered from rfl]
  split <;> rfl

theorem respond_after (shape : JsShape) (fails : JsFails) (pre : List JsCallback) (s : JsInsp) (e : Event) :
    (JsInsp.after pre s).respond shape fails e =
      liftJs pre (s.respond shape (laterFails pre.length fails) e) := by
  cases e with
  | step i c =>
    simp only [JsInsp.respond, JsInsp.step]
    rw [show (JsInsp.after pre s).activeCall = s.activeCall from rfl]
    split
    · rfl
    · cases s.activeCall with
      | error p => rfl
      | ok call => simp only [invoke_after]; rfl
  | stepEnd i c =>
    simp only [JsInsp.respond, JsInsp.stepEnd]
    rw [show (JsInsp.after pre s).activeCall = s.activeCall from rfl]
    split
    · rfl
    · split
      · cases s.activeCall with
        | error p => rfl
        | ok call => simp only [tryFault_after]; rfl
      · rfl
  | log c l => rfl
  | call c inp =>
    simp only [JsInsp.respond, JsInsp.call, register_after]
    exact start_after shape fails pre ((s.registerPrecompiles c.precompiles).pushCall (JsInsp.callFromTo inp).2
      inp.input (inp.transferValue.getD 0) (CallKind.ofCallScheme inp.scheme) (JsInsp.callFromTo inp).1
      inp.gasLimit) (fun call => ⟨call.contract, call.kind, inp.gasLimit⟩)
      (fun _ _ => .error .todo) (fun _ _ => rfl)
  | callEnd c inp r => exact frameEnd_after ..
  | create c inp =>
    simp only [JsInsp.respond, JsInsp.create, register_after]
    exact start_after shape fails pre ((s.registerPrecompiles c.precompiles).pushCall
      (inp.createdAddress (c.nonce inp.caller)) inp.initCode inp.value (CallKind.ofCreateScheme inp.scheme)
      inp.caller inp.gasLimit) (fun call => ⟨call.contract, call.kind, call.gas⟩)
      (fun s err => .ok (s, { reply := .start (some (JsInsp.errorToRevert err, none)) })) (fun _ _ => rfl)
  | createEnd c inp r a => exact frameEnd_after ..
  | selfdestruct a t v =>
    simp only [JsInsp.respond, JsInsp.selfdestruct]
    rw [show (JsInsp.after pre s).activeCall = s.activeCall from rfl]
    split
    · cases s.activeCall with
      | error p => rfl
      | ok call =>
        simp only [tryEnter_after, tryExit_after]
        split <;> rfl
    · split
      · simp only [tryExit_after]; rfl
      · rfl

theorem runHooks_after (shape : JsShape) (fails : JsFails) (pre : List JsCallback) (es : List Event) :
    ∀ s : JsInsp, runHooks (JsInsp.hook shape fails) (JsInsp.after pre s) es =
      match runHooks (JsInsp.hook shape (laterFails pre.length fails)) s es with
      | .error p => .error p
      | .ok s' => .ok (JsInsp.after pre s') := by
  induction es with
  | nil => intro s; rfl
  | cons e es ih =>
    intro s
    simp only [runHooks, JsInsp.hook, respond_after]
    cases s.respond shape (laterFails pre.length fails) e with
    | error p => rfl
    | ok x => exact ih x.1

/-- What separate inspectors with the same tracer would hear of the transactions, one after the other; that the
tracer throws in a callback is numbered through all of them. A panic ends it. -/
def heardSeparately (shape : JsShape) : JsFails → List Tx → R (List JsCallback)
  | _, [] => .ok []
  | fails, t :: ts =>
    match runHooks (JsInsp.hook shape fails) {} t.events with
    | .error p => .error p
    | .ok s =>
      match heardSeparately shape (laterFails s.calls.length fails) ts with
      | .error p => .error p
      | .ok rest => .ok (s.calls ++ rest)

theorem runHooks_fresh {shape : JsShape} {fails : JsFails} {t : Tx} {s : JsInsp}
    (h : runHooks (JsInsp.hook shape fails) {} t.events = .ok s) : s = JsInsp.after s.calls {} := by
  rw [C50_exact] at h
  split at h
  · cases h
  · cases h
    simp [JsInsp.after]

/-- **C121.** A JavaScript tracer that watches any number of transactions hears of each what it would hear with
an inspector of its own, in the order of the transactions, whichever functions it defines and whichever of its
callbacks throw; and its inspector panics only where a separate one would. Afterwards the inspector is as new but
for what the tracer has heard. -/
theorem C121_several (shape : JsShape) (ts : List Tx) : ∀ fails : JsFails,
    runHooks (JsInsp.hook shape fails) {} (ts.flatMap Tx.events) =
      match heardSeparately shape fails ts with
      | .error p => .error p
      | .ok cs => .ok { calls := cs } := by
  induction ts with
  | nil => intro fails; rfl
  | cons t ts ih =>
    intro fails
    rw [List.flatMap_cons, runHooks_append, heardSeparately]
    cases h : runHooks (JsInsp.hook shape fails) {} t.events with
    | error p => rfl
    | ok s =>
      simp only
      rw [runHooks_fresh h, runHooks_after, ih]
      simp only [JsInsp.after, List.append_nil]
      cases heardSeparately shape (laterFails s.calls.length fails) ts <;> rfl

/-- **C121**, the answers to the EVM. After any transactions, at every moment of the next one, every hook is
answered as by an inspector of its own: the same reply, the same reverts and panics. -/
theorem C121_replies (shape : JsShape) (fails : JsFails) (ts : List Tx) (pre : List JsCallback)
    (hpre : heardSeparately shape fails ts = .ok pre) (es : List Event) (s : JsInsp)
    (hs : runHooks (JsInsp.hook shape (laterFails pre.length fails)) {} es = .ok s) :
    ∃ s', runHooks (JsInsp.hook shape fails) {} (ts.flatMap Tx.events ++ es) = .ok s' ∧
      s'.callStack = s.callStack ∧ s'.calls = pre ++ s.calls ∧
      ∀ e, (s'.respond shape fails e).map (·.2) =
        (s.respond shape (laterFails pre.length fails) e).map (·.2) := by
  refine ⟨JsInsp.after pre s, ?_, rfl, rfl, fun e => ?_⟩
  · rw [runHooks_append, C121_several, hpre]
    have := runHooks_after shape fails pre es {}
    rw [hs] at this
    simpa [JsInsp.after] using this
  · rw [respond_after]
    cases s.respond shape (laterFails pre.length fails) e with
    | error p => rfl
    | ok x => rfl

/-- The example, watched twice by a tracer with all functions one of whose callbacks in the second transaction
throws (the `exit` of its first frame that is left). -/
example : ∃ cs, heardSeparately ⟨true, true, true, true⟩ (fun n => if n = 25 then some [1] else none)
    [Example.tx, Example.tx] = .ok cs ∧ 25 < cs.length := ⟨_, rfl, by decide⟩

end Verif.Props
