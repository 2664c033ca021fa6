import Verif.Spec.JsInspector
import Verif.Props.JsValues
import Verif.Props.Standalone
/-! C49, C50, C60, C61, C63, C64: the JavaScript inspector over executions. -/
namespace Verif.Props
open Spec

variable (shape : JsShape) (fails : JsFails)

/-- An `enter` of a call throws, among the given callbacks. -/
def EnterThrows (cbs : List JsCallback) : Prop :=
  ∃ (n : Nat) (f : JsFrameItem), cbs[n]? = some (.enter f) ∧ f.kind ≠ .Create ∧ f.kind ≠ .Create2 ∧
    (fails n).isSome = true

theorem EnterThrows.append {cbs : List JsCallback} (h : EnterThrows fails cbs)
    (more : List JsCallback) : EnterThrows fails (cbs ++ more) := by
  obtain ⟨n, f, h1, h2, h3⟩ := h
  refine ⟨n, f, ?_, h2, h3⟩
  rw [List.getElem?_append_left (List.getElem?_eq_some_iff.mp h1).1]
  exact h1

theorem jsFrame_at (h : Header) (d : Nat) : jsFrame (match h with
    | .call c inp => .call (c.at d) inp
    | .create c inp => .create (c.at d) inp) = jsFrame h := by
  cases h <;> rfl

/-- The state after these invocations. -/
def said (s : JsInsp) (cbs : List JsCallback) : JsInsp := { s with calls := s.calls ++ cbs }

theorem said_said (s : JsInsp) (a b : List JsCallback) : said (said s a) b = said s (a ++ b) := by
  simp [said]

/-- What `call` and `create` push. -/
theorem pushCall_call (s : JsInsp) (inp : CallInputs) (c : Ctx) :
    s.pushCall (JsInsp.callFromTo inp).2 inp.input (inp.transferValue.getD 0)
      (CallKind.ofCallScheme inp.scheme) (JsInsp.callFromTo inp).1 inp.gasLimit =
    { s with callStack := s.callStack ++ [jsFrame (.call c inp)] } := by
  obtain ⟨input, gl, ba, ta, ca, v, sch⟩ := inp
  cases v <;> cases sch <;> rfl

/-- One frame is opened. -/
theorem hook_enter (s : JsInsp) (h : Header) (d : Nat) (hr : s.precompilesRegistered = false) :
    let cbs := when (shape.hasEnter && s.callStack.length != 0) (.enter (jsFrame h))
    let s' := { s with
      callStack := s.callStack ++ [jsFrame h]
      calls := s.calls ++ cbs }
    JsInsp.hook shape fails s (h.enter d) = .ok s' ∨
    (JsInsp.hook shape fails s (h.enter d) = .error .todo ∧ EnterThrows fails (s.calls ++ cbs)) := by
  obtain ⟨stack, reg, ip, calls⟩ := s
  simp only at hr
  subst hr
  cases h with
  | call c inp =>
    simp only [Header.enter, JsInsp.hook, JsInsp.respond, JsInsp.call, JsInsp.registerPrecompiles,
      Bool.not_false, if_true]
    rw [pushCall_call _ inp c]
    simp only [JsInsp.canCallEnter, JsInsp.isRootCallActive, List.length_append, List.length_cons,
      List.length_nil]
    have e1 : (!(stack.length + (0 + 1) == 1)) = (stack.length != 0) := by
      simp only [bne]; congr 1; simp
    rw [e1]
    cases hb : (shape.hasEnter && stack.length != 0) with
    | false => left; simp [when]
    | true =>
      simp only [if_true, JsInsp.activeCall, List.getLast?_concat]
      have hE : shape.hasEnter = true := by simp at hb; exact hb.1
      simp only [JsInsp.tryEnter, hE, if_true, JsInsp.invoke, when]
      cases hf : fails calls.length with
      | none => left; rfl
      | some err =>
        right
        refine ⟨rfl, calls.length, jsFrame (.call c inp), by simp, ?_, ?_, by simp [hf]⟩
        all_goals
          obtain ⟨input, gl, ba, ta, ca, v, sch⟩ := inp
          cases sch <;> exact nofun
  | create c inp =>
    left
    have hp : ∀ s : JsInsp, s.pushCall (inp.createdAddress ((c.at d).nonce inp.caller)) inp.initCode inp.value
        (CallKind.ofCreateScheme inp.scheme) inp.caller inp.gasLimit =
        { s with callStack := s.callStack ++ [jsFrame (.create c inp)] } := by
      intro s
      obtain ⟨ca, sch, v, ic, gl, f⟩ := inp
      cases sch <;> rfl
    simp only [Header.enter, JsInsp.hook, JsInsp.respond, JsInsp.create, JsInsp.registerPrecompiles,
      Bool.not_false, if_true]
    rw [hp]
    simp only [JsInsp.canCallEnter, JsInsp.isRootCallActive, List.length_append, List.length_cons,
      List.length_nil]
    have e1 : (!(stack.length + (0 + 1) == 1)) = (stack.length != 0) := by
      simp only [bne]; congr 1; simp
    rw [e1]
    cases hb : (shape.hasEnter && stack.length != 0) with
    | false => simp [when]
    | true =>
      simp only [if_true, JsInsp.activeCall, List.getLast?_concat]
      have hE : shape.hasEnter = true := by simp at hb; exact hb.1
      simp only [JsInsp.tryEnter, hE, if_true, JsInsp.invoke, when]
      cases hf : fails calls.length <;> rfl

/-- One frame is closed. -/
theorem hook_leave (hex : shape.hasExit = true → shape.hasEnter = true) (s : JsInsp) (h : Header)
    (d : Nat) (o : Outcome) :
    JsInsp.hook shape fails s (h.leave d o) = .ok { s with
      callStack := s.callStack.dropLast
      calls := s.calls ++ when (shape.hasExit && s.callStack.length != 1)
        (.exit (o.result.gas.limit - o.result.gas.remaining) o.result.output none) } := by
  have key : ∀ a : Option Address, ∃ r, JsInsp.frameEnd shape fails s o.result a = .ok ({ s with
      callStack := s.callStack.dropLast
      calls := s.calls ++ when (shape.hasExit && s.callStack.length != 1)
        (.exit (o.result.gas.limit - o.result.gas.remaining) o.result.output none) }, r) := by
    intro a
    have e1 : JsInsp.canCallExit shape s = (shape.hasEnter && s.callStack.length != 1) := rfl
    unfold JsInsp.frameEnd
    rw [e1]
    cases hE : shape.hasEnter with
    | false =>
      have hX : shape.hasExit = false := by
        cases hx : shape.hasExit with
        | false => rfl
        | true => rw [hex hx] at hE; cases hE
      exact ⟨{ reply := .finish o.result a }, by simp [JsInsp.popCall, hX, when]⟩
    | true =>
      cases hl : (s.callStack.length != 1) with
      | false => exact ⟨{ reply := .finish o.result a }, by simp [JsInsp.popCall, when]⟩
      | true =>
        simp only [Bool.and_self, if_true, JsInsp.tryExit, Bool.and_true]
        cases hX : shape.hasExit with
        | false => exact ⟨{ reply := .finish o.result a }, by simp [JsInsp.popCall, when]⟩
        | true =>
          simp only [if_true, JsInsp.invoke, when]
          cases fails s.calls.length with
          | none => exact ⟨_, rfl⟩
          | some err => exact ⟨_, rfl⟩
  cases h with
  | call c inp =>
    obtain ⟨r, hr⟩ := key none
    simp only [Header.leave, JsInsp.hook, JsInsp.respond, hr]
  | create c inp =>
    obtain ⟨r, hr⟩ := key o.address
    simp only [Header.leave, JsInsp.hook, JsInsp.respond, hr]

theorem hook_step (s : JsInsp) (pre : List JsFrameItem) (f : JsFrameItem)
    (hs : s.callStack = pre ++ [f]) (i : Interp) (c : Ctx) (d : Nat) :
    JsInsp.hook shape fails s (.step i (c.at d)) =
      .ok (said s (when shape.hasStep (.step (jsView d f i none)))) := by
  cases hS : shape.hasStep with
  | false => simp [JsInsp.hook, JsInsp.respond, JsInsp.step, hS, when, said]
  | true =>
    simp only [JsInsp.hook, JsInsp.respond, JsInsp.step, hS, Bool.not_true, Bool.false_eq_true,
      if_false, JsInsp.activeCall, hs, List.getLast?_concat, JsInsp.invoke, when, if_true, said]
    rfl

theorem hook_stepEnd (s : JsInsp) (pre : List JsFrameItem) (f : JsFrameItem)
    (hs : s.callStack = pre ++ [f]) (i : Interp) (c : Ctx) (d : Nat) :
    JsInsp.hook shape fails s (.stepEnd i (c.at d)) =
      .ok (said s (when (shape.hasStep && shape.hasFault && i.result.isRevertClass)
        (.fault (jsView d f i (some i.result.debug))))) := by
  cases hS : shape.hasStep with
  | false => simp [JsInsp.hook, JsInsp.respond, JsInsp.stepEnd, hS, when, said]
  | true =>
    cases hR : i.result.isRevertClass with
    | false => simp [JsInsp.hook, JsInsp.respond, JsInsp.stepEnd, hS, hR, when, said]
    | true =>
      cases hF : shape.hasFault with
      | false =>
        simp [JsInsp.hook, JsInsp.respond, JsInsp.stepEnd, hS, hR, hF, JsInsp.activeCall, hs,
          JsInsp.tryFault, when, said]
        rw [← hs]
      | true =>
        simp only [JsInsp.hook, JsInsp.respond, JsInsp.stepEnd, hS, hR, hF, Bool.not_true,
          Bool.false_eq_true, if_false, if_true, JsInsp.activeCall, hs, List.getLast?_concat,
          JsInsp.tryFault, JsInsp.invoke, when, Bool.and_self, said]
        rfl

theorem hook_selfdestruct (s : JsInsp) (pre : List JsFrameItem) (f : JsFrameItem)
    (hs : s.callStack = pre ++ [f]) (a t : Address) (v : U256) :
    JsInsp.hook shape fails s (.selfdestruct a t v) =
      .ok (said s (when shape.hasEnter (.enter f) ++ when shape.hasExit (.exit 0 [] none))) := by
  obtain ⟨stack, reg, ip, calls⟩ := s
  simp only at hs
  subst hs
  simp only [JsInsp.hook, JsInsp.respond, JsInsp.selfdestruct, JsInsp.activeCall,
    List.getLast?_concat, JsInsp.tryEnter, JsInsp.tryExit, when, JsInsp.invoke, said]
  cases shape.hasEnter <;> cases shape.hasExit <;> simp

theorem run_cons {σ : Type} (hook : σ → Event → R σ) (s s' : σ) (e : Event) (es : List Event)
    (h : hook s e = .ok s') : runHooks hook s (e :: es) = runHooks hook s' es := by
  simp [runHooks, h]

/-- The hooks of a frame's body. -/
theorem run_body (hex : shape.hasExit = true → shape.hasEnter = true) (b : Body) :
    ∀ (d : Nat) (s : JsInsp) (pre : List JsFrameItem) (f : JsFrameItem),
    s.callStack = pre ++ [f] → s.precompilesRegistered = false →
    runHooks (JsInsp.hook shape fails) s (b.events d) = .ok (said s (jsCallbacks shape d f b)) ∨
    (runHooks (JsInsp.hook shape fails) s (b.events d) = .error .todo ∧
      EnterThrows fails (s.calls ++ jsCallbacks shape d f b)) := by
  induction b with
  | nil => intro d s pre f hs hr; left; simp [Body.events, runHooks, jsCallbacks, said]
  | act a rest ih =>
    intro d s pre f hs hr
    cases a with
    | step i c i' c' =>
      simp only [Body.events, Act.events, List.cons_append, List.nil_append]
      rw [run_cons _ _ _ _ _ (hook_step shape fails s pre f hs i c d),
        run_cons _ _ _ _ _ (hook_stepEnd shape fails (said s _) pre f hs i' c' d), said_said]
      have := ih d (said s (when shape.hasStep (.step (jsView d f i none)) ++
        when (shape.hasStep && shape.hasFault && i'.result.isRevertClass)
          (.fault (jsView d f i' (some i'.result.debug))))) pre f hs hr
      rw [said_said] at this
      simpa only [jsCallbacks, said, List.append_assoc] using this
    | aborted i c =>
      simp only [Body.events, Act.events, List.cons_append, List.nil_append]
      rw [run_cons _ _ _ _ _ (hook_step shape fails s pre f hs i c d)]
      have := ih d (said s (when shape.hasStep (.step (jsView d f i none)))) pre f hs hr
      rw [said_said] at this
      simpa only [jsCallbacks, said, List.append_assoc] using this
    | log c l =>
      simp only [Body.events, Act.events, List.cons_append, List.nil_append]
      rw [run_cons _ _ s _ _ rfl]
      exact ih d s pre f hs hr
    | selfdestruct a t v =>
      simp only [Body.events, Act.events, List.cons_append, List.nil_append]
      rw [run_cons _ _ _ _ _ (hook_selfdestruct shape fails s pre f hs a t v)]
      have := ih d (said s (when shape.hasEnter (.enter f) ++
        when shape.hasExit (.exit 0 [] none))) pre f hs hr
      rw [said_said] at this
      simpa only [jsCallbacks, said, List.append_assoc] using this
  | sub h b o rest ihb ihr =>
    intro d s pre f hs hr
    simp only [Body.events]
    have hlen : (s.callStack.length != 0) = true := by simp [hs]
    have hen := hook_enter shape fails s h d hr
    simp only [hlen, Bool.and_true] at hen
    let exitCb : JsCallback :=
      .exit (o.result.gas.limit - o.result.gas.remaining) o.result.output none
    rcases hen with hen | ⟨hen, hthrow⟩
    · rw [run_cons _ _ _ _ _ hen, runHooks_append]
      let s1 : JsInsp := { s with
        callStack := s.callStack ++ [jsFrame h]
        calls := s.calls ++ when shape.hasEnter (.enter (jsFrame h)) }
      have hb' := ihb (d + 1) s1 s.callStack (jsFrame h) rfl hr
      rcases hb' with hb | ⟨hb, hthrow⟩
      · rw [hb]
        simp only
        rw [run_cons _ _ _ _ _ (hook_leave shape fails hex _ h d o)]
        have hl : ((said s1 (jsCallbacks shape (d + 1) (jsFrame h) b)).callStack.length != 1) = true
          := by simp [said, s1, hs]
        simp only [hl, Bool.and_true]
        have := ihr d (said s (when shape.hasEnter (.enter (jsFrame h)) ++
          jsCallbacks shape (d + 1) (jsFrame h) b ++ when shape.hasExit exitCb)) pre f hs hr
        rw [said_said] at this
        simpa only [jsCallbacks, said, s1, exitCb, List.append_assoc, List.dropLast_concat]
          using this
      · right
        rw [hb]
        refine ⟨rfl, ?_⟩
        have := hthrow.append fails (when shape.hasExit exitCb ++ jsCallbacks shape d f rest)
        simpa only [jsCallbacks, s1, exitCb, List.append_assoc] using this
    · right
      refine ⟨by simp [runHooks, hen], ?_⟩
      have := hthrow.append fails (jsCallbacks shape (d + 1) (jsFrame h) b ++
        (when shape.hasExit exitCb ++ jsCallbacks shape d f rest))
      simpa only [jsCallbacks, exitCb, List.append_assoc] using this

/-- C50, partial: for every tracer that defines `enter` if it defines `exit`, whichever of its
callbacks throw, and every execution: the callbacks are those of the specification, properly nested,
and the call stack is empty at the end; the only panic is the one of an `enter` that throws for a
call. What is missing: see `C50_refuted_exit` and `C50_refuted_enter`. -/
theorem C50_callbacks_partial (hex : shape.hasExit = true → shape.hasEnter = true) (t : Tx) :
    runHooks (JsInsp.hook shape fails) {} t.events = .ok { calls := jsTxCallbacks shape t } ∨
    (runHooks (JsInsp.hook shape fails) {} t.events = .error .todo ∧
      EnterThrows fails (jsTxCallbacks shape t)) := by
  unfold Tx.events
  have hen := hook_enter shape fails {} t.hdr 0 rfl
  simp only [List.length_nil, bne_self_eq_false, Bool.and_false, when, Bool.false_eq_true, if_false,
    List.append_nil, List.nil_append] at hen
  rcases hen with hen | ⟨_, n, f, hn, _⟩
  · rw [run_cons _ _ _ _ _ hen, runHooks_append]
    rcases run_body shape fails hex t.body 1 { callStack := [jsFrame t.hdr] } [] (jsFrame t.hdr) rfl
      rfl with hb | ⟨hb, hthrow⟩
    · left
      rw [hb]
      simp only
      rw [run_cons _ _ _ _ _ (hook_leave shape fails hex _ t.hdr 0 t.out)]
      simp [runHooks, when, jsTxCallbacks, said]
    · right
      rw [hb]
      exact ⟨rfl, by simpa [jsTxCallbacks] using hthrow⟩
  · simp at hn

/-- A hook changes the call stack as it opens or closes a frame. -/
theorem hook_stack (s s' : JsInsp) (e : Event) (es : List Event)
    (h : JsInsp.hook shape fails s e = .ok s') :
    openFrames s.callStack (e :: es) = openFrames s'.callStack es := by
  have cs : ∀ (s : JsInsp) (cb : JsCallback), (s.invoke fails cb).1.callStack = s.callStack :=
    fun _ _ => rfl
  have hd : ∀ (r : InterpreterResult) (a : Option Address) (s' : JsInsp) (rep : JsReply),
      JsInsp.frameEnd shape fails s r a = .ok (s', rep) → s'.callStack = s.callStack.dropLast := by
    intro r a s' rep h
    unfold JsInsp.frameEnd JsInsp.tryExit at h
    split at h
    · split at h
      · rename_i heq
        simp only [Except.ok.injEq, Prod.mk.injEq] at h
        rw [← h.1]
        split at heq
        · simp only [JsInsp.invoke, Prod.mk.injEq] at heq
          rw [← heq.1]; rfl
        · cases heq
      · rename_i heq
        simp only [Except.ok.injEq, Prod.mk.injEq] at h
        rw [← h.1]
        split at heq
        · simp only [JsInsp.invoke, Prod.mk.injEq] at heq
          rw [← heq.1]; rfl
        · simp only [Prod.mk.injEq, and_true] at heq
          rw [← heq]; rfl
    · simp only [Except.ok.injEq, Prod.mk.injEq] at h
      rw [← h.1]; rfl
  have hreg : ∀ (s : JsInsp) (ps : List Address), (s.registerPrecompiles ps).callStack = s.callStack
      := by
    intro s ps; unfold JsInsp.registerPrecompiles; split <;> rfl
  unfold JsInsp.hook at h
  split at h
  · cases h
  · rename_i s'' rep heq
    simp only [Except.ok.injEq] at h
    subst h
    cases e with
    | step i c =>
      simp only [JsInsp.respond, JsInsp.step] at heq
      split at heq
      · simp only [Except.ok.injEq, Prod.mk.injEq] at heq; rw [← heq.1]; rfl
      · split at heq
        · cases heq
        · simp only [Except.ok.injEq, Prod.mk.injEq] at heq; rw [← heq.1]; rfl
    | stepEnd i c =>
      simp only [JsInsp.respond, JsInsp.stepEnd] at heq
      split at heq
      · simp only [Except.ok.injEq, Prod.mk.injEq] at heq; rw [← heq.1]; rfl
      · split at heq
        · split at heq
          · cases heq
          · simp only [Except.ok.injEq, Prod.mk.injEq] at heq; rw [← heq.1, JsInsp.tryFault]
            split <;> rfl
        · simp only [Except.ok.injEq, Prod.mk.injEq] at heq; rw [← heq.1]; rfl
    | log c l =>
      simp only [JsInsp.respond, Except.ok.injEq, Prod.mk.injEq] at heq
      rw [← heq.1]; rfl
    | call c inp =>
      simp only [JsInsp.respond, JsInsp.call] at heq
      rw [pushCall_call _ inp c] at heq
      simp only [openFrames]
      split at heq
      · split at heq
        · cases heq
        · split at heq
          · cases heq
          · rename_i hte
            simp only [Except.ok.injEq, Prod.mk.injEq] at heq
            rw [← heq.1]
            unfold JsInsp.tryEnter at hte
            split at hte
            · simp only [JsInsp.invoke, Prod.mk.injEq] at hte
              rw [← hte.1]
              simp only [hreg]
            · simp only [Prod.mk.injEq, and_true] at hte
              rw [← hte]
              simp only [hreg]
      · simp only [Except.ok.injEq, Prod.mk.injEq] at heq
        rw [← heq.1]
        simp only [hreg]
    | callEnd c inp r =>
      simp only [JsInsp.respond] at heq
      simp only [openFrames, hd _ _ _ _ heq]
    | create c inp =>
      have hp : ∀ s : JsInsp, s.pushCall (inp.createdAddress (c.nonce inp.caller)) inp.initCode
          inp.value (CallKind.ofCreateScheme inp.scheme) inp.caller inp.gasLimit =
          { s with callStack := s.callStack ++ [jsFrame (.create c inp)] } := by
        intro s
        obtain ⟨ca, sch, v, ic, gl, f⟩ := inp
        cases sch <;> rfl
      simp only [JsInsp.respond, JsInsp.create] at heq
      rw [hp] at heq
      simp only [openFrames]
      split at heq
      · split at heq
        · cases heq
        · unfold JsInsp.tryEnter at heq
          split at heq <;>
          · rename_i hte
            simp only [Except.ok.injEq, Prod.mk.injEq] at heq
            rw [← heq.1]
            split at hte
            · simp only [JsInsp.invoke, Prod.mk.injEq] at hte
              rw [← hte.1]
              simp only [hreg]
            · first
              | (simp only [Prod.mk.injEq, and_true] at hte
                 rw [← hte]
                 simp only [hreg])
              | cases hte
      · simp only [Except.ok.injEq, Prod.mk.injEq] at heq
        rw [← heq.1]
        simp only [hreg]
    | createEnd c inp r a =>
      simp only [JsInsp.respond] at heq
      simp only [openFrames, hd _ _ _ _ heq]
    | selfdestruct a t v =>
      simp only [JsInsp.respond, JsInsp.selfdestruct, JsInsp.tryEnter, JsInsp.tryExit] at heq
      split at heq
      · split at heq
        · cases heq
        · split at heq <;>
          · simp only [Except.ok.injEq, Prod.mk.injEq] at heq
            rw [← heq.1]
            simp [JsInsp.invoke, openFrames]
      · split at heq <;>
        · simp only [Except.ok.injEq, Prod.mk.injEq] at heq
          rw [← heq.1]
          simp [JsInsp.invoke, openFrames]

/-- C50: at every moment (after any hooks) the call stack consists of the open frames, outermost
first, for every tracer and whatever throws. -/
theorem C50_stack (es : List Event) (s s' : JsInsp)
    (h : runHooks (JsInsp.hook shape fails) s es = .ok s') :
    s'.callStack = openFrames s.callStack es := by
  induction es generalizing s with
  | nil => simp only [runHooks, Except.ok.injEq] at h; subst h; rfl
  | cons e es ih =>
    simp only [runHooks] at h
    cases hh : JsInsp.hook shape fails s e with
    | error p => simp [hh] at h
    | ok s1 =>
      simp only [hh] at h
      rw [ih s1 h, ← hook_stack shape fails s s1 e es hh]

end Verif.Props
