import Verif.Props.JsInspector
import Verif.Model.JsDb
import Verif.Props.StandaloneExamples
/-! C49, C50 (failures), C59, C60, C61, C63, C64: what a JavaScript tracer can rely on. -/
namespace Verif.Props
open Spec

/-! ### C50: failures and example -/

/-- C50 fails: a tracer with `exit` and without `enter` never hears of the end of a sub-frame. -/
theorem C50_refuted_exit : ∃ (shape : JsShape) (t : Tx), shape.hasExit = true ∧
    ∀ fails : JsFails, ∃ s, runHooks (JsInsp.hook shape fails) {} t.events = .ok s ∧
      s.calls = [] ∧ jsTxCallbacks shape t ≠ [] := by
  refine ⟨⟨false, true, false, true⟩, ⟨StandaloneExample.hdr 0 [], .sub (StandaloneExample.hdr 0 []) .nil
    StandaloneExample.out .nil, StandaloneExample.out⟩, rfl, fun fails => ⟨{}, rfl, rfl, ?_⟩⟩
  simp [jsTxCallbacks, jsCallbacks, when]

/-- C50 fails: an exception in `enter` for a call panics. -/
theorem C50_refuted_enter : ∃ (shape : JsShape) (fails : JsFails) (t : Tx),
    runHooks (JsInsp.hook shape fails) {} t.events = .error .todo :=
  ⟨⟨true, true, false, true⟩, fun _ => some [], ⟨StandaloneExample.hdr 0 [],
    .sub (StandaloneExample.hdr 0 []) .nil StandaloneExample.out .nil, StandaloneExample.out⟩, rfl⟩

/-- An execution with a call, a create and a selfdestruct, seen by a tracer with all callbacks. -/
example : ∃ s, runHooks (JsInsp.hook ⟨true, true, true, true⟩ (fun _ => none)) {}
    StandaloneExample.tx.events = .ok s ∧ s.callStack = [] ∧ s.calls.length = 11 := ⟨_, rfl, rfl, rfl⟩

/-! ### C49 -/

/-- A hook does not register the precompiles unless they are registered already. -/
theorem hook_unregistered (shape : JsShape) (fails : JsFails) (s s' : JsInsp) (e : Event)
    (h : JsInsp.hook shape fails s e = .ok s')
    (hs : s.precompilesRegistered = false ∧ s.isPrecompiled = none) :
    s'.precompilesRegistered = false ∧ s'.isPrecompiled = none := by
  obtain ⟨stack, reg, ip, calls⟩ := s
  simp only at hs
  obtain ⟨rfl, rfl⟩ := hs
  unfold JsInsp.hook at h
  split at h
  · cases h
  · rename_i s'' rep heq
    simp only [Except.ok.injEq] at h
    subst h
    cases e with
    | step i c =>
      simp only [JsInsp.respond, JsInsp.step] at heq
      split at heq
      · simp only [Except.ok.injEq, Prod.mk.injEq] at heq; rw [← heq.1]; exact ⟨rfl, rfl⟩
      · split at heq
        · cases heq
        · simp only [Except.ok.injEq, Prod.mk.injEq] at heq; rw [← heq.1]; exact ⟨rfl, rfl⟩
    | stepEnd i c =>
      simp only [JsInsp.respond, JsInsp.stepEnd] at heq
      split at heq
      · simp only [Except.ok.injEq, Prod.mk.injEq] at heq; rw [← heq.1]; exact ⟨rfl, rfl⟩
      · split at heq
        · split at heq
          · cases heq
          · simp only [Except.ok.injEq, Prod.mk.injEq] at heq; rw [← heq.1, JsInsp.tryFault]
            split <;> exact ⟨rfl, rfl⟩
        · simp only [Except.ok.injEq, Prod.mk.injEq] at heq; rw [← heq.1]; exact ⟨rfl, rfl⟩
    | log c l =>
      simp only [JsInsp.respond, Except.ok.injEq, Prod.mk.injEq] at heq
      rw [← heq.1]; exact ⟨rfl, rfl⟩
    | call c inp =>
      simp only [JsInsp.respond, JsInsp.call, JsInsp.registerPrecompiles, Bool.not_false, if_true,
        JsInsp.pushCall, JsInsp.activeCall, List.getLast?_concat, JsInsp.tryEnter, JsInsp.invoke]
        at heq
      split at heq
      · split at heq
        · cases heq
        · rename_i hte
          simp only [Except.ok.injEq, Prod.mk.injEq] at heq
          rw [← heq.1]
          split at hte <;> (simp only [Prod.mk.injEq] at hte; rw [← hte.1]; exact ⟨rfl, rfl⟩)
      · simp only [Except.ok.injEq, Prod.mk.injEq] at heq
        rw [← heq.1]; exact ⟨rfl, rfl⟩
    | create c inp =>
      simp only [JsInsp.respond, JsInsp.create, JsInsp.registerPrecompiles, Bool.not_false, if_true,
        JsInsp.pushCall, JsInsp.activeCall, List.getLast?_concat, JsInsp.tryEnter, JsInsp.invoke]
        at heq
      split at heq
      · split at heq <;>
        · rename_i hte
          simp only [Except.ok.injEq, Prod.mk.injEq] at heq
          rw [← heq.1]
          split at hte <;> (simp only [Prod.mk.injEq] at hte; rw [← hte.1]; exact ⟨rfl, rfl⟩)
      · simp only [Except.ok.injEq, Prod.mk.injEq] at heq
        rw [← heq.1]; exact ⟨rfl, rfl⟩
    | callEnd c inp r =>
      simp only [JsInsp.respond, JsInsp.frameEnd, JsInsp.tryExit, JsInsp.invoke] at heq
      split at heq
      · split at heq <;>
        · rename_i hte
          simp only [Except.ok.injEq, Prod.mk.injEq] at heq
          rw [← heq.1]
          split at hte <;> (simp only [Prod.mk.injEq] at hte; rw [← hte.1]; exact ⟨rfl, rfl⟩)
      · simp only [Except.ok.injEq, Prod.mk.injEq] at heq
        rw [← heq.1]; exact ⟨rfl, rfl⟩
    | createEnd c inp r a =>
      simp only [JsInsp.respond, JsInsp.frameEnd, JsInsp.tryExit, JsInsp.invoke] at heq
      split at heq
      · split at heq <;>
        · rename_i hte
          simp only [Except.ok.injEq, Prod.mk.injEq] at heq
          rw [← heq.1]
          split at hte <;> (simp only [Prod.mk.injEq] at hte; rw [← hte.1]; exact ⟨rfl, rfl⟩)
      · simp only [Except.ok.injEq, Prod.mk.injEq] at heq
        rw [← heq.1]; exact ⟨rfl, rfl⟩
    | selfdestruct a t v =>
      simp only [JsInsp.respond, JsInsp.selfdestruct, JsInsp.tryEnter, JsInsp.tryExit,
        JsInsp.invoke] at heq
      split at heq
      · split at heq
        · cases heq
        · split at heq <;>
          · simp only [Except.ok.injEq, Prod.mk.injEq] at heq
            rw [← heq.1]; exact ⟨rfl, rfl⟩
      · split at heq <;>
        · simp only [Except.ok.injEq, Prod.mk.injEq] at heq
          rw [← heq.1]; exact ⟨rfl, rfl⟩

/-- C49 fails for every history: whatever hooks a tracer went through, `isPrecompiled` is not there,
and calling it throws for every argument. -/
theorem C49_refuted (shape : JsShape) (fails : JsFails) (es : List Event) (s : JsInsp)
    (h : runHooks (JsInsp.hook shape fails) {} es = .ok s) (v : JsBuf) :
    s.callIsPrecompiled v = .ok none := by
  have key : ∀ (es : List Event) (s s' : JsInsp),
      s.precompilesRegistered = false ∧ s.isPrecompiled = none →
      runHooks (JsInsp.hook shape fails) s es = .ok s' → s'.isPrecompiled = none := by
    intro es
    induction es with
    | nil => intro s s' hs h; simp only [runHooks, Except.ok.injEq] at h; subst h; exact hs.2
    | cons e es ih =>
      intro s s' hs h
      simp only [runHooks] at h
      cases hh : JsInsp.hook shape fails s e with
      | error p => simp [hh] at h
      | ok s1 =>
        simp only [hh] at h
        exact ih s1 s' (hook_unregistered shape fails s s1 e hh hs) h
  unfold JsInsp.callIsPrecompiled
  rw [key es {} s ⟨rfl, rfl⟩ h]

theorem beBytes_length (n x : Nat) : (beBytes n x).length = n := by
  induction n generalizing x with
  | zero => rfl
  | succ n ih => simp [beBytes, ih]

theorem beNat_beBytes (n x : Nat) : beNat (beBytes n x) = x % 256 ^ n := by
  induction n generalizing x with
  | zero => simp [beBytes, beNat, Nat.mod_one]
  | succ n ih =>
    simp only [beBytes, beNat_append, ih, beNat, List.length_cons, List.length_nil, Nat.zero_add,
      Nat.pow_one, Nat.pow_zero, Nat.mul_one, Nat.add_zero]
    have h : (UInt8.ofNat (x % 256)).toNat = x % 256 := by
      simp
    rw [h, Nat.pow_succ, Nat.mul_comm (256 ^ n) 256, Nat.mod_mul]
    omega

/-- C49, partial: if the function were registered with a set of precompiles it would answer, for
every value that denotes bytes, whether the address of these bytes is in the set. What is missing: it
is never registered (`C49_refuted`). -/
theorem C49_callable_partial (s : JsInsp) (ps : List Address) (hs : s.isPrecompiled = some ps)
    (v : JsBuf) (b : Bytes) (hv : fromBuf v = some b) :
    s.callIsPrecompiled v = .ok (some (decide (∃ a ∈ ps, a.toNat = beNat b % 2 ^ 160))) := by
  obtain ⟨x, hx, hl, hn⟩ := (C46_conversions b).1
  simp only [JsInsp.callIsPrecompiled, hs, jsIsPrecompiled, hv, hx, Except.ok.injEq,
    Option.some.injEq]
  rw [Bool.eq_iff_iff]
  simp only [List.contains_iff_mem, List.mem_map, decide_eq_true_eq]
  have h256 : (256 : Nat) ^ 20 = 2 ^ 160 := by decide
  constructor
  · rintro ⟨a, ha, rfl⟩
    refine ⟨a, ha, ?_⟩
    rw [beNat_beBytes, h256, Nat.mod_eq_of_lt a.isLt] at hn
    exact hn
  · rintro ⟨a, ha, he⟩
    refine ⟨a, ha, beNat_inj _ _ (by rw [beBytes_length, hl]) ?_⟩
    rw [beNat_beBytes, h256, Nat.mod_eq_of_lt a.isLt, hn, he]

example : ({ isPrecompiled := some [1, 2] } : JsInsp).callIsPrecompiled (.ofBytes [2]) =
    .ok (some true) := by rfl

/-! ### C60 -/

/-- C60, partial: the constructor succeeds only for code that evaluates to an object whose `result`
is a function and whose `fault` is an object, whose `setup` is a function that returns, or no object;
it has just those callbacks that are functions. What is missing: `fault` need not be a function. -/
theorem C60_new_partial (p : JsProgram) (shape : JsShape) :
    jsNew p = .ok shape ↔ ∃ fault enter exit step setup setupOk,
      p = .object .function fault enter exit step setup true setupOk ∧
      (fault = .object ∨ fault = .function) ∧
      enter ≠ .throws ∧ exit ≠ .throws ∧ step ≠ .throws ∧
      (setup = .value ∨ (setup = .function ∧ setupOk = true)) ∧
      shape = ⟨decide (enter = .function), decide (exit = .function), decide (step = .function),
        decide (fault = .function)⟩ := by
  constructor
  · intro h
    cases p with
    | evalError => cases h
    | value => cases h
    | object result fault enter exit step setup configOk setupOk =>
      refine ⟨fault, enter, exit, step, setup, setupOk, ?_⟩
      have opt : ∀ (x : JsField) (b : Bool), x.optional = .ok b →
          x ≠ .throws ∧ b = decide (x = .function) := by
        intro x b hx
        cases x <;> simp_all [JsField.optional]
      simp only [jsNew] at h
      split at h
      · cases h
      · rename_i rc hrc
        have hres : rc = true → result = .function := by
          intro e; subst e; cases result <;> simp_all [JsField.asObject]
        cases rc with
        | false => cases h
        | true =>
          simp only [Bool.not_true, Bool.false_eq_true, if_false] at h
          split at h
          · cases h
          · rename_i fc hfc
            have hfault : (fault = .object ∨ fault = .function) ∧ fc = decide (fault = .function) := by
              cases fault <;> simp_all [JsField.asObject]
            split at h
            · cases h
            · rename_i be hbe
              split at h
              · cases h
              · rename_i bx hbx
                split at h
                · cases h
                · rename_i bs hbs
                  cases configOk with
                  | false => cases h
                  | true =>
                    simp only [Bool.not_true, Bool.false_eq_true, if_false] at h
                    obtain ⟨e1, e2⟩ := opt enter be hbe
                    obtain ⟨x1, x2⟩ := opt exit bx hbx
                    obtain ⟨s1, s2⟩ := opt step bs hbs
                    subst e2 x2 s2
                    obtain ⟨hfault, rfl⟩ := hfault
                    refine ⟨by rw [hres rfl], hfault, e1, x1, s1, ?_⟩
                    cases setupOk <;> cases setup <;> simp_all [jsSetup]
  · rintro ⟨fault, enter, exit, step, setup, setupOk, rfl, hf, he, hx, hs, hu, rfl⟩
    rcases hf with rfl | rfl <;> rcases hu with rfl | ⟨rfl, rfl⟩ <;> cases enter <;> cases exit <;>
      cases step <;> first | rfl | (exact absurd rfl he) | (exact absurd rfl hx) |
        (exact absurd rfl hs)

/-- What is wrong with a tracer program, with the error that names it, in the order in which the fields
are looked at. -/
def complaints : JsProgram → List JsInspectorError
  | .evalError => [.evalCode]
  | .value => [.expectedJsObject]
  | .object result fault enter exit step setup configOk setupOk =>
    ([(result = .throws, .jsError), (result = .value ∨ result = .object, .resultFunctionMissing),
      (fault = .throws, .jsError), (fault = .value, .faultFunctionMissing),
      (enter = .throws, .jsError), (exit = .throws, .jsError), (step = .throws, .jsError),
      (configOk = false, .invalidJsonConfig), (setup = .throws, .jsError),
      (setup = .object, .setupFunctionNotCallable),
      (setup = .function ∧ setupOk = false, .setupCallFailed)] :
      List (Bool × JsInspectorError)).filterMap (fun c => if c.1 then some c.2 else none)

/-- C60: the constructor fails exactly if something is wrong with the program, and gives the error that
names the first thing that is wrong. -/
theorem C60_errors (p : JsProgram) (e : JsInspectorError) :
    jsNew p = .error e ↔ (complaints p).head? = some e := by
  cases p with
  | evalError => simp [jsNew, complaints]
  | value => simp [jsNew, complaints]
  | object result fault enter exit step setup configOk setupOk =>
    cases result <;> simp only [jsNew, complaints, JsField.asObject] <;> try (simp; done)
    cases fault <;> simp only [JsField.asObject] <;> try (simp; done)
    all_goals
      cases enter <;> simp only [JsField.optional] <;> try (simp; done)
      all_goals
        cases exit <;> simp only [JsField.optional] <;> try (simp; done)
        all_goals
          cases step <;> simp only [JsField.optional] <;> try (simp; done)
          all_goals
            cases configOk <;> try (simp; done)
            all_goals cases setup <;> cases setupOk <;> simp [jsSetup]

example : jsNew (.object .function .value .value .throws .value .value true true) =
    .error .faultFunctionMissing := by rfl

/-- C60 fails: a tracer whose `fault` cannot be called is accepted. -/
theorem C60_refuted : ∃ (p : JsProgram) (result enter exit step setup : JsField),
    p = .object result .object enter exit step setup true true ∧ ∃ shape, jsNew p = .ok shape :=
  ⟨_, .function, .value, .value, .value, .value, rfl, _, rfl⟩

/-! ### C61, C63 -/

theorem filter_when (p : JsCallback → Bool) (b : Bool) (x : JsCallback) :
    (when b x).filter p = when (b && p x) x := by
  cases b <;> cases h : p x <;> simp [when, h]

/-- C63, partial: a tracer with `step` gets exactly one `step` callback for each instruction that is
started, in the order of execution, with the interpreter's program counter, opcode, stack, memory and
remaining gas, the number of open frames, the refund and the running frame's contract. What is missing:
`cost` (see `C63_refuted`). -/
theorem C63_steps_partial (shape : JsShape) (fails : JsFails) (hstep : shape.hasStep = true)
    (hex : shape.hasExit = true → shape.hasEnter = true) (t : Tx) (s : JsInsp)
    (h : runHooks (JsInsp.hook shape fails) {} t.events = .ok s) :
    s.calls.filter isStep = (started 1 (jsFrame t.hdr) t.body).map (fun x =>
      .step (jsView x.1 x.2.1 x.2.2.1 none)) := by
  have key : ∀ (b : Body) (d : Nat) (f : JsFrameItem), (jsCallbacks shape d f b).filter isStep =
      (started d f b).map (fun x => .step (jsView x.1 x.2.1 x.2.2.1 none)) := by
    intro b
    induction b with
    | nil => intro d f; rfl
    | act a rest ih =>
      intro d f
      cases a <;>
        simp only [jsCallbacks, started, List.filter_append, filter_when, isStep, hstep, ih,
          Bool.and_false, Bool.and_true, List.map_cons] <;> simp [when]
    | sub h b o rest ihb ihr =>
      intro d f
      simp only [jsCallbacks, started, List.filter_append, filter_when, isStep, ihb, ihr,
        Bool.and_false, List.map_append]
      simp [when]
  rcases C50_callbacks_partial shape fails hex t with hr | ⟨hr, _⟩
  · rw [hr] at h
    simp only [Except.ok.injEq] at h
    subst h
    exact key t.body 1 (jsFrame t.hdr)
  · rw [hr] at h; cases h

/-- C63 fails: the `cost` handed to `step` is not the gas the instruction costs. -/
theorem C63_refuted : ∃ (t : Tx) (s : JsInsp) (log : JsStepLog) (cost : Nat) (i : Interp),
    runHooks (JsInsp.hook ⟨false, false, true, true⟩ (fun _ => none)) {} t.events = .ok s ∧
    s.calls = [.step log] ∧ started 1 (jsFrame t.hdr) t.body = [(1, jsFrame t.hdr, i, some cost)] ∧
    log.cost ≠ cost :=
  ⟨⟨StandaloneExample.hdr 0 [], .act (StandaloneExample.instr 0x01 [] 1000 997) .nil,
    StandaloneExample.out⟩, _, _, _, _, rfl, rfl, rfl, by decide⟩

/-- C61, partial: a tracer with `step` and a function as `fault` hears of as many failures as there are failed instructions, if
instructions fail only by a revert. What is missing: other failures, and tracers without `step` (see
`C61_refuted`). -/
theorem C61_fault_partial (shape : JsShape) (fails : JsFails) (hstep : shape.hasStep = true)
    (hfault : shape.hasFault = true) (hex : shape.hasExit = true → shape.hasEnter = true) (t : Tx)
    (hrev : OnlyReverts t.body)
    (s : JsInsp) (h : runHooks (JsInsp.hook shape fails) {} t.events = .ok s) :
    (s.calls.filter isFault).length = failures t.body := by
  have hcls : ∀ r : InstructionResult, (Failed r → r.isRevertClass = true) →
      (r.isRevertClass = true ↔ (r.isOk = false ∧ r ≠ .CallOrCreate)) := by
    intro r hr
    refine ⟨?_, hr⟩
    cases r <;> simp [InstructionResult.isRevertClass, InstructionResult.isOk]
  have key : ∀ (b : Body) (d : Nat) (f : JsFrameItem), OnlyReverts b →
      ((jsCallbacks shape d f b).filter isFault).length = failures b := by
    intro b
    induction b with
    | nil => intro d f _; rfl
    | act a rest ih =>
      intro d f hb
      cases a with
      | step i c i' c' =>
        obtain ⟨h1, h2⟩ := hb
        have := hcls i'.result h1
        simp only [jsCallbacks, List.filter_append, filter_when, isFault, Bool.and_false,
          Bool.and_true, hstep, hfault, Bool.true_and, failures, List.length_append, ih d f h2]
        by_cases hc : i'.result.isRevertClass = true
        · rw [if_pos (this.mp hc)]; simp [when, hc]
        · rw [if_neg (fun e => hc (this.mpr e))]; simp [when, hc]
      | aborted i c =>
        have := ih d f hb
        simp only [jsCallbacks, List.filter_append, filter_when, isFault, failures, this,
          Bool.and_false, List.length_append]
        simp [when]
      | log c l => exact ih d f hb
      | selfdestruct a t v =>
        have := ih d f hb
        simp only [jsCallbacks, List.filter_append, filter_when, isFault, failures, this,
          Bool.and_false, List.length_append]
        simp [when]
    | sub h b o rest ihb ihr =>
      intro d f hb
      have h1 := ihb (d + 1) (jsFrame h) hb.1
      have h2 := ihr d f hb.2
      simp only [jsCallbacks, List.filter_append, filter_when, isFault, failures, h1, h2,
        Bool.and_false, List.length_append]
      simp [when]
  rcases C50_callbacks_partial shape fails hex t with hr | ⟨hr, _⟩
  · rw [hr] at h
    simp only [Except.ok.injEq] at h
    subst h
    exact key t.body 1 (jsFrame t.hdr) hrev
  · rw [hr] at h; cases h

/-- A frame with one instruction that ends like this, at the next program counter. -/
def failing (r : InstructionResult) : Tx :=
  ⟨StandaloneExample.hdr 0 [], .act (.step { (default : Interp) with op := 0xfd, pc := 7 } default
    { (default : Interp) with op := 0x00, pc := 8, result := r } default) .nil,
    StandaloneExample.out⟩

/-- C61 fails: an instruction that runs out of gas is not reported; a revert is not reported to a
tracer without `step`; a revert is reported with the program counter and opcode that follow; and a
tracer whose `fault` is an object but no function is accepted by the constructor and hears nothing. -/
theorem C61_refuted :
    (∃ s, runHooks (JsInsp.hook ⟨true, true, true, true⟩ (fun _ => none)) {} (failing .OutOfGas).events =
      .ok s ∧ s.calls.filter isFault = []) ∧
    (∃ s, runHooks (JsInsp.hook ⟨true, true, false, true⟩ (fun _ => none)) {} (failing .Revert).events =
      .ok s ∧ s.calls.filter isFault = []) ∧
    (∃ (s : JsInsp) (log : JsStepLog),
      runHooks (JsInsp.hook ⟨true, true, true, true⟩ (fun _ => none)) {} (failing .Revert).events =
      .ok s ∧ s.calls.filter isFault = [.fault log] ∧ log.pc = 8 ∧ log.op = 0x00) ∧
    (∃ shape s, jsNew (.object .function .object .value .value .function .value true true) = .ok shape ∧
      shape.hasStep = true ∧
      runHooks (JsInsp.hook shape (fun _ => none)) {} (failing .Revert).events = .ok s ∧
      s.calls.filter isFault = []) ∧
    failures (failing .OutOfGas).body = 1 ∧ failures (failing .Revert).body = 1 :=
  ⟨⟨_, rfl, rfl⟩, ⟨_, rfl, rfl⟩, ⟨_, _, rfl, rfl, rfl, rfl⟩, ⟨_, _, rfl, rfl, rfl, rfl⟩, rfl, rfl⟩

/-- The hypothesis of `C61_fault_partial` holds for the reverting example. -/
example : OnlyReverts (failing .Revert).body := ⟨fun _ => rfl, trivial⟩

/-! ### C64 -/

theorem registerPrecompiles_calls (s : JsInsp) (ps : List Address) :
    (s.registerPrecompiles ps).calls = s.calls := by
  unfold JsInsp.registerPrecompiles; split <;> rfl

theorem pushCall_calls (s : JsInsp) (a : Address) (b : Bytes) (v : U256) (k : CallKind) (ca : Address)
    (g : Nat) : (s.pushCall a b v k ca g).calls = s.calls := rfl

/-- What the hook at the end of a frame gives back. -/
theorem frameEnd_reply (shape : JsShape) (fails : JsFails) (s s' : JsInsp) (r : JsReply)
    (res : InterpreterResult) (a : Option Address)
    (h : s.frameEnd shape fails res a = .ok (s', r)) :
    (s'.calls.length = s.calls.length ∧ r = ⟨.finish res a, false⟩) ∨
    (s'.calls.length = s.calls.length + 1 ∧ ((fails s.calls.length = none ∧ r = ⟨.finish res a, false⟩) ∨
      ∃ err, fails s.calls.length = some err ∧ r = ⟨.finish ⟨.Revert, err, ⟨0, 0, 0⟩⟩ a, false⟩)) := by
  unfold JsInsp.frameEnd JsInsp.tryExit at h
  split at h
  · split at h
    · rename_i err heq
      simp only [Except.ok.injEq, Prod.mk.injEq] at h
      split at heq
      · simp only [JsInsp.invoke, Prod.mk.injEq] at heq
        refine .inr ⟨?_, .inr ⟨err, heq.2, h.2.symm⟩⟩
        rw [← h.1, ← heq.1]
        simp [JsInsp.popCall]
      · cases heq
    · rename_i heq
      simp only [Except.ok.injEq, Prod.mk.injEq] at h
      split at heq
      · simp only [JsInsp.invoke, Prod.mk.injEq] at heq
        refine .inr ⟨?_, .inl ⟨heq.2, h.2.symm⟩⟩
        rw [← h.1, ← heq.1]
        simp [JsInsp.popCall]
      · simp only [Prod.mk.injEq, and_true] at heq
        refine .inl ⟨?_, h.2.symm⟩
        rw [← h.1, ← heq]
        rfl
  · simp only [Except.ok.injEq, Prod.mk.injEq] at h
    exact .inl ⟨by rw [← h.1]; rfl, h.2.symm⟩

/-- What a hook that runs to its end gives back: it calls nothing, or calls one function of the tracer,
which throws or not; a call, the end of an instruction and a selfdestruct never give back anything but what an
inspector gives that only watches. -/
theorem respond_reply (shape : JsShape) (fails : JsFails) (s s' : JsInsp) (e : Event) (r : JsReply)
    (h : s.respond shape fails e = .ok (s', r)) :
    (r = ⟨Reply.default e, false⟩ ∧
      (CanRevert e → ∀ n, InvokedIn s s' n → fails n = none)) ∨
    (CanRevert e ∧ s'.calls.length = s.calls.length + 1 ∧
      ∃ err, fails s.calls.length = some err ∧ HookReverts e err r) := by
  have fin : ∀ (res : InterpreterResult) (a : Option Address),
      s.frameEnd shape fails res a = .ok (s', r) →
      (r = ⟨.finish res a, false⟩ ∧ ∀ n, InvokedIn s s' n → fails n = none) ∨
      (s'.calls.length = s.calls.length + 1 ∧ ∃ err, fails s.calls.length = some err ∧
        r = ⟨.finish ⟨.Revert, err, ⟨0, 0, 0⟩⟩ a, false⟩) := by
    intro res a h
    rcases frameEnd_reply shape fails s s' r res a h with ⟨hl, hr⟩ | ⟨hl, ⟨hn, hr⟩ | he⟩
    · refine .inl ⟨hr, fun n hn => ?_⟩
      unfold InvokedIn at hn
      omega
    · refine .inl ⟨hr, fun n hi => ?_⟩
      unfold InvokedIn at hi
      rw [show n = s.calls.length by omega]
      exact hn
    · exact .inr ⟨hl, he⟩
  cases e with
  | step i c =>
    simp only [JsInsp.respond, JsInsp.step] at h
    split at h
    · simp only [Except.ok.injEq, Prod.mk.injEq] at h
      refine .inl ⟨h.2.symm, fun _ n hn => ?_⟩
      rw [← h.1] at hn
      exact absurd hn.2 (Nat.not_lt.mpr hn.1)
    · split at h
      · cases h
      · rename_i call _
        simp only [JsInsp.invoke, Except.ok.injEq, Prod.mk.injEq] at h
        have hl : s'.calls.length = s.calls.length + 1 := by rw [← h.1]; simp
        cases hf : fails s.calls.length with
        | none =>
          rw [hf] at h
          refine .inl ⟨h.2.symm, fun _ n hi => ?_⟩
          unfold InvokedIn at hi
          rw [show n = s.calls.length by omega]
          exact hf
        | some err =>
          rw [hf] at h
          exact .inr ⟨trivial, hl, err, rfl, h.2.symm⟩
  | stepEnd i c =>
    refine .inl ⟨?_, False.elim⟩
    simp only [JsInsp.respond, JsInsp.stepEnd] at h
    split at h
    · simp only [Except.ok.injEq, Prod.mk.injEq] at h; exact h.2.symm
    · split at h
      · split at h
        · cases h
        · simp only [Except.ok.injEq, Prod.mk.injEq] at h; exact h.2.symm
      · simp only [Except.ok.injEq, Prod.mk.injEq] at h; exact h.2.symm
  | log c l =>
    refine .inl ⟨?_, False.elim⟩
    simp only [JsInsp.respond, Except.ok.injEq, Prod.mk.injEq] at h; exact h.2.symm
  | call c inp =>
    left
    simp only [JsInsp.respond, JsInsp.call, JsInsp.tryEnter] at h
    split at h
    · split at h
      · cases h
      · split at h
        · cases h
        · rename_i heq
          simp only [Except.ok.injEq, Prod.mk.injEq] at h
          refine ⟨h.2.symm, fun _ n hi => ?_⟩
          unfold InvokedIn at hi
          split at heq
          · simp only [JsInsp.invoke, Prod.mk.injEq] at heq
            rw [pushCall_calls, registerPrecompiles_calls] at heq
            have hl : s'.calls.length = s.calls.length + 1 := by rw [← h.1, ← heq.1]; simp
            rw [show n = s.calls.length by omega]
            exact heq.2
          · simp only [Prod.mk.injEq, and_true] at heq
            rw [← h.1, ← heq, pushCall_calls, registerPrecompiles_calls] at hi
            omega
    · simp only [Except.ok.injEq, Prod.mk.injEq] at h
      refine ⟨h.2.symm, fun _ n hi => ?_⟩
      unfold InvokedIn at hi
      rw [← h.1, pushCall_calls, registerPrecompiles_calls] at hi
      omega
  | callEnd c inp res =>
    rcases fin res none h with ⟨hr, hn⟩ | ⟨hl, he⟩
    · exact .inl ⟨hr, fun _ => hn⟩
    · exact .inr ⟨trivial, hl, he⟩
  | create c inp =>
    simp only [JsInsp.respond, JsInsp.create, JsInsp.tryEnter] at h
    split at h
    · split at h
      · cases h
      · split at h
        · rename_i call _ _ _ err heq
          simp only [Except.ok.injEq, Prod.mk.injEq] at h
          split at heq
          · simp only [JsInsp.invoke, Prod.mk.injEq] at heq
            rw [pushCall_calls, registerPrecompiles_calls] at heq
            refine .inr ⟨trivial, ?_, err, heq.2, h.2.symm⟩
            rw [← h.1, ← heq.1]
            simp
          · cases heq
        · rename_i heq
          simp only [Except.ok.injEq, Prod.mk.injEq] at h
          refine .inl ⟨h.2.symm, fun _ n hi => ?_⟩
          unfold InvokedIn at hi
          split at heq
          · simp only [JsInsp.invoke, Prod.mk.injEq] at heq
            rw [pushCall_calls, registerPrecompiles_calls] at heq
            have hl : s'.calls.length = s.calls.length + 1 := by rw [← h.1, ← heq.1]; simp
            rw [show n = s.calls.length by omega]
            exact heq.2
          · simp only [Prod.mk.injEq, and_true] at heq
            rw [← h.1, ← heq, pushCall_calls, registerPrecompiles_calls] at hi
            omega
    · simp only [Except.ok.injEq, Prod.mk.injEq] at h
      refine .inl ⟨h.2.symm, fun _ n hi => ?_⟩
      unfold InvokedIn at hi
      rw [← h.1, pushCall_calls, registerPrecompiles_calls] at hi
      omega
  | createEnd c inp res a =>
    rcases fin res a h with ⟨hr, hn⟩ | ⟨hl, he⟩
    · exact .inl ⟨hr, fun _ => hn⟩
    · exact .inr ⟨trivial, hl, he⟩
  | selfdestruct a t v =>
    refine .inl ⟨?_, False.elim⟩
    simp only [JsInsp.respond, JsInsp.selfdestruct] at h
    split at h
    · split at h
      · cases h
      · split at h <;> (simp only [Except.ok.injEq, Prod.mk.injEq] at h; exact h.2.symm)
    · split at h <;> (simp only [Except.ok.injEq, Prod.mk.injEq] at h; exact h.2.symm)

/-- C64, first half: a hook of the JavaScript inspector behaves towards the EVM like an inspector that
only watches if no function of the tracer throws in it. -/
theorem C64_interference_partial (shape : JsShape) (fails : JsFails) (s s' : JsInsp) (e : Event)
    (r : JsReply) (h : s.respond shape fails e = .ok (s', r))
    (hn : ∀ n, InvokedIn s s' n → fails n = none) : r = ⟨Reply.default e, false⟩ := by
  rcases respond_reply shape fails s s' e r h with ⟨hr, _⟩ | ⟨_, hl, err, he, _⟩
  · exact hr
  · have := hn s.calls.length ⟨Nat.le_refl _, by omega⟩
    rw [he] at this
    cases this

/-- C64, second half, for the hooks that can hand a revert to the EVM and return at all: if a function of
the tracer throws in the hook, the running frame is reverted or the outcome of the frame is a revert with the
exception as its output; the address of a create is kept. -/
theorem C64_throws_partial (shape : JsShape) (fails : JsFails) (s s' : JsInsp) (e : Event)
    (r : JsReply) (h : s.respond shape fails e = .ok (s', r)) (he : CanRevert e) (n : Nat)
    (hn : InvokedIn s s' n) (err : Bytes) (hf : fails n = some err) : HookReverts e err r := by
  rcases respond_reply shape fails s s' e r h with ⟨_, ha⟩ | ⟨_, hl, err', he', hr⟩
  · rw [ha he n hn] at hf
    cases hf
  · unfold InvokedIn at hn
    rw [show n = s.calls.length by omega, he'] at hf
    cases hf
    exact hr

theorem activeCall_error (s : JsInsp) (p : Panic) : s.activeCall = .error p ↔
    s.callStack = [] ∧ p = .expect "call stack is empty" := by
  unfold JsInsp.activeCall
  cases h : s.callStack.getLast? with
  | none =>
    rw [List.getLast?_eq_none_iff] at h
    simp [h, eq_comm]
  | some c =>
    have : s.callStack ≠ [] := by rintro h'; rw [h'] at h; cases h
    simp [this]

theorem pushed_active (s : JsInsp) (a : Address) (d : Bytes) (v : U256) (k : CallKind) (c : Address) (g : Nat) :
    (∃ call, (s.pushCall a d v k c g).activeCall = .ok call) ∧
    ((s.pushCall a d v k c g).isRootCallActive = true ↔ s.callStack = []) := by
  simp [JsInsp.pushCall, JsInsp.activeCall, JsInsp.isRootCallActive]

theorem respond_panics (shape : JsShape) (fails : JsFails) (s : JsInsp) (e : Event) :
    (∃ p, s.respond shape fails e = .error p) ↔ HookPanics shape fails s e := by
  have hcs : ∀ l, (s.registerPrecompiles l).callStack = s.callStack := by
    intro l
    unfold JsInsp.registerPrecompiles
    split <;> rfl
  have act : (s.callStack = [] ∧ s.activeCall = .error (.expect "call stack is empty")) ∨
      (s.callStack ≠ [] ∧ ∃ c, s.activeCall = .ok c) := by
    by_cases hc : s.callStack = []
    · exact .inl ⟨hc, (activeCall_error s _).2 ⟨hc, rfl⟩⟩
    · refine .inr ⟨hc, ?_⟩
      cases h : s.activeCall with
      | error p => exact absurd ((activeCall_error s p).1 h).1 hc
      | ok c => exact ⟨c, rfl⟩
  cases e with
  | step i c =>
    simp only [JsInsp.respond, JsInsp.step, HookPanics]
    cases shape.hasStep with
    | false => simp
    | true => rcases act with ⟨h1, h2⟩ | ⟨h1, c, h2⟩ <;> simp [h1, h2]
  | stepEnd i c =>
    simp only [JsInsp.respond, JsInsp.stepEnd, HookPanics]
    cases shape.hasStep with
    | false => simp
    | true =>
      cases i.result.isRevertClass with
      | false => simp
      | true => rcases act with ⟨h1, h2⟩ | ⟨h1, c, h2⟩ <;> simp [h1, h2]
  | log a l => simp [JsInsp.respond, HookPanics]
  | call c inp =>
    simp only [JsInsp.respond, JsInsp.call, HookPanics]
    obtain ⟨⟨cl, h1⟩, h2⟩ := pushed_active (s.registerPrecompiles c.precompiles) (JsInsp.callFromTo inp).2 inp.input
      (inp.transferValue.getD 0) (CallKind.ofCallScheme inp.scheme) (JsInsp.callFromTo inp).1 inp.gasLimit
    rw [hcs] at h2
    rw [h1]
    simp only [JsInsp.canCallEnter, JsInsp.tryEnter]
    by_cases he : shape.hasEnter = true
    · simp only [he, Bool.true_and, if_true, true_and]
      by_cases hc : s.callStack = []
      · rw [h2.2 hc]
        simp [hc]
      · have : ∀ b : Bool, (b = true ↔ s.callStack = []) → b = false := by
          intro b hb
          cases b with
          | false => rfl
          | true => exact absurd (hb.1 rfl) hc
        rw [this _ h2]
        simp only [Bool.not_false, if_true, JsInsp.invoke, pushCall_calls, registerPrecompiles_calls]
        cases fails s.calls.length <;> simp [hc]
    · simp [he]
  | callEnd c inp r =>
    simp only [JsInsp.respond, JsInsp.frameEnd, HookPanics, iff_false, not_exists]
    intro p
    split
    · split <;> simp
    · simp
  | create c inp =>
    simp only [JsInsp.respond, JsInsp.create, HookPanics, iff_false, not_exists]
    intro p
    obtain ⟨⟨cl, h1⟩, _⟩ := pushed_active (s.registerPrecompiles c.precompiles) (inp.createdAddress (c.nonce inp.caller))
      inp.initCode inp.value (CallKind.ofCreateScheme inp.scheme) inp.caller inp.gasLimit
    rw [h1]
    split
    · dsimp only
      split <;> simp
    · simp
  | createEnd c inp r a =>
    simp only [JsInsp.respond, JsInsp.frameEnd, HookPanics, iff_false, not_exists]
    intro p
    split
    · split <;> simp
    · simp
  | selfdestruct a t v =>
    simp only [JsInsp.respond, JsInsp.selfdestruct, HookPanics]
    cases shape.hasEnter with
    | false => cases shape.hasExit <;> simp
    | true => rcases act with ⟨h1, h2⟩ | ⟨h1, c, h2⟩ <;> cases shape.hasExit <;> simp [h1, h2]

/-- **C64, exactly.** For every tracer, state and hook: the EVM is answered as by an inspector that only watches
unless the hook can hand over a revert and a function threw in it; then the answer is the revert with the
exception as its output. The hook panics exactly in the cases of `HookPanics`. -/
theorem C64_exact (shape : JsShape) (fails : JsFails) (s : JsInsp) (e : Event) :
    (∀ s' r, s.respond shape fails e = .ok (s', r) →
      (∀ n err, CanRevert e → InvokedIn s s' n → fails n = some err → HookReverts e err r) ∧
      (¬ (CanRevert e ∧ ∃ n, InvokedIn s s' n ∧ fails n ≠ none) → r = ⟨Reply.default e, false⟩)) ∧
    ((∃ p, s.respond shape fails e = .error p) ↔ HookPanics shape fails s e) := by
  refine ⟨fun s' r h => ⟨fun n err hc hn hf => C64_throws_partial shape fails s s' e r h hc n hn err hf, fun hno => ?_⟩,
    respond_panics shape fails s e⟩
  rcases respond_reply shape fails s s' e r h with ⟨hr, _⟩ | ⟨hc, hl, err, he, _⟩
  · exact hr
  · exact absurd ⟨hc, s.calls.length, ⟨Nat.le_refl _, by omega⟩, by simp [he]⟩ hno

/-- C64 is false as it stands. An exception in `fault`, and one in `enter` or `exit` at a selfdestruct,
has no effect, and one in `enter` at a call is a panic. -/
theorem C64_refuted :
    ∃ (shape : JsShape) (fails : JsFails) (s : JsInsp), (∀ n, (fails n).isSome = true) ∧
      (∃ (i : Interp) (c : Ctx) (s' : JsInsp), InvokedIn s s' s.calls.length ∧
        s.respond shape fails (.stepEnd i c) = .ok (s', ⟨Reply.default (.stepEnd i c), false⟩)) ∧
      (∃ s' : JsInsp, InvokedIn s s' s.calls.length ∧ InvokedIn s s' (s.calls.length + 1) ∧
        s.respond shape fails (.selfdestruct 1 2 3) =
          .ok (s', ⟨Reply.default (.selfdestruct 1 2 3), false⟩)) ∧
      (∃ (c : Ctx) (inp : CallInputs), s.respond shape fails (.call c inp) = .error .todo) :=
  ⟨⟨true, true, true, true⟩, fun _ => some [1],
    { callStack := [jsFrame (StandaloneExample.hdr 0 [])] }, fun _ => rfl,
    ⟨{ (default : Interp) with result := .Revert }, default, _, ⟨Nat.le_refl _, by decide⟩, rfl⟩,
    ⟨_, ⟨Nat.le_refl _, by decide⟩, ⟨by decide, by decide⟩, rfl⟩,
    ⟨default, default, rfl⟩⟩

/-- Both cases occur. -/
example : ∃ s s' r r', JsInsp.respond ⟨true, true, true, true⟩ (fun n => if n = 0 then some [1] else none)
      { callStack := [jsFrame (StandaloneExample.hdr 0 [])] } (.step default default) = .ok (s, r) ∧
    r.revert = true ∧
    JsInsp.respond ⟨true, true, true, true⟩ (fun n => if n = 0 then some [1] else none) s
      (.step default default) = .ok (s', r') ∧ r'.revert = false := ⟨_, _, _, _, rfl, rfl, rfl, rfl⟩

/-- A frame whose `exit` throws: the hypotheses of `C64_throws_partial`. -/
example : ∃ s' r, JsInsp.respond ⟨true, true, true, true⟩ (fun _ => some [1])
      { callStack := [jsFrame (StandaloneExample.hdr 0 []), jsFrame (StandaloneExample.hdr 0 [])] }
      (.callEnd default default default) = .ok (s', r) ∧
    CanRevert (.callEnd default default default) ∧ InvokedIn {} s' 0 ∧
    r.reply = .finish ⟨.Revert, [1], ⟨0, 0, 0⟩⟩ none :=
  ⟨_, _, rfl, trivial, ⟨Nat.le_refl _, by decide⟩, rfl⟩

end Verif.Props
