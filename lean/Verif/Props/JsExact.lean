import Verif.Props.JsInspector
import Verif.Props.JsDb
import Verif.Spec.Example
/-!
# C48, C50, C59, C61: what JavaScript tracers see, without conditions
-/
namespace Verif.Props
open Spec

section
variable (shape : JsShape) (fails : JsFails)

/-! ### C50 -/

/-- The callbacks a tracer gets, whatever it defines: those of `jsCallbacks`, but `exit` for a sub-frame
only if it defines `enter`, too. -/
def jsHeard (d : Nat) (f : JsFrameItem) : Body → List JsCallback
  | .nil => []
  | .act (.step i _ i' _) rest =>
    when shape.hasStep (.step (jsView d f i none)) ++
    when (shape.hasStep && shape.hasFault && i'.result.isRevertClass)
      (.fault (jsView d f i' (some i'.result.debug))) ++ jsHeard d f rest
  | .act (.aborted i _) rest =>
    when shape.hasStep (.step (jsView d f i none)) ++ jsHeard d f rest
  | .act (.log _ _) rest => jsHeard d f rest
  | .act (.selfdestruct _ _ _) rest =>
    when shape.hasEnter (.enter f) ++ when shape.hasExit (.exit 0 [] none) ++ jsHeard d f rest
  | .sub h b o rest =>
    when shape.hasEnter (.enter (jsFrame h)) ++ jsHeard (d + 1) (jsFrame h) b ++
    when (shape.hasEnter && shape.hasExit)
      (.exit (o.result.gas.limit - o.result.gas.remaining) o.result.output none) ++
      jsHeard d f rest

/-- The frame is entered by a call. -/
def isCallHeader : Header → Bool
  | .call _ _ => true
  | .create _ _ => false

/-- The numbers of the invocations that are the `enter` of a call, `n` invocations having been made. -/
def callEnters (d : Nat) (f : JsFrameItem) (n : Nat) : Body → List Nat
  | .nil => []
  | .act a rest => callEnters d f (n + (jsHeard shape d f (.act a .nil)).length) rest
  | .sub h b o rest =>
    (if shape.hasEnter && isCallHeader h then [n] else []) ++
    callEnters (d + 1) (jsFrame h) (n + (if shape.hasEnter then 1 else 0)) b ++
    callEnters d f (n + (jsHeard shape d f (.sub h b o .nil)).length) rest

theorem jsHeard_act (d : Nat) (f : JsFrameItem) (a : Act) (rest : Body) :
    jsHeard shape d f (.act a rest) = jsHeard shape d f (.act a .nil) ++ jsHeard shape d f rest := by
  cases a <;> simp [jsHeard]

theorem jsHeard_sub (d : Nat) (f : JsFrameItem) (h : Header) (b : Body) (o : Outcome) (rest : Body) :
    jsHeard shape d f (.sub h b o rest) =
      jsHeard shape d f (.sub h b o .nil) ++ jsHeard shape d f rest := by
  simp [jsHeard]

/-- One frame is opened: a panic exactly if it is a call whose `enter` throws. -/
theorem hook_enter_exact (s : JsInsp) (h : Header) (d : Nat) (hr : s.precompilesRegistered = false) :
    JsInsp.hook shape fails s (h.enter d) =
      if shape.hasEnter && s.callStack.length != 0 && isCallHeader h && (fails s.calls.length).isSome
      then .error .todo
      else .ok { s with
        callStack := s.callStack ++ [jsFrame h]
        calls := s.calls ++ when (shape.hasEnter && s.callStack.length != 0) (.enter (jsFrame h)) } := by
  obtain ⟨stack, reg, ip, calls⟩ := s
  simp only at hr
  subst hr
  cases h with
  | call c inp =>
    simp only [Header.enter, JsInsp.hook, JsInsp.respond, JsInsp.call, JsInsp.registerPrecompiles,
      Bool.not_false, if_true]
    rw [pushCall_call _ inp c]
    simp only [JsInsp.canCallEnter, JsInsp.isRootCallActive, List.length_append, List.length_cons,
      List.length_nil]
    have e1 : (!(stack.length + (0 + 1) == 1)) = (stack.length != 0) := by
      simp only [bne]; congr 1; simp
    rw [e1]
    cases hb : (shape.hasEnter && stack.length != 0) with
    | false => simp [when]
    | true =>
      simp only [if_true, JsInsp.activeCall, List.getLast?_concat]
      have hE : shape.hasEnter = true := by simp at hb; exact hb.1
      simp only [JsInsp.tryEnter, hE, if_true, JsInsp.invoke, when, isCallHeader]
      cases hf : fails calls.length with
      | none => rfl
      | some err => rfl
  | create c inp =>
    have hp : ∀ s : JsInsp, s.pushCall (inp.createdAddress ((c.at d).nonce inp.caller)) inp.initCode inp.value
        (CallKind.ofCreateScheme inp.scheme) inp.caller inp.gasLimit =
        { s with callStack := s.callStack ++ [jsFrame (.create c inp)] } := by
      intro s
      obtain ⟨ca, sch, v, ic, gl, f⟩ := inp
      cases sch <;> rfl
    simp only [Header.enter, JsInsp.hook, JsInsp.respond, JsInsp.create, JsInsp.registerPrecompiles,
      Bool.not_false, if_true]
    rw [hp]
    simp only [JsInsp.canCallEnter, JsInsp.isRootCallActive, List.length_append, List.length_cons,
      List.length_nil]
    have e1 : (!(stack.length + (0 + 1) == 1)) = (stack.length != 0) := by
      simp only [bne]; congr 1; simp
    rw [e1]
    cases hb : (shape.hasEnter && stack.length != 0) with
    | false => simp [when]
    | true =>
      simp only [if_true, JsInsp.activeCall, List.getLast?_concat]
      have hE : shape.hasEnter = true := by simp at hb; exact hb.1
      simp only [JsInsp.tryEnter, hE, if_true, JsInsp.invoke, when, isCallHeader, Bool.and_false,
        Bool.false_and, Bool.false_eq_true, if_false]
      cases hf : fails calls.length <;> rfl

/-- One frame is closed. -/
theorem hook_leave_exact (s : JsInsp) (h : Header) (d : Nat) (o : Outcome) :
    JsInsp.hook shape fails s (h.leave d o) = .ok { s with
      callStack := s.callStack.dropLast
      calls := s.calls ++ when (shape.hasEnter && shape.hasExit && s.callStack.length != 1)
        (.exit (o.result.gas.limit - o.result.gas.remaining) o.result.output none) } := by
  have key : ∀ a : Option Address, ∃ r, JsInsp.frameEnd shape fails s o.result a = .ok ({ s with
      callStack := s.callStack.dropLast
      calls := s.calls ++ when (shape.hasEnter && shape.hasExit && s.callStack.length != 1)
        (.exit (o.result.gas.limit - o.result.gas.remaining) o.result.output none) }, r) := by
    intro a
    have e1 : JsInsp.canCallExit shape s = (shape.hasEnter && s.callStack.length != 1) := rfl
    unfold JsInsp.frameEnd
    rw [e1]
    cases hE : shape.hasEnter with
    | false => exact ⟨{ reply := .finish o.result a }, by simp [JsInsp.popCall, when]⟩
    | true =>
      cases hl : (s.callStack.length != 1) with
      | false => exact ⟨{ reply := .finish o.result a }, by simp [JsInsp.popCall, when]⟩
      | true =>
        simp only [Bool.and_self, if_true, JsInsp.tryExit, Bool.and_true, Bool.true_and]
        cases hX : shape.hasExit with
        | false => exact ⟨{ reply := .finish o.result a }, by simp [JsInsp.popCall, when]⟩
        | true =>
          simp only [if_true, JsInsp.invoke, when]
          cases fails s.calls.length with
          | none => exact ⟨_, rfl⟩
          | some err => exact ⟨_, rfl⟩
  cases h with
  | call c inp =>
    obtain ⟨r, hr⟩ := key none
    simp only [Header.leave, JsInsp.hook, JsInsp.respond, hr]
  | create c inp =>
    obtain ⟨r, hr⟩ := key o.address
    simp only [Header.leave, JsInsp.hook, JsInsp.respond, hr]

/-- Some of these invocations throws. -/
def anyThrows (l : List Nat) : Bool := l.any (fun n => (fails n).isSome)

/-- The hooks of a frame's body. -/
theorem run_body_exact (b : Body) :
    ∀ (d : Nat) (s : JsInsp) (pre : List JsFrameItem) (f : JsFrameItem),
    s.callStack = pre ++ [f] → s.precompilesRegistered = false →
    runHooks (JsInsp.hook shape fails) s (b.events d) =
      if anyThrows fails (callEnters shape d f s.calls.length b) then .error .todo
      else .ok (said s (jsHeard shape d f b)) := by
  induction b with
  | nil => intro d s pre f hs hr; simp [Body.events, runHooks, jsHeard, said, callEnters, anyThrows]
  | act a rest ih =>
    intro d s pre f hs hr
    have fin : ∀ (es : List Event), (Body.act a rest).events d = es ++ rest.events d →
        runHooks (JsInsp.hook shape fails) s es = .ok (said s (jsHeard shape d f (.act a .nil))) →
        runHooks (JsInsp.hook shape fails) s ((Body.act a rest).events d) =
          if anyThrows fails (callEnters shape d f s.calls.length (.act a rest)) then .error .todo
          else .ok (said s (jsHeard shape d f (.act a rest))) := by
      intro es he h1
      rw [he, runHooks_append, h1]
      simp only
      rw [ih d (said s (jsHeard shape d f (.act a .nil))) pre f hs hr, said_said, ← jsHeard_act]
      have hc : (said s (jsHeard shape d f (.act a .nil))).calls.length =
          s.calls.length + (jsHeard shape d f (.act a .nil)).length := by simp [said]
      rw [hc]
      rfl
    cases a with
    | step i c i' c' =>
      refine fin _ rfl ?_
      simp only [Act.events]
      rw [run_cons _ _ _ _ _ (hook_step shape fails s pre f hs i c d),
        run_cons _ _ _ _ _ (hook_stepEnd shape fails (said s _) pre f hs i' c' d), said_said]
      simp [runHooks, jsHeard]
    | aborted i c =>
      refine fin _ rfl ?_
      simp only [Act.events]
      rw [run_cons _ _ _ _ _ (hook_step shape fails s pre f hs i c d)]
      simp [runHooks, jsHeard]
    | log c l =>
      refine fin _ rfl ?_
      simp only [Act.events]
      rw [run_cons _ _ s _ _ rfl]
      simp [runHooks, jsHeard, said]
    | selfdestruct a t v =>
      refine fin _ rfl ?_
      simp only [Act.events]
      rw [run_cons _ _ _ _ _ (hook_selfdestruct shape fails s pre f hs a t v)]
      simp [runHooks, jsHeard]
  | sub h b o rest ihb ihr =>
    intro d s pre f hs hr
    simp only [Body.events]
    have hlen : (s.callStack.length != 0) = true := by simp [hs]
    have hen := hook_enter_exact shape fails s h d hr
    simp only [hlen, Bool.and_true] at hen
    have hce : callEnters shape d f s.calls.length (.sub h b o rest) =
        (if shape.hasEnter && isCallHeader h then [s.calls.length] else []) ++
        callEnters shape (d + 1) (jsFrame h) (s.calls.length + (if shape.hasEnter then 1 else 0)) b ++
        callEnters shape d f (s.calls.length + (jsHeard shape d f (.sub h b o .nil)).length) rest := rfl
    rw [hce]
    by_cases hth : (shape.hasEnter && isCallHeader h && (fails s.calls.length).isSome) = true
    · rw [if_pos hth] at hen
      simp only [runHooks, hen]
      have : anyThrows fails ((if shape.hasEnter && isCallHeader h then [s.calls.length] else []) ++
        callEnters shape (d + 1) (jsFrame h) (s.calls.length + (if shape.hasEnter then 1 else 0)) b ++
        callEnters shape d f (s.calls.length + (jsHeard shape d f (.sub h b o .nil)).length) rest)
          = true := by
        simp only [Bool.and_eq_true] at hth
        simp [anyThrows, hth.1.1, hth.1.2, hth.2]
      rw [this]; rfl
    · rw [if_neg hth] at hen
      have hfirst : anyThrows fails
          (if shape.hasEnter && isCallHeader h then [s.calls.length] else []) = false := by
        by_cases h1 : (shape.hasEnter && isCallHeader h) = true
        · simp only [h1, if_true, anyThrows, List.any_cons, List.any_nil, Bool.or_false]
          rw [h1, Bool.true_and] at hth
          simpa using hth
        · rw [if_neg h1]; rfl
      have hany : ∀ l l' : List Nat, anyThrows fails (l ++ l') =
          (anyThrows fails l || anyThrows fails l') := fun l l' => List.any_append
      rw [hany, hany, hfirst, Bool.false_or, run_cons _ _ _ _ _ hen, runHooks_append]
      let s1 : JsInsp := { s with
        callStack := s.callStack ++ [jsFrame h]
        calls := s.calls ++ when shape.hasEnter (.enter (jsFrame h)) }
      have hb := ihb (d + 1) s1 s.callStack (jsFrame h) rfl hr
      have hn : s1.calls.length = s.calls.length + (if shape.hasEnter then 1 else 0) := by
        simp only [s1, List.length_append, when]
        cases shape.hasEnter <;> rfl
      rw [hn] at hb
      rw [hb]
      cases hA : anyThrows fails (callEnters shape (d + 1) (jsFrame h)
        (s.calls.length + (if shape.hasEnter then 1 else 0)) b) with
      | true => simp
      | false =>
        simp only [Bool.false_eq_true, if_false, Bool.false_or]
        rw [run_cons _ _ _ _ _ (hook_leave_exact shape fails _ h d o)]
        have hl : ((said s1 (jsHeard shape (d + 1) (jsFrame h) b)).callStack.length != 1) = true
          := by simp [said, s1, hs]
        simp only [hl, Bool.and_true]
        have hst : ({ said s1 (jsHeard shape (d + 1) (jsFrame h) b) with
            callStack := (said s1 (jsHeard shape (d + 1) (jsFrame h) b)).callStack.dropLast
            calls := (said s1 (jsHeard shape (d + 1) (jsFrame h) b)).calls ++
              when (shape.hasEnter && shape.hasExit)
                (.exit (o.result.gas.limit - o.result.gas.remaining) o.result.output none) } : JsInsp) =
            said s (jsHeard shape d f (.sub h b o .nil)) := by
          simp [said, s1, jsHeard]
        rw [hst, ihr d (said s (jsHeard shape d f (.sub h b o .nil))) pre f hs hr, said_said,
          ← jsHeard_sub]
        have hc : (said s (jsHeard shape d f (.sub h b o .nil))).calls.length =
            s.calls.length + (jsHeard shape d f (.sub h b o .nil)).length := by simp [said]
        rw [hc]

/-- **C50, exact**: for every tracer, whichever functions it defines and whichever of its callbacks
throw, and every execution: the inspector panics exactly if an `enter` of a call throws; otherwise the
callbacks are those of `jsHeard` (so sub-frames are only reported as left to tracers that define `enter`)
and the call stack is empty at the end. -/
theorem C50_exact (t : Tx) :
    runHooks (JsInsp.hook shape fails) {} t.events =
      if anyThrows fails (callEnters shape 1 (jsFrame t.hdr) 0 t.body) then .error .todo
      else .ok { calls := jsHeard shape 1 (jsFrame t.hdr) t.body } := by
  unfold Tx.events
  have hen := hook_enter_exact shape fails {} t.hdr 0 rfl
  simp only [List.length_nil, bne_self_eq_false, Bool.and_false, Bool.false_and, when,
    Bool.false_eq_true, if_false, List.append_nil, List.nil_append] at hen
  rw [run_cons _ _ _ _ _ hen, runHooks_append]
  rw [run_body_exact shape fails t.body 1 { callStack := [jsFrame t.hdr] } [] (jsFrame t.hdr) rfl rfl]
  simp only [List.length_nil]
  cases anyThrows fails (callEnters shape 1 (jsFrame t.hdr) 0 t.body) with
  | true => rfl
  | false =>
    simp only [Bool.false_eq_true, if_false]
    rw [run_cons _ _ _ _ _ (hook_leave_exact shape fails _ t.hdr 0 t.out)]
    simp [runHooks, when, said]

/-- With the tracers of `C50_callbacks_partial` these are the callbacks of the specification. -/
theorem jsHeard_eq (hex : shape.hasExit = true → shape.hasEnter = true) (b : Body) :
    ∀ d f, jsHeard shape d f b = jsCallbacks shape d f b := by
  have h : (shape.hasEnter && shape.hasExit) = shape.hasExit := by
    cases hx : shape.hasExit with
    | false => simp
    | true => simp [hex hx]
  induction b with
  | nil => intro d f; rfl
  | act a rest ih => intro d f; cases a <;> simp [jsHeard, jsCallbacks, ih]
  | sub hd b o rest ihb ihr => intro d f; simp [jsHeard, jsCallbacks, ihb, ihr, h]

/-! ### C61 -/

/-- The instructions that end with a revert. -/
def reverts : Body → Nat
  | .nil => 0
  | .act (.step _ _ i' _) rest => (if i'.result.isRevertClass then 1 else 0) + reverts rest
  | .act _ rest => reverts rest
  | .sub _ b _ rest => reverts b + reverts rest

/-- The instructions that end with a revert: depth, frame and the state of the interpreter afterwards. -/
def reverted (d : Nat) (f : JsFrameItem) : Body → List (Nat × JsFrameItem × Interp)
  | .nil => []
  | .act (.step _ _ i' _) rest =>
    if i'.result.isRevertClass then (d, f, i') :: reverted d f rest else reverted d f rest
  | .act _ rest => reverted d f rest
  | .sub h b _ rest => reverted (d + 1) (jsFrame h) b ++ reverted d f rest

theorem reverted_length (b : Body) : ∀ d f, (reverted d f b).length = reverts b := by
  induction b with
  | nil => intro d f; rfl
  | act a rest ih =>
    intro d f
    cases a with
    | step i c i' c' =>
      simp only [reverted, reverts]
      split <;> simp [ih] <;> omega
    | _ => exact ih d f
  | sub h b o rest ihb ihr => intro d f; simp [reverted, reverts, ihb, ihr]

/-- **C61, exact**: `fault` is called once for each instruction that ends with a status of the revert
class (`REVERT`, call depth or out of funds) if the tracer defines `step` and its `fault` is a function,
and never otherwise. It is told the error, and of everything else (program counter, opcode, stack, memory,
gas) what the interpreter shows after the instruction. -/
theorem C61_exact (t : Tx) (s : JsInsp)
    (h : runHooks (JsInsp.hook shape fails) {} t.events = .ok s) :
    s.calls.filter isFault = (if shape.hasStep && shape.hasFault then
      (reverted 1 (jsFrame t.hdr) t.body).map
        (fun x => .fault (jsView x.1 x.2.1 x.2.2 (some x.2.2.result.debug))) else []) ∧
    (s.calls.filter isFault).length = if shape.hasStep && shape.hasFault then reverts t.body else 0 := by
  have main : s.calls.filter isFault = (if shape.hasStep && shape.hasFault then
      (reverted 1 (jsFrame t.hdr) t.body).map
        (fun x => .fault (jsView x.1 x.2.1 x.2.2 (some x.2.2.result.debug))) else []) := by
    rw [C50_exact] at h
    split at h
    · cases h
    · simp only [Except.ok.injEq] at h
      subst h
      simp only
      generalize jsFrame t.hdr = f
      generalize 1 = d
      generalize t.body = b
      induction b generalizing d f with
      | nil => simp [jsHeard, reverted]
      | act a rest ih =>
        rw [jsHeard_act, List.filter_append, ih f d]
        cases a with
        | step i c i' c' =>
          have hf : ∀ v, isFault (.fault v) = true := fun _ => rfl
          cases hS : shape.hasStep <;> cases hF : shape.hasFault <;>
            cases hR : i'.result.isRevertClass <;>
            simp [jsHeard, when, isFault, reverted, hS, hF, hR]
          rw [List.filter_cons_of_pos (hf _)]; rfl
        | aborted i c => cases hS : shape.hasStep <;> simp [jsHeard, when, isFault, reverted, hS]
        | log c l => simp [jsHeard, reverted]
        | selfdestruct a t v =>
          cases hE : shape.hasEnter <;> cases hX : shape.hasExit <;>
            simp [jsHeard, when, isFault, reverted, hE, hX]
      | sub hd b o rest ihb ihr =>
        rw [jsHeard_sub, List.filter_append, ihr f d]
        have : (jsHeard shape d f (.sub hd b o .nil)).filter isFault =
            (jsHeard shape (d + 1) (jsFrame hd) b).filter isFault := by
          cases hE : shape.hasEnter <;> cases hX : shape.hasExit <;>
            simp [jsHeard, when, isFault, hE, hX]
        rw [this, ihb]
        cases shape.hasStep <;> cases shape.hasFault <;> simp [reverted]
  refine ⟨main, ?_⟩
  rw [main]
  split
  · rw [List.length_map, reverted_length]
  · rfl

end

/-- A tracer that defines `enter` and `exit`, and one that defines `step` and `exit`. The execution of
the example has a call inside a call. -/
example : callEnters ⟨true, true, true, true⟩ 1 (jsFrame Example.tx.hdr) 0 Example.tx.body ≠ [] ∧
    (jsHeard ⟨true, true, true, true⟩ 1 (jsFrame Example.tx.hdr) Example.tx.body).length ≠
      (jsHeard ⟨false, true, true, true⟩ 1 (jsFrame Example.tx.hdr) Example.tx.body).length := by
  decide +kernel

/-! ### C48 -/

/-- **C48, slice, exact**: of a memory of fewer than 2^64 - 1 bytes and for finite numbers
`0 ≤ start ≤ end` the function throws if the range ends before the end of the memory, gives the bytes if
it ends there, and reads out of bounds if it ends behind it. -/
theorem C48_slice_exact (m : Bytes) (hm : m.length < JsNum.usizeMax) (p q : Rat) (hp : 0 ≤ p)
    (hpq : p ≤ q) :
    jsMemorySlice (some m) (.fin p) (.fin q) =
      if q.floor.toNat < m.length then .ok none
      else if q.floor.toNat = m.length then .ok (some (m.drop p.floor.toNat))
      else .error .index := by
  have hq : 0 ≤ q := Rat.le_trans hp hpq
  have hfl : p.floor.toNat ≤ q.floor.toNat := by
    have := Rat.floor_monotone hpq
    omega
  have e3 : (JsNum.fin p).isNeg = false := by
    simp only [JsNum.isNeg, decide_eq_false_iff_not]; exact Rat.not_lt.mpr hp
  have e4 : (JsNum.fin q).lt (JsNum.fin p) = false := by
    simp only [JsNum.lt, decide_eq_false_iff_not]; exact Rat.not_lt.mpr hpq
  have e1 : (JsNum.fin p).asUsize = min p.floor.toNat JsNum.usizeMax := by
    simp only [JsNum.asUsize, if_neg (Rat.not_lt.mpr hp)]
  have e2 : (JsNum.fin q).asUsize = min q.floor.toNat JsNum.usizeMax := by
    simp only [JsNum.asUsize, if_neg (Rat.not_lt.mpr hq)]
  unfold jsMemorySlice
  rw [e1, e2, e3, e4]
  generalize p.floor.toNat = a at *
  generalize q.floor.toNat = b at *
  have e5 : memRefLen (some m) = m.length := rfl
  simp only [Bool.false_or, Bool.or_false, e5]
  by_cases h1 : b < m.length
  · rw [if_pos h1, if_pos (by rw [decide_eq_true_eq]; omega)]
  · rw [if_neg h1, if_neg (by rw [decide_eq_true_eq]; omega)]
    by_cases h2 : b = m.length
    · have ha : min a JsNum.usizeMax = a := by omega
      have hb : min b JsNum.usizeMax = b := by omega
      have e6 : memRefSlice (some m) a (b - a) = .ok ((m.drop a).take (b - a)) := by
        simp only [memRefSlice, memSlice]
        rw [if_pos (by omega)]
      rw [if_pos h2, ha, hb, if_neg (by omega), e6]
      have e7 : (m.drop a).take (b - a) = m.drop a :=
        List.take_of_length_le (by rw [List.length_drop]; omega)
      rw [e7]
    · have e6 : memRefSlice (some m) (min a JsNum.usizeMax) (min b JsNum.usizeMax - min a JsNum.usizeMax) =
          .error .index := by
        simp only [memRefSlice, memSlice]
        rw [if_neg (by omega)]
      rw [if_neg h2, if_neg (by omega), e6]

/-- **C48, getUint, exact**: for a finite number `p ≥ 0` the function overflows if `p + 32` does not fit
in 64 bits, throws if the word does not lie in the memory, and gives its bytes otherwise. -/
theorem C48_getUint_exact (m : Bytes) (p : Rat) (hp : 0 ≤ p) :
    jsMemoryGetUint (some m) (.fin p) =
      if 2 ^ 64 ≤ p.floor.toNat + 32 then .error .arith
      else if m.length < p.floor.toNat + 32 then .ok none
      else .ok (some ((m.drop p.floor.toNat).take 32)) := by
  have e1 : (JsNum.fin p).asUsize = min p.floor.toNat JsNum.usizeMax := by
    simp only [JsNum.asUsize, if_neg (Rat.not_lt.mpr hp)]
  have e3 : (JsNum.fin p).isNeg = false := by
    simp only [JsNum.isNeg, decide_eq_false_iff_not]; exact Rat.not_lt.mpr hp
  unfold jsMemoryGetUint
  rw [e1, e3]
  have e5 : memRefLen (some m) = m.length := rfl
  generalize p.floor.toNat = a
  have hu : JsNum.usizeMax = 2 ^ 64 - 1 := rfl
  simp only [Bool.or_false, e5]
  by_cases h1 : 2 ^ 64 ≤ a + 32
  · rw [if_pos h1, if_pos (by omega)]
  · rw [if_neg h1, if_neg (by omega)]
    have ha : min a JsNum.usizeMax = a := by omega
    rw [ha]
    by_cases h2 : m.length < a + 32
    · rw [if_pos h2, if_pos (by rw [decide_eq_true_eq]; exact h2)]
    · have e6 : memRefSlice (some m) a 32 = .ok ((m.drop a).take 32) := by
        simp only [memRefSlice, memSlice]
        rw [if_pos (by omega)]
      rw [if_neg h2, if_neg (by rw [decide_eq_true_eq]; exact h2), e6]

/-- One and a half words of memory. -/
example : (jsMemorySlice (some (List.replicate 48 7)) (.fin 40) (.fin 48) =
      .ok (some (List.replicate 8 7))) ∧
    jsMemorySlice (some (List.replicate 48 7)) (.fin 0) (.fin 32) = .ok none ∧
    jsMemorySlice (some (List.replicate 48 7)) (.fin 0) (.fin 49) = .error .index ∧
    jsMemoryGetUint (some (List.replicate 48 7)) (.fin 16) = .ok (some (List.replicate 32 7)) ∧
    jsMemoryGetUint (some (List.replicate 48 7)) (.fin 17) = .ok none := by
  exact ⟨by rfl, by rfl, by rfl, by rfl, by rfl⟩

/-! ### C59 -/

/-- **C59, exact**: when the three functions of the database object that are not always right are right:
`exists` exactly if the transaction did not look for the account in vain, `getCode` exactly if the
code that the database has to be run is the code that the account carries, or, if it carries none, has
nothing behind the original code, and `getState` exactly if the slot was not loaded or has the database's value. -/
theorem C59_exact (st : JsState) (d : JsDatabase) (hst : StateOK st) (v : JsBuf) (a : Bytes)
    (hv : Denotes v 20 a) :
    (jsExists (some st) (some d) v = .ok ((accountNow st d a).map Option.isSome) ↔
      ∀ acc, st.account a = some acc → acc.notExisting = false) ∧
    (jsGetCode (some st) (some d) v = .ok (codeNow st d a) ↔
      ∀ acc, accountNow st d a = some (some acc) → acc.codeHash ≠ keccakEmpty →
        (∀ code, acc.code = some code →
          ∃ b, d.codeByHash acc.codeHash = some b ∧ b.bytecode = code) ∧
        (acc.code = none → ∀ b, d.codeByHash acc.codeHash = some b →
          b.bytecode = b.originalBytes)) ∧
    (∀ (w : JsBuf) (k : Bytes), Denotes w 32 k →
      (jsGetState (some d) v w = .ok (slotNow st d a k) ↔
        ∀ x, st.slot a k = some x → d.storage a k = some x)) := by
  have hb := readBasic_live st d v a hv
  refine ⟨?_, ?_, ?_⟩
  · simp only [jsExists, hb, accountNow]
    cases ha : st.account a with
    | none => cases d.basic a <;> simp
    | some acc => cases hn : acc.notExisting <;> simp [hn]
  · simp only [jsGetCode, hb, codeNow, accountNow]
    have key : ∀ acc : JsAccount,
        ((if acc.codeHash = keccakEmpty then (Except.ok (some []) : R (Option Bytes))
          else .ok ((d.codeByHash acc.codeHash).map JsBytecode.bytecode)) =
          .ok (if acc.codeHash = keccakEmpty then some []
            else (acc.code.or ((d.codeByHash acc.codeHash).map JsBytecode.originalBytes)))) ↔
        (∀ (acc' : JsAccount), some (some acc) = some (some acc') →
          acc'.codeHash ≠ keccakEmpty →
          (∀ code, acc'.code = some code →
            ∃ b, d.codeByHash acc'.codeHash = some b ∧ b.bytecode = code) ∧
          (acc'.code = none → ∀ b, d.codeByHash acc'.codeHash = some b →
            b.bytecode = b.originalBytes)) := by
      intro acc
      by_cases hk : acc.codeHash = keccakEmpty
      · rw [if_pos hk, if_pos hk]
        refine iff_of_true rfl (fun acc' h1 h2 => ?_)
        cases h1
        exact absurd hk h2
      · rw [if_neg hk, if_neg hk]
        cases hc : acc.code with
        | none =>
          constructor
          · intro h acc' h1 _
            cases h1
            refine ⟨fun code h3 => ?_, fun _ b hb => ?_⟩
            · rw [hc] at h3; cases h3
            · simpa [hb] using h
          · intro h
            cases hb : d.codeByHash acc.codeHash with
            | none => rfl
            | some b => simp [(h acc rfl hk).2 hc b hb]
        | some code =>
          constructor
          · intro h acc' h1 _
            cases h1
            refine ⟨fun code' h3 => ?_, fun h3 => ?_⟩
            · rw [hc] at h3; cases h3
              simpa using h
            · rw [hc] at h3; cases h3
          · intro h
            obtain ⟨b, h1, h2⟩ := (h acc rfl hk).1 code hc
            simp [h1, h2]
    have hor : ∀ acc : JsAccount, (match acc.code with
        | some code => some code
        | none => (d.codeByHash acc.codeHash).map JsBytecode.originalBytes) =
          acc.code.or ((d.codeByHash acc.codeHash).map JsBytecode.originalBytes) := by
      intro acc; cases acc.code <;> rfl
    cases ha : st.account a with
    | some acc =>
      cases hn : acc.notExisting with
      | true =>
        have := (hst a acc ha hn).2.2
        simp [this, hn]
      | false =>
        simp only [hn, Option.map_some, Option.getD_some, Bool.false_eq_true, if_false]
        rw [← key acc, ← hor acc]
        exact Iff.rfl
    | none =>
      cases hd : d.basic a with
      | none => simp
      | some o =>
        cases o with
        | none => simp
        | some acc =>
          simp only [Option.map_some, Option.getD_some]
          rw [← key acc, ← hor acc]
          exact Iff.rfl
  · intro w k hw
    obtain ⟨b, h1, h2⟩ := denotes_address hv
    obtain ⟨b', h1', h2'⟩ := denotes_hash hw
    simp only [jsGetState, h1, h2, h1', h2', slotNow]
    cases hs : st.slot a k with
    | none => simp
    | some x => simp

/-- In the state of `C59_refuted` an account that the transaction did not look at: all three are right;
for the account it changed none is. -/
example : Denotes (.ofBytes [2]) 20 (List.replicate 19 0 ++ [2]) ∧
    busyState.account (List.replicate 19 0 ++ [2]) = none ∧
    (busyState.account (List.replicate 20 0)).isSome = true :=
  ⟨⟨[2], rfl, rfl, by decide⟩, rfl, rfl⟩

end Verif.Props
