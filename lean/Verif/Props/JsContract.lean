import Verif.Spec.JsContract
import Verif.Props.JsTracer
/-! C104: `log.contract` describes the frame that executes the instruction. -/
namespace Verif.Props
open Spec

theorem started_running (b : Body) : ∀ (d : Nat) (h : Header),
    (started d (jsFrame h) b).map (fun x => (x.2.1, x.2.2.1)) =
      (runningIn h b).map (fun y => (jsFrame y.1, y.2)) := by
  induction b with
  | nil => intro d h; rfl
  | act a rest ih =>
    intro d h
    cases a <;> simp only [started, runningIn, List.map_cons, ih]
  | sub h' b o rest ihb ihr =>
    intro d h
    simp only [started, runningIn, List.map_append, ihb, ihr]

/-- What an instruction's `log.contract` has to be. -/
def DescribesFrame (k : JsContract) (e : Environment) : Prop :=
  k.contract = e.address ∧ k.caller = e.caller ∧ k.value = e.callvalue ∧ k.input = e.calldata

/-- **C104, exactly.** Of the object `log.contract` that `step` gets for the instruction number `n`, running
in the frame `h`: `getAddress` is the account that executes exactly if the frame is a creation or a call
whose code is that of the account, `getCaller` is the caller exactly if it is no DELEGATECALL or one of an
account by itself, `getValue` is the value exactly if it is transferred or 0, and `getInput` is the call
data exactly if it is no creation or one without init code. -/
theorem C104_exact (shape : JsShape) (fails : JsFails) (hstep : shape.hasStep = true)
    (hex : shape.hasExit = true → shape.hasEnter = true) (t : Tx) (s : JsInsp)
    (h : runHooks (JsInsp.hook shape fails) {} t.events = .ok s) :
    (s.calls.filter isStep).length = (runningIn t.hdr t.body).length ∧
    ∀ (n : Nat) (f : Header) (i : Interp), (runningIn t.hdr t.body)[n]? = some (f, i) →
      ∃ log : JsStepLog, (s.calls.filter isStep)[n]? = some (.step log) ∧ log.pc = i.pc ∧
        (log.contract.contract = (environment f).address ↔
          ∀ c inp, f = .call c inp → inp.bytecodeAddress = inp.targetAddress) ∧
        (log.contract.caller = (environment f).caller ↔
          ∀ c inp, f = .call c inp → inp.scheme = .DelegateCall ∨ inp.scheme = .CallCode →
            inp.caller = inp.targetAddress) ∧
        (log.contract.value = (environment f).callvalue ↔
          ∀ c inp v, f = .call c inp → inp.value = .apparent v → v = 0) ∧
        (log.contract.input = (environment f).calldata ↔
          ∀ c inp, f = .create c inp → inp.initCode = []) := by
  rw [C63_steps_partial shape fails hstep hex t s h]
  have hr := started_running t.body 1 t.hdr
  constructor
  · have := congrArg List.length hr
    simpa using this
  · intro n f i hn
    have hn' := congrArg (·[n]?) hr
    simp only [List.getElem?_map, hn, Option.map_some] at hn'
    rw [List.getElem?_map]
    cases hx : (started 1 (jsFrame t.hdr) t.body)[n]? with
    | none => rw [hx] at hn'; cases hn'
    | some x =>
      rw [hx] at hn'
      simp only [Option.map_some, Option.some.injEq, Prod.mk.injEq] at hn'
      refine ⟨_, rfl, by simp only [jsView, hn'.2], ?_⟩
      simp only [jsView, hn'.1]
      cases f with
      | create c inp =>
        simp [jsFrame, environment, executingAs]
      | call c inp =>
        refine ⟨?_, ?_, ?_, ?_⟩
        · simp [jsFrame, environment, executingAs]
        · simp only [jsFrame, environment]
          constructor
          · rintro hc c' inp' ⟨⟩ hs
            rw [if_pos hs] at hc; exact hc.symm
          · intro hc
            split
            · next hs => exact (hc _ _ rfl hs).symm
            · rfl
        · simp only [jsFrame, environment]
          constructor
          · rintro hc c' inp' v ⟨⟩ hs
            rw [hs] at hc; exact hc.symm
          · intro hc
            cases hv : inp.value with
            | transfer v => rfl
            | apparent v => exact (hc _ _ v rfl hv).symm
        · simp [jsFrame, environment]

/-- **C104**, partial: for every instruction in a frame entered by CALL or STATICCALL (the transaction's own
call, too), the object `log.contract` given to `step` describes the account that executes, its caller, the
value and the call data. What is missing: instructions in frames of DELEGATECALL, CALLCODE, CREATE and
CREATE2 (see `C104_exact`, `C104_refuted`). -/
theorem C104_contract_partial (shape : JsShape) (fails : JsFails) (hstep : shape.hasStep = true)
    (hex : shape.hasExit = true → shape.hasEnter = true) (t : Tx) (s : JsInsp)
    (h : runHooks (JsInsp.hook shape fails) {} t.events = .ok s)
    (n : Nat) (f : Header) (i : Interp) (hn : (runningIn t.hdr t.body)[n]? = some (f, i))
    (hown : OwnCode f) (hfill : Filled f) :
    ∃ log : JsStepLog, (s.calls.filter isStep)[n]? = some (.step log) ∧ log.pc = i.pc ∧
      DescribesFrame log.contract (environment f) := by
  obtain ⟨log, h1, h2, ha, hc, hv, hi⟩ := (C104_exact shape fails hstep hex t s h).2 n f i hn
  refine ⟨log, h1, h2, ha.2 ?_, hc.2 ?_, hv.2 ?_, hi.2 ?_⟩
  · rintro c inp rfl; exact (hfill.1 hown).1
  · rintro c inp rfl hs
    simp only [OwnCode] at hown
    rcases hown with e | e <;> rw [e] at hs <;> simp at hs
  · rintro c inp v rfl hs
    obtain ⟨v', hv'⟩ := (hfill.1 hown).2
    rw [hv'] at hs; cases hs
  · rintro c inp rfl; exact hown.elim

/-- An account 0xa that is called by 0x99 with a value of 5 runs one instruction, then the code of the
library 0xd with DELEGATECALL, one instruction, and then it creates a contract, the init code of which runs
one instruction. -/
def usesLibrary : Tx where
  hdr := .call default { (default : CallInputs) with
    scheme := .Call, caller := 0x99, targetAddress := 0xa, bytecodeAddress := 0xa, value := .transfer 5,
    input := [1, 2] }
  body :=
    .act (StandaloneExample.instr 0xf4 [] 900 800)
      (.sub (.call default { (default : CallInputs) with
          scheme := .DelegateCall, caller := 0x99, targetAddress := 0xa, bytecodeAddress := 0xd,
          value := .apparent 5, input := [3] })
        (.act (StandaloneExample.instr 0x54 [7] 700 600) .nil) StandaloneExample.out
      (.sub (.create default { (default : CreateInputs) with caller := 0xa, value := 1, initCode := [0x58] })
        (.act (StandaloneExample.instr 0x58 [] 700 698) .nil) StandaloneExample.out .nil))
  out := StandaloneExample.out

/-- The first instruction of the example meets the hypotheses of `C104_contract_partial`. -/
example : ∃ f i, (runningIn usesLibrary.hdr usesLibrary.body)[0]? = some (f, i) ∧ OwnCode f ∧ Filled f ∧
    environment f = ⟨0xa, 0x99, 5, [1, 2]⟩ :=
  ⟨_, _, rfl, .inl rfl, ⟨fun _ => ⟨rfl, 5, rfl⟩, fun h => by cases h⟩, rfl⟩

/-- **C104, refuted.** The second instruction executes as 0xa, called by 0x99 with a value of 5 (all frames
are as revm makes them), and `log.contract` says that 0xd executes, called by 0xa with a value of 0: a
tracer that looks up the storage slot of an SLOAD at `log.contract.getAddress()` looks at another account.
The third runs without call data, and `log.contract` gives it the init code. -/
theorem C104_refuted : ∃ s, runHooks (JsInsp.hook ⟨true, true, true, true⟩ (fun _ => none)) {}
      usesLibrary.events = .ok s ∧
    (∀ x ∈ runningIn usesLibrary.hdr usesLibrary.body, Filled x.1) ∧
    (runningIn usesLibrary.hdr usesLibrary.body).map (fun x => (x.2.op, (environment x.1).address,
      (environment x.1).caller, (environment x.1).callvalue, (environment x.1).calldata)) =
      [(0xf4, 0xa, 0x99, 5, [1, 2]), (0x54, 0xa, 0x99, 5, [3]),
        (0x58, executingAs (.create default { (default : CreateInputs) with
          caller := 0xa, value := 1, initCode := [0x58] }), 0xa, 1, [])] ∧
    (s.calls.filter isStep).map (fun | .step l => some (l.op, l.contract) | _ => none) =
      [some (0xf4, ⟨0x99, 0xa, 5, [1, 2]⟩), some (0x54, ⟨0xa, 0xd, 0, [3]⟩),
        some (0x58, ⟨0xa, executingAs (.create default { (default : CreateInputs) with
          caller := 0xa, value := 1, initCode := [0x58] }), 1, [0x58]⟩)] := by
  refine ⟨_, rfl, ?_, rfl, rfl⟩
  intro x hx
  simp only [usesLibrary, runningIn, StandaloneExample.instr, List.cons_append, List.nil_append,
    List.append_nil, List.mem_cons, List.not_mem_nil, or_false] at hx
  rcases hx with rfl | rfl | rfl
  · exact ⟨fun _ => ⟨rfl, 5, rfl⟩, fun h => by cases h⟩
  · exact ⟨fun h => (by rcases h with h | h <;> cases h), fun h => (by cases h)⟩
  · trivial

end Verif.Props
