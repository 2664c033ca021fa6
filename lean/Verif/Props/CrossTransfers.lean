import Verif.Props.Arena
import Verif.Props.Standalone
/-!
# C69: the transfers of calls and the recorded calls agree
-/
namespace Verif.Props
open Spec

/-- The inputs revm passes for calls (interpreter/src/instructions/contract.rs): CALL and CALLCODE carry
the value they transfer, STATICCALL transfers nothing, DELEGATECALL has an apparent value only; CALLCODE
runs as its caller; and a selfdestruct names the account the frame runs as. -/
def RevmCall (f : FrameCtx) : Prop :=
  (∀ c inp, f.hdr = .call c inp →
    match inp.scheme with
    | .Call => ∃ v, inp.value = .transfer v
    | .StaticCall => inp.value = .transfer 0
    | .CallCode => (∃ v, inp.value = .transfer v) ∧ inp.targetAddress = inp.caller
    | .DelegateCall => ∃ v, inp.value = .apparent v) ∧
  ∀ a t v, lastSelfdestruct f.body = some (a, t, v) → a = executingAs f.hdr

/-- The transfer a recorded call makes: a CALL with value from its caller to its address, a CALLCODE with
value from its caller to itself. -/
def nodeTransfer (x : Node) : Option Transfer :=
  if x.trace.value = 0 then none
  else match x.trace.kind with
    | .Call => some ⟨.call, x.trace.caller, x.trace.address, x.trace.value⟩
    | .CallCode => some ⟨.call, x.trace.caller, x.trace.caller, x.trace.value⟩
    | _ => none

/-- The transfer made on entering a frame. -/
def enterTransfer : Header → List Transfer
  | .call _ inp => callTransfer inp
  | .create _ _ => []

theorem callTransfer_kind (inp : CallInputs) : ∀ tr ∈ callTransfer inp, tr.kind = .call := by
  intro tr h
  unfold callTransfer at h
  split at h
  · split at h
    · cases h
    · rw [List.mem_singleton] at h; rw [h]
  · cases h

theorem createTransfer_kind (inp : CreateInputs) (a : Option Address) :
    ∀ tr ∈ createTransfer inp a, tr.kind ≠ .call := by
  intro tr h
  unfold createTransfer at h
  split at h
  · rw [List.mem_singleton] at h; rw [h]; intro e; cases e
  · rw [List.mem_singleton] at h; rw [h]; intro e; cases e
  · cases h

theorem filter_callTransfer (inp : CallInputs) :
    (callTransfer inp).filter (fun tr => tr.kind == .call) = callTransfer inp :=
  List.filter_eq_self.2 (fun tr h => by rw [callTransfer_kind inp tr h]; rfl)

theorem filter_createTransfer (inp : CreateInputs) (a : Option Address) :
    (createTransfer inp a).filter (fun tr => tr.kind == .call) = [] :=
  List.filter_eq_nil_iff.2 (fun tr h => by
    have := createTransfer_kind inp a tr h
    intro hk
    exact this (eq_of_beq hk))

theorem transfers_calls (b : Body) (d p : Nat) (v : U256) (n : Nat) :
    (transfers b).filter (fun tr => tr.kind == .call)
      = (subFrames d p v n b).flatMap (fun f => enterTransfer f.hdr) := by
  induction b generalizing d p v n with
  | nil => rfl
  | act a rest ih =>
    cases a with
    | selfdestruct a t v' =>
      rw [transfers, List.filter_cons, if_neg (by intro e; cases (eq_of_beq e)), subFrames]
      exact ih d p v n
    | _ => exact ih d p v n
  | sub h b o rest ihb ihr =>
    rw [subFrames, List.flatMap_cons, List.flatMap_append,
      ← ihb (d + 1) n (valueInScope (some v) h) (n + 1), ← ihr d p v (n + 1 + b.size)]
    cases h with
    | call c inp =>
      rw [transfers, List.filter_append, List.filter_append, filter_callTransfer]
      simp [enterTransfer]
    | create c inp =>
      rw [transfers, List.filter_append, List.filter_append, filter_createTransfer]
      simp [enterTransfer]

theorem txTransfers_calls (t : Tx) :
    (txTransfers t).filter (fun tr => tr.kind == .call)
      = (frames t).flatMap (fun f => enterTransfer f.hdr) := by
  rw [frames, List.flatMap_cons, ← transfers_calls]
  unfold txTransfers
  cases t.hdr with
  | call c inp => simp only [List.filter_append, filter_callTransfer, enterTransfer]
  | create c inp =>
    simp only [List.filter_append, filter_createTransfer, enterTransfer, List.append_nil, List.nil_append]

theorem nodeTransfer_frame {f : FrameCtx} {x : Node} (h : readFrame x = frameData f) (hf : RevmCall f) :
    (nodeTransfer x).toList = enterTransfer f.hdr := by
  have hk : x.trace.kind = kind f.hdr := congrArg FrameData.kind h
  have hc : x.trace.caller = caller f.hdr := congrArg FrameData.caller h
  have hv : x.trace.value = f.value := congrArg FrameData.value h
  have ha : x.trace.address = (frameData f).address := congrArg FrameData.address h
  unfold nodeTransfer
  rw [hk, hc, hv, ha]
  obtain ⟨h1, h2⟩ := hf
  obtain ⟨idx, par, dep, pv, hdr, body, out⟩ := f
  simp only at h1 h2
  cases hdr with
  | create c inp =>
    unfold enterTransfer
    split
    · rfl
    · cases hs : inp.scheme <;> simp [kind, hs]
  | call c inp =>
    have h1 := h1 c inp rfl
    have haddr : (frameData ⟨idx, par, dep, pv, .call c inp, body, out⟩).address
        = match lastSelfdestruct body with
          | some (_, _, _) => inp.targetAddress
          | none => callee (.call c inp) := by
      unfold frameData
      simp only [createdAt]
      cases hl : lastSelfdestruct body with
      | none => rfl
      | some q =>
        obtain ⟨a, t, v⟩ := q
        exact h2 a t v hl
    rw [haddr]
    unfold enterTransfer callTransfer
    dsimp only
    cases hs : inp.scheme with
    | Call =>
      rw [hs] at h1
      obtain ⟨v, hv⟩ := h1
      have e : (FrameCtx.value ⟨idx, par, dep, pv, .call c inp, body, out⟩) = v := by
        simp [FrameCtx.value, valueInScope, isDelegateCall, hs, ownValue, CallInputs.callValue, hv]
      rw [e, hv]
      have e3 : (match lastSelfdestruct body with
          | some (_, _, _) => inp.targetAddress
          | none => callee (.call c inp)) = inp.targetAddress := by
        split
        · rfl
        · simp [callee, hs]
      rw [e3]
      simp only [kind, hs, Spec.caller]
      split <;> rfl
    | StaticCall =>
      rw [hs] at h1
      simp only at h1
      have e : (FrameCtx.value ⟨idx, par, dep, pv, .call c inp, body, out⟩) = 0 := by
        simp [FrameCtx.value, valueInScope, isDelegateCall, hs, ownValue, CallInputs.callValue, h1]
      rw [e, h1]
      simp
    | CallCode =>
      rw [hs] at h1
      obtain ⟨⟨v, hv⟩, ht⟩ := h1
      have e : (FrameCtx.value ⟨idx, par, dep, pv, .call c inp, body, out⟩) = v := by
        simp [FrameCtx.value, valueInScope, isDelegateCall, hs, ownValue, CallInputs.callValue, hv]
      rw [e, hv]
      simp only [kind, hs, Spec.caller, ht]
      split <;> rfl
    | DelegateCall =>
      rw [hs] at h1
      obtain ⟨v, hv⟩ := h1
      rw [hv]
      split
      · rfl
      · simp [kind, hs]

/-- **C69.** The transfers of kind call that a `TransferInspector` collects are, in order, those of the
calls that a `TracingInspector` records for the same execution: one for each recorded CALL with value
(from its caller to its address) or CALLCODE with value (to itself), and no others. (For the inputs revm
gives to calls.) -/
theorem C69_transfers_agree (cfg : Config) (t : Tx) (hwf : t.WF) (hsafe : Safe cfg t.body)
    (hrevm : ∀ f ∈ frames t, RevmCall f) :
    ∃ s trs, TI.run cfg TI.new t.events = .ok s ∧
      runHooks (transferHook false) [] t.events = .ok trs ∧
      trs.filter (fun tr => tr.kind == .call) = s.arena.filterMap nodeTransfer := by
  obtain ⟨s, hr, har, _⟩ := C03_recorded cfg t hwf hsafe
  refine ⟨s, _, hr, (C39_transfers t).1, ?_⟩
  rw [txTransfers_calls]
  generalize s.arena = l at har
  generalize frames t = fs at har hrevm
  induction l generalizing fs with
  | nil =>
    cases fs with
    | nil => rfl
    | cons f fs => cases har
  | cons x l ih =>
    cases fs with
    | nil => cases har
    | cons f fs =>
      simp only [List.map_cons, List.cons.injEq] at har
      rw [List.flatMap_cons, ih fs har.2 (fun g hg => hrevm g (by simp [hg])),
        ← nodeTransfer_frame har.1 (hrevm f (by simp)), List.filterMap_cons]
      cases nodeTransfer x <;> rfl

/-- A DELEGATECALL as revm makes it. -/
def delegateExample : Header :=
  .call Example.ctx { input := [], gasLimit := 9, bytecodeAddress := 0xd, targetAddress := 0xb,
                      caller := 0xa, value := .apparent 6, scheme := .DelegateCall }

/-- The root call sends value, and calls 0xb with value; the library is delegate-called; the callee
selfdestructs. -/
def transferExample : Tx where
  hdr := Example.callHdr .Call 0x99 0xa 0xa 11
  body := .sub (Example.callHdr .Call 0xa 0xb 0xb 6)
    (.sub delegateExample .nil (Example.out .Return)
      (.act (.selfdestruct 0xb 0xe 4) .nil)) (Example.out .SelfDestruct)
    (.sub (Example.callHdr .CallCode 0xa 0xa 0xd 7) .nil (Example.out .Return) .nil)
  out := Example.out .Stop

/-- It meets the hypotheses, and has three transfers by calls and one by a selfdestruct. -/
example : transferExample.WF ∧ (∀ cfg, Safe cfg transferExample.body) ∧
    (∀ f ∈ frames transferExample, RevmCall f) ∧
    (txTransfers transferExample).map (fun tr => (tr.kind, tr.frm, tr.to, tr.value))
      = [(.call, 0x99, 0xa, 11), (.call, 0xa, 0xb, 6), (.selfDestruct, 0xb, 0xe, 4),
         (.call, 0xa, 0xa, 7)] := by
  refine ⟨?_, fun cfg => ⟨⟨trivial, trivial⟩, trivial, trivial⟩, ?_, by decide⟩
  · refine ⟨fun _ => rfl, fun h => absurd h (by decide), ?_⟩
    refine ⟨fun _ => rfl, fun h => absurd h (by decide), ?_, ?_⟩
    · exact ⟨fun h => absurd h (by decide), fun h => absurd h (by decide), trivial, trivial⟩
    · exact ⟨fun h => absurd h (by decide), fun h => absurd h (by decide), trivial, trivial⟩
  · intro f hf
    simp only [frames, transferExample, subFrames, List.mem_cons, List.append_nil, List.cons_append,
      List.nil_append, List.not_mem_nil, or_false] at hf
    rcases hf with rfl | rfl | rfl | rfl
    · exact ⟨fun c inp h => by cases h; exact ⟨_, rfl⟩, fun a t v h => by cases h⟩
    · exact ⟨fun c inp h => by cases h; exact ⟨_, rfl⟩, fun a t v h => by cases h; rfl⟩
    · exact ⟨fun c inp h => by cases h; exact ⟨_, rfl⟩, fun a t v h => by cases h⟩
    · exact ⟨fun c inp h => by cases h; exact ⟨⟨_, rfl⟩, rfl⟩, fun a t v h => by cases h⟩

end Verif.Props
