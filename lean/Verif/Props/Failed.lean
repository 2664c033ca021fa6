import Verif.Props.Accounts
import Verif.Props.RevertReason
import Verif.Spec.Failed
/-!
# C113: traces do not show creations that failed as done
-/
namespace Verif.Props
open Spec Rec Parity

theorem errorText_reverted_iff (r : InstructionResult) : errorText .Parity r = "Reverted" ↔ r = .Revert := by
  cases r <;> decide

theorem kindText_creates (h : Header) :
    (kindText (kind h) = "CREATE" ∨ kindText (kind h) = "CREATE2") ↔ creates h = true := by
  cases h with
  | call c inp => cases hs : inp.scheme <;> simp [kind, hs, kindText, creates]
  | create c inp => cases hs : inp.scheme <;> simp [kind, hs, kindText, creates]

/-- What the frame of a failed frame claims, from the execution. -/
def NoClaim (decode : RevertDecoder) (f : FrameCtx) : Prop :=
  f.out.result.result.isOk = false → creates f.hdr = false ∧
    (f.out.result.result ≠ .Revert → f.out.result.output = [] ∧ reasonShown decode [] = none)

theorem failureShown_iff {decode : RevertDecoder} {c : CallFrame} {f : FrameCtx} (h : Shows decode c f) :
    FailureShown c ↔ NoClaim decode f := by
  obtain ⟨cfg, b, gas, _, hc⟩ := h
  have herr : c.error = if f.out.result.result.isOk then none
    else some (errorText .Parity f.out.result.result) := by rw [hc]; rfl
  have htyp : c.typ = kindText (kind f.hdr) := by rw [hc]; rfl
  have hto : c.to = some (frameData f).address := by rw [hc]; rfl
  have hout : c.output = if f.out.result.output = [] then none else some f.out.result.output := by
    rw [hc]; rfl
  have hrs : c.revertReason = if f.out.result.result.isOk then none
    else reasonShown decode f.out.result.output := by rw [hc]; rfl
  have houtn : c.output = none ↔ f.out.result.output = [] := by
    rw [hout]
    by_cases h0 : f.out.result.output = []
    · rw [if_pos h0]; exact ⟨fun _ => h0, fun _ => rfl⟩
    · rw [if_neg h0]; exact ⟨fun h => absurd h (by simp), fun h => absurd h h0⟩
  constructor
  · intro h hok
    rw [hok] at herr hrs
    simp only [Bool.false_eq_true, if_false] at herr hrs
    refine ⟨?_, fun hnr => ?_⟩
    · cases hcr : creates f.hdr
      · rfl
      · have := h.created (by rw [herr]; simp) (by rw [htyp]; exact (kindText_creates _).2 hcr)
        rw [hto] at this
        cases this
    · have := h.data (by rw [herr]; simp)
        (by rw [herr]; intro he; exact hnr ((errorText_reverted_iff _).1 (Option.some.inj he)))
      have h1 := houtn.1 this.1
      rw [h1] at hrs
      exact ⟨h1, hrs ▸ this.2⟩
  · intro h
    have hf : c.error ≠ none → f.out.result.result.isOk = false := by
      intro he
      cases hok : f.out.result.result.isOk
      · rfl
      · rw [herr, hok] at he; exact absurd rfl he
    refine ⟨fun he ht => ?_, fun he hnr => ?_⟩
    · have := (h (hf he)).1
      rw [htyp, kindText_creates, this] at ht
      cases ht
    · rw [herr, hf he] at hnr
      simp only [Bool.false_eq_true, if_false, ne_eq, Option.some.injEq] at hnr
      have := (h (hf he)).2 (fun hr => hnr ((errorText_reverted_iff _).2 hr))
      refine ⟨houtn.2 this.1, ?_⟩
      rw [hrs, hf he, this.1]
      exact this.2

theorem inStep_all {α β : Type} {r : α → β → Prop} {as : List α} {bs : List β} (h : InStep r as bs)
    {P : α → Prop} {Q : β → Prop} (hpq : ∀ a b, r a b → (P a ↔ Q b)) :
    (∀ a ∈ as, P a) ↔ ∀ b ∈ bs, Q b := by
  induction h with
  | nil => simp
  | cons h1 _ ih => simp only [List.forall_mem_cons, hpq _ _ h1, ih]

/-- **C113, exactly.** For every execution, recording, call configuration and decoder of reasons: the call
frames of geth claim nothing of frames that failed exactly if no creation failed and frames that failed other
than by a revert had no data; the parity traces exactly if no creation reverted. -/
theorem C113_exact (decode : RevertDecoder) (cfg : Config) (t : Tx) (hwf : t.WF)
    (hsafe : Safe cfg t.body) (opts : CallConfig) (honly : opts.onlyTopCall.getD false = false) (gas : Nat) :
    ∃ s g ts, TI.run cfg TI.new t.events = .ok s ∧ gethCallTraces decode s.arena opts gas = .ok g ∧
      intoTransactionTraces s.arena = .ok ts ∧
      ((∀ e ∈ walk 0 g, FailureShown e.2) ↔ ∀ f ∈ frames t, f.out.result.result.isOk = false →
        creates f.hdr = false ∧ (f.out.result.result ≠ .Revert → f.out.result.output = [] ∧
          reasonShown decode [] = none)) ∧
      ((∀ tr ∈ ts, NothingCreated tr) ↔
        ∀ f ∈ frames t, f.out.result.result = .Revert → creates f.hdr = false) := by
  obtain ⟨s, root, hr, _, har, htr⟩ := run_traces cfg t hwf hsafe
  have hg := gethCallTraces_run decode cfg t opts gas honly
  rw [← har] at hg
  have hw := walk_shows decode cfg (opts.withLog.getD false) (opts.withLog.getD false) gas t
  refine ⟨s, _, _, hr, hg, htr, inStep_all hw (fun a b h => failureShown_iff h.2), ?_⟩
  have hloc := (located_frames cfg t hwf).1
  constructor
  · intro h f hf hrev
    cases hcr : creates f.hdr
    · rfl
    · have hex : Spec.excluded cfg f = false := by
        cases hh : f.hdr with
        | call c inp => rw [hh] at hcr; cases hcr
        | create c inp => simp [Spec.excluded, hh, Header.isPrecompile]
      have hm : f ∈ (located cfg t).map (·.2) := by
        rw [hloc]; exact List.mem_filter.2 ⟨hf, by rw [hex]; rfl⟩
      obtain ⟨e, he, rfl⟩ := List.mem_map.1 hm
      have hok : e.2.out.result.result.isOk = false := by rw [hrev]; rfl
      have := h _ (List.mem_flatMap.2 ⟨e, he, List.mem_cons_self ..⟩)
        (by simp only [frameTrace, hok, Bool.false_eq_true, if_false]; simp)
      cases hh : e.2.hdr with
      | call c inp => rw [hh] at hcr; cases hcr
      | create c inp =>
        have hres : (frameTrace cfg root.trace.gasUsed e.1 e.2).result = some (.create
            (if e.2.parent = none then root.trace.gasUsed
              else e.2.out.result.gas.limit - e.2.out.result.gas.remaining)
            e.2.out.result.output (frameData e.2).address) := by
          simp only [frameTrace, outcome, hrev, or_true, if_true, hh]
        exact absurd hres (this _ _ _)
  · intro h tr hm
    obtain ⟨e, he, hm⟩ := List.mem_flatMap.1 hm
    have hfr : e.2 ∈ frames t := by
      have : e.2 ∈ (located cfg t).map (·.2) := List.mem_map_of_mem he
      rw [hloc] at this
      exact (List.mem_filter.mp this).1
    rcases List.mem_cons.1 hm with rfl | hm
    · intro herr g code a hres
      simp only [frameTrace, outcome] at herr hres
      split at hres
      · rename_i hor
        cases hh : e.2.hdr with
        | call c inp => rw [hh] at hres; simp at hres
        | create c inp =>
          rcases hor with hok | hrev
          · rw [hok] at herr; simp at herr
          · have := h e.2 hfr hrev
            rw [hh] at this; cases this
      · cases hres
    · rw [sdTrace] at hm
      split at hm
      · simp only [List.mem_singleton] at hm
        subst hm
        intro herr
        exact absurd rfl herr
      · cases hm

/-- **C113** (partial: missing are failed creations, see the refutation). In every transaction in which no
creation fails, and in which frames that fail other than by a revert have no data, no trace claims anything
of a frame that failed. -/
theorem C113_failed_partial (decode : RevertDecoder) (hdec : reasonShown decode [] = none) (cfg : Config)
    (t : Tx) (hwf : t.WF) (hsafe : Safe cfg t.body) (opts : CallConfig)
    (honly : opts.onlyTopCall.getD false = false) (gas : Nat)
    (hcr : ∀ f ∈ frames t, f.out.result.result.isOk = false → creates f.hdr = false)
    (hout : ∀ f ∈ frames t, f.out.result.result.isOk = false → f.out.result.result ≠ .Revert →
      f.out.result.output = []) :
    ∃ s g ts, TI.run cfg TI.new t.events = .ok s ∧ gethCallTraces decode s.arena opts gas = .ok g ∧
      intoTransactionTraces s.arena = .ok ts ∧ (∀ e ∈ walk 0 g, FailureShown e.2) ∧
      ∀ tr ∈ ts, NothingCreated tr := by
  obtain ⟨s, g, ts, h1, h2, h3, h4, h5⟩ := C113_exact decode cfg t hwf hsafe opts honly gas
  exact ⟨s, g, ts, h1, h2, h3, h4.2 (fun f hf hok => ⟨hcr f hf hok, fun hn => ⟨hout f hf hok hn, hdec⟩⟩),
    h5.2 (fun f hf hrev => hcr f hf (by rw [hrev]; rfl))⟩

/-- The decoder of the library finds no reason in no data. -/
theorem no_reason_in_nothing (lossy : Bytes → String) (display : ContractError → String) :
    reasonShown (Sol.decoder lossy display) [] = none := by
  have : String.fromUTF8? ⟨#[]⟩ = some "" := (fromUTF8_iff [] "").2 (by decide)
  simp [reasonShown, Sol.decoder, Sol.decode, Sol.abiDecode, this, told]

/-- A transaction that creates a contract, which ends as given. -/
def creationTx (r : InstructionResult) (out : Bytes) : Tx where
  hdr := Example.callHdr .Call 0x99 0xa 0xa 0
  body := .sub Example.createHdr .nil
    { Example.out r with result := { (Example.out r).result with output := out } } .nil
  out := Example.out .Revert

theorem creationTx_ok (r : InstructionResult) (out : Bytes) :
    (creationTx r out).WF ∧ ∀ cfg, Safe cfg (creationTx r out).body := by
  refine ⟨⟨fun _ => rfl, ?_, ?_⟩, fun cfg => ?_⟩ <;>
  simp [creationTx, Example.callHdr, Example.createHdr, Header.isPrecompile, Example.ctx, Safe, Body.WF, Header.WF, Body.AllSteps]

/-- A transaction that reverts after a creation that succeeded meets the hypotheses. -/
example : (creationTx .Return [0x60]).WF ∧ (∀ cfg, Safe cfg (creationTx .Return [0x60]).body) ∧
    (∀ f ∈ frames (creationTx .Return [0x60]), f.out.result.result.isOk = false → creates f.hdr = false) ∧
    (∀ f ∈ frames (creationTx .Return [0x60]), f.out.result.result.isOk = false →
      f.out.result.result ≠ .Revert → f.out.result.output = []) ∧
    (creationTx .Return [0x60]).out.result.result.isOk = false := by
  refine ⟨(creationTx_ok _ _).1, (creationTx_ok _ _).2, ?_, ?_, rfl⟩ <;>
  simp [frames, subFrames, creationTx, creates, Example.callHdr, Example.createHdr, Example.out,
    InstructionResult.isOk]

/-- **C113, refuted.** A creation that reverts with the bytes 1, 2 is shown by geth's call frames as the
creation of an account, and by the parity traces as the creation of that account with the code 1, 2. A
creation that fails because its code is too long is shown with the code as its output, and with a revert
reason if the code is text. -/
theorem C113_refuted (lossy : Bytes → String) (display : ContractError → String) (gas : Nat) :
    (∃ s g ts, TI.run Config.all TI.new (creationTx .Revert [1, 2]).events = .ok s ∧
      gethCallTraces (Sol.decoder lossy display) s.arena {} gas = .ok g ∧ intoTransactionTraces s.arena = .ok ts ∧
      (walk 0 g).map (fun e => (e.2.typ, e.2.to, e.2.error)) =
        [("CALL", some 0xa, some "Reverted"), ("CREATE", some 0xc3, some "Reverted")] ∧
      ts.map (fun tr => (tr.error, tr.result)) =
        [(some "Reverted", some (.call 550 [7, 8])), (some "Reverted", some (.create 600 [1, 2] 0xc3))] ∧
      ¬ (∀ e ∈ walk 0 g, FailureShown e.2) ∧ ¬ (∀ tr ∈ ts, NothingCreated tr)) ∧
    (∃ s g, TI.run Config.all TI.new (creationTx .CreateContractSizeLimit [0x61, 0x62]).events = .ok s ∧
      gethCallTraces (Sol.decoder lossy display) s.arena {} gas = .ok g ∧
      (walk 0 g).map (fun e => (e.2.typ, e.2.error, e.2.output, e.2.revertReason)) =
        [("CALL", some "Reverted", some [7, 8], some "\x07\x08"),
         ("CREATE", some "CreateContractSizeLimit", some [0x61, 0x62], some "ab")]) := by
  constructor
  · obtain ⟨s, g, ts, h1, h2, h3, h4, h5⟩ := C113_exact (Sol.decoder lossy display) Config.all
      (creationTx .Revert [1, 2]) (creationTx_ok _ _).1 ((creationTx_ok _ _).2 _) {} rfl gas
    refine ⟨s, g, ts, h1, h2, h3, ?_, ?_, fun h => ?_, fun h => ?_⟩
    · cases h1; cases h2; rfl
    · cases h1; cases h3; rfl
    · exact absurd (h4.1 h _ (List.mem_cons_of_mem _ (List.mem_cons_self ..)) rfl).1 (by decide)
    · exact absurd (h5.1 h _ (List.mem_cons_of_mem _ (List.mem_cons_self ..)) rfl) (by decide)
  · refine ⟨_, _, rfl, rfl, ?_⟩
    have h1 : maybeRevertReason (Sol.decoder lossy display) [0x61, 0x62] = some "ab" := by
      have : String.fromUTF8? ⟨#[0x61, 0x62]⟩ = some "ab" := (fromUTF8_iff [0x61, 0x62] "ab").2 (by decide +kernel)
      simp [maybeRevertReason, Sol.decoder, Sol.decode, Sol.abiDecode, this]
    have h2 : maybeRevertReason (Sol.decoder lossy display) [7, 8] = some "\x07\x08" := by
      have : String.fromUTF8? ⟨#[7, 8]⟩ = some "\x07\x08" := (fromUTF8_iff [7, 8] "\x07\x08").2 (by decide +kernel)
      simp [maybeRevertReason, Sol.decoder, Sol.decode, Sol.abiDecode, this]
    show [("CALL", some "Reverted", some [7, 8], maybeRevertReason (Sol.decoder lossy display) [7, 8]),
      ("CREATE", some "CreateContractSizeLimit", some [0x61, 0x62],
        maybeRevertReason (Sol.decoder lossy display) [0x61, 0x62])] = _
    rw [h1, h2]

end Verif.Props
