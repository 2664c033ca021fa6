import Verif.Spec.Accounts
import Verif.Props.Cross
import Verif.Props.Receipt

/-!
C103: call frames name the accounts involved.
-/

namespace Verif.Props
open Spec Rec Parity

theorem caller_of {a : Address} {h : Header} (he : EnteredFrom a h) : caller h = a := by
  cases h with
  | create c inp => exact he
  | call c inp =>
    simp only [EnteredFrom] at he
    simp only [caller]
    cases hs : inp.scheme <;> rw [hs] at he <;> simp only at he ⊢
    · exact he
    · exact he.2
    · exact he
    · exact he

theorem leaf_readsAs (decode : RevertDecoder) (cfg : Config) (show_ : Bool) (f : FrameCtx)
    (h : AddressesOK f) : readsAs (leaf decode cfg show_ f) = some (executingAs f.hdr) := by
  rw [← runsAs_executing f h, readsAs]
  have key : ∀ (k : CallKind) (a b : Address),
      (if kindText k = "DELEGATECALL" ∨ kindText k = "CALLCODE" then some a else some b) =
        some (match k with | .DelegateCall | .CallCode => a | _ => b) := by
    intro k a b; cases k <;> simp [kindText]
  exact key _ _ _

theorem sdFrame_typ (f : FrameCtx) : ∀ c ∈ sdFrame f, c.typ = "SELFDESTRUCT" := by
  intro c hc
  unfold sdFrame at hc
  split at hc
  · simp at hc; rw [hc]
  · cases hc

theorem made_callTree (decode : RevertDecoder) (cfg : Config) (withLog : Bool)
    (extra : Nat → List CallFrame) (hex : ∀ i, ∀ c ∈ extra i, c.typ = "SELFDESTRUCT") (b : Body) :
    ∀ (a : Address) (ok : Bool) (d p : Nat) (v : U256) (n : Nat), AllEnteredFrom a b →
      (∀ f ∈ subFrames d p v n b, AddressesOK f) →
      ∀ k ∈ callTree decode cfg withLog extra ok d p v n b, k.from_ = a ∧ MadeByParent k := by
  induction b with
  | nil => intro a ok d p v n _ _ k hk; cases hk
  | act _ rest ih => intro a ok d p v n ha hf k hk; exact ih a ok d p v n ha hf k hk
  | sub h b o rest ihb ihr =>
    intro a ok d p v n ha hf k hk
    obtain ⟨h1, h2, h3⟩ := ha
    rw [callTree.eq_def] at hk; dsimp only at hk
    rw [subFrames] at hf
    rcases List.mem_cons.1 hk with rfl | hk
    · refine ⟨caller_of h1, .intro _ ?_ ?_⟩
      · intro k hk hne
        rcases List.mem_append.1 hk with hk | hk
        · rw [(ihb _ _ _ _ _ _ h2 (fun f hm => hf f (by simp [hm])) k hk).1]
          exact (leaf_readsAs decode cfg (withLog && (ok && o.result.result.isOk)) ⟨n, some p, d, some v, h, b, o⟩ (hf _ (by simp))).symm
        · exact absurd (hex _ _ hk) hne
      · intro k hk hne
        rcases List.mem_append.1 hk with hk | hk
        · exact (ihb _ _ _ _ _ _ h2 (fun f hm => hf f (by simp [hm])) k hk).2
        · exact absurd (hex _ _ hk) hne
    · exact ihr _ _ _ _ _ _ h3 (fun f hm => hf f (by simp [hm])) k hk

theorem sdAll_append (l l' : List CallFrame) :
    selfdestructFramesAll (l ++ l') = selfdestructFramesAll l ++ selfdestructFramesAll l' := by
  induction l with
  | nil => rfl
  | cons c l ih => simp only [List.cons_append, selfdestructFramesAll, ih, List.append_assoc]

theorem sd_of {c : CallFrame} (h : c.typ = "SELFDESTRUCT") : selfdestructFrames c = [c] := by
  obtain ⟨typ, _, _, _, _, _, _, _, _, _, _, _⟩ := c
  rw [selfdestructFrames, if_pos h]

theorem sd_below {c : CallFrame} (h : c.typ ≠ "SELFDESTRUCT") :
    selfdestructFrames c = selfdestructFramesAll c.calls := by
  obtain ⟨typ, _, _, _, _, _, _, _, _, _, _, _⟩ := c
  rw [selfdestructFrames, if_neg h]

theorem sdAll_of (l : List CallFrame) (h : ∀ c ∈ l, c.typ = "SELFDESTRUCT") :
    selfdestructFramesAll l = l := by
  induction l with
  | nil => rfl
  | cons c l ih =>
    rw [selfdestructFramesAll, sd_of (h c (by simp)), ih (fun c hc => h c (List.mem_cons_of_mem _ hc))]
    rfl

theorem sd_callTree (decode : RevertDecoder) (cfg : Config) (withLog : Bool)
    (extra : Nat → List CallFrame) (hex : ∀ i, ∀ c ∈ extra i, c.typ = "SELFDESTRUCT") (b : Body) :
    ∀ (ok : Bool) (d p : Nat) (v : U256) (n : Nat) (c : CallFrame),
      c ∈ selfdestructFramesAll (callTree decode cfg withLog extra ok d p v n b) ↔
        ∃ i, n ≤ i ∧ i < n + b.size ∧ c ∈ extra i := by
  induction b with
  | nil =>
    intro ok d p v n c
    simp only [callTree, selfdestructFramesAll, Body.size, List.not_mem_nil, false_iff]
    rintro ⟨i, h1, h2, _⟩; omega
  | act a rest ih => intro ok d p v n c; exact ih ok d p v n c
  | sub h b o rest ihb ihr =>
    intro ok d p v n c
    rw [callTree.eq_def]; dsimp only
    rw [selfdestructFramesAll, sd_below (kindText_sd _), sdAll_append, sdAll_of _ (hex n)]
    simp only [List.mem_append, ihb, ihr, Body.size]
    constructor
    · rintro ((⟨i, h1, h2, h3⟩ | h) | ⟨i, h1, h2, h3⟩)
      · exact ⟨i, by omega, by omega, h3⟩
      · exact ⟨n, by omega, by omega, h⟩
      · exact ⟨i, by omega, by omega, h3⟩
    · rintro ⟨i, h1, h2, h3⟩
      by_cases e : i = n
      · subst e; exact .inl (.inr h3)
      · by_cases e' : i < n + 1 + b.size
        · exact .inl (.inl ⟨i, by omega, by omega, h3⟩)
        · exact .inr ⟨i, by omega, by omega, h3⟩

/-- The SELFDESTRUCT frames in the tree. -/
theorem sd_tree (decode : RevertDecoder) (cfg : Config) (a b : Bool) (gas : Nat) (t : Tx) (c : CallFrame) :
    c ∈ selfdestructFrames (callFrameTree decode cfg a b (sdUnder t) gas t) ↔
      ∃ f ∈ frames t, c ∈ sdFrame f := by
  rw [callFrameTree, sd_below (kindText_sd _), sdAll_append, sdAll_of _ (sdUnder_typ t 0), List.mem_append,
    sd_callTree _ _ _ _ (sdUnder_typ t)]
  have hlen : (frames t).length = 1 + t.body.size := by
    simp [frames, subFrames_length]; omega
  have hroot : (frames t)[0]? = some (rootOf t) := rfl
  constructor
  · intro h
    have : ∃ i, c ∈ sdUnder t i := by
      rcases h with ⟨i, _, _, h⟩ | h
      · exact ⟨i, h⟩
      · exact ⟨0, h⟩
    obtain ⟨i, hi⟩ := this
    rw [sdUnder] at hi
    rcases List.mem_append.1 hi with hi | hi
    · split at hi
      · exact ⟨_, List.mem_of_getElem? hroot, hi⟩
      · cases hi
    · cases hf : (frames t)[i + 1]? with
      | none => rw [hf] at hi; cases hi
      | some f => rw [hf] at hi; exact ⟨f, List.mem_of_getElem? hf, hi⟩
  · rintro ⟨f, hf, hc⟩
    obtain ⟨k, hk⟩ := List.mem_iff_getElem?.1 hf
    cases k with
    | zero =>
      right
      rw [hroot] at hk
      cases hk
      rw [sdUnder, if_pos rfl]
      exact List.mem_append_left _ hc
    | succ k =>
      have hlt := (List.getElem?_eq_some_iff.1 hk).1
      have hm : c ∈ sdUnder t k := by
        rw [sdUnder, hk]
        exact List.mem_append_right _ hc
      cases k with
      | zero => exact .inr hm
      | succ k => exact .inl ⟨k + 1, by omega, by omega, hm⟩

/-- What the EVM guarantees about the accounts of a transaction's frames: they are entered from the account
that executes; logs, selfdestructs and creations name the account that executes. -/
def AccountLaw (t : Tx) : Prop :=
  AllEnteredFrom (executingAs t.hdr) t.body ∧ ∀ f ∈ frames t, AddressesOK f

theorem walk_shows (decode : RevertDecoder) (cfg : Config) (a b : Bool) (gas : Nat) (t : Tx) :
    InStep (fun (e : Nat × CallFrame) (f : FrameCtx) => e.1 = f.depth ∧ Shows decode e.2 f)
      (walk 0 (callFrameTree decode cfg a b (sdUnder t) gas t)) (frames t) := by
  rw [callFrameTree, walk_cons (kindText_sd _), frames]
  refine .cons ⟨rfl, cfg, _, _, fun h => absurd rfl h, rfl⟩ ?_
  rw [walkAll_append, walkAll_sd _ _ (sdUnder_typ t 0), List.append_nil]
  exact walk_callTree decode cfg _ _ (sdUnder_typ t) t.body _ _ _ _ _ (by omega)

theorem inStep_get {α β : Type} {r : α → β → Prop} {as : List α} {bs : List β} (h : InStep r as bs) :
    ∀ (k : Nat) (a : α) (b : β), as[k]? = some a → bs[k]? = some b → r a b := by
  induction h with
  | nil => intro k a b h; simp at h
  | cons h1 _ ih =>
    intro k a b ha hb
    cases k with
    | zero => simp at ha hb; subst ha hb; exact h1
    | succ k => exact ih k a b (by simpa using ha) (by simpa using hb)

/-- The account shown as called or created is the right one exactly if no selfdestruct overwrote it. -/
theorem address_iff (f : FrameCtx) (h : AddressesOK f) : (frameData f).address = callee f.hdr ↔
    (lastSelfdestruct f.body = none ∨ callee f.hdr = executingAs f.hdr) := by
  obtain ⟨_, h2, h3⟩ := h
  simp only [frameData]
  cases hc : createdAt f.hdr f.out with
  | some a =>
    have ha := h3 a hc
    have : callee f.hdr = executingAs f.hdr := by
      cases hh : f.hdr with
      | create c inp => rfl
      | call c inp => rw [hh] at hc; cases hc
    simp [this, ha]
  | none =>
    cases hl : lastSelfdestruct f.body with
    | none => simp
    | some x =>
      have := h2 x.1 (by rw [hl]; rfl)
      simp only [reduceCtorEq, false_or]
      rw [this]
      exact eq_comm

/-- The account named by a selfdestruct trace is the one that executed exactly if the selfdestruct was
reported or the code ran at its own account. -/
theorem sd_address_iff (f : FrameCtx) (h : AddressesOK f) : (frameData f).address = executingAs f.hdr ↔
    (lastSelfdestruct f.body ≠ none ∨ callee f.hdr = executingAs f.hdr) := by
  obtain ⟨_, h2, h3⟩ := h
  simp only [frameData]
  cases hc : createdAt f.hdr f.out with
  | some a =>
    have ha := h3 a hc
    have : callee f.hdr = executingAs f.hdr := by
      cases hh : f.hdr with
      | create c inp => rfl
      | call c inp => rw [hh] at hc; cases hc
    simp [this, ha]
  | none =>
    cases hl : lastSelfdestruct f.body with
    | none => simp
    | some x =>
      have := h2 x.1 (by rw [hl]; rfl)
      simp [this]

/-- **C103** (partial: the account whose code ran is not shown for DELEGATECALL and CALLCODE frames that
selfdestruct, and the SELFDESTRUCT frames show the caller of the destroyed contract, see `C103_exact` and
the refutation). For every execution that follows the EVM's rules, recording and call configuration: in the
call-frame tree every frame is shown as made by the account a reader takes the frame around it to execute
as; and this is the account it did execute as. -/
theorem C103_accounts_partial (decode : RevertDecoder) (cfg : Config) (t : Tx) (hwf : t.WF)
    (hsafe : Safe cfg t.body) (opts : CallConfig) (honly : opts.onlyTopCall.getD false = false) (gas : Nat)
    (hlaw : AccountLaw t) :
    ∃ s g, TI.run cfg TI.new t.events = .ok s ∧ gethCallTraces decode s.arena opts gas = .ok g ∧
      MadeByParent g ∧ g.from_ = caller t.hdr ∧ (walk 0 g).length = (frames t).length ∧
      ∀ (k : Nat) (f : FrameCtx) (d : Nat) (c : CallFrame), (frames t)[k]? = some f →
        (walk 0 g)[k]? = some (d, c) → readsAs c = some (executingAs f.hdr) := by
  obtain ⟨s, root, hr, _, har, htr⟩ := run_traces cfg t hwf hsafe
  have hg := gethCallTraces_run decode cfg t opts gas honly
  rw [← har] at hg
  have hw := walk_shows decode cfg (opts.withLog.getD false) (opts.withLog.getD false) gas t
  have hown := hlaw.2 (rootOf t) (by simp [frames, rootOf])
  have hmade := made_callTree decode cfg (opts.withLog.getD false) (sdUnder t) (sdUnder_typ t) t.body
    (executingAs t.hdr) t.out.result.result.isOk 1 0 (valueInScope none t.hdr) 1 hlaw.1
    (fun f hf => hlaw.2 f (by simp [frames, hf]))
  refine ⟨s, _, hr, hg, .intro _ ?_ ?_, rfl, hw.length, ?_⟩
  · intro k hk hne
    rcases List.mem_append.1 hk with hk | hk
    · rw [(hmade k hk).1]
      exact (leaf_readsAs decode cfg (opts.withLog.getD false) (rootOf t) hown).symm
    · exact absurd (sdUnder_typ _ _ _ hk) hne
  · intro k hk hne
    rcases List.mem_append.1 hk with hk | hk
    · exact (hmade k hk).2
    · exact absurd (sdUnder_typ _ _ _ hk) hne
  · intro k f d c hf hc
    obtain ⟨_, cfg', b, gas', _, hs⟩ := inStep_get hw k _ _ hc hf
    have := leaf_readsAs decode cfg' b f (hlaw.2 f (List.mem_of_getElem? hf))
    rw [← this]
    simp only at hs
    rw [hs]
    rfl

/-- **C103, exactly.** For every execution that follows the EVM's rules, recording and call configuration:
the account shown as called or created by a frame is the one whose code ran, or that was created, exactly
if no selfdestruct was reported in the frame or the code ran at its own account; the SELFDESTRUCT frames
are those of the selfdestructed frames, with the *caller* of the frame as the sender; and a parity
selfdestruct trace, in the place after the frame's calls, names the account that was destroyed exactly if
the selfdestruct was reported or the code ran at its own account. -/
theorem C103_exact (decode : RevertDecoder) (cfg : Config) (t : Tx) (hwf : t.WF)
    (hsafe : Safe cfg t.body) (opts : CallConfig) (honly : opts.onlyTopCall.getD false = false) (gas : Nat)
    (hlaw : AccountLaw t) :
    ∃ s g ts, TI.run cfg TI.new t.events = .ok s ∧ gethCallTraces decode s.arena opts gas = .ok g ∧
      intoTransactionTraces s.arena = .ok ts ∧
      (∀ (k : Nat) (f : FrameCtx) (d : Nat) (c : CallFrame), (frames t)[k]? = some f →
        (walk 0 g)[k]? = some (d, c) →
        (c.to = some (callee f.hdr) ↔
          lastSelfdestruct f.body = none ∨ callee f.hdr = executingAs f.hdr)) ∧
      (∀ c, c ∈ selfdestructFrames g ↔ ∃ f ∈ frames t, selfdestructed f = true ∧
        c = { typ := "SELFDESTRUCT", from_ := caller f.hdr, to := (lastSelfdestruct f.body).map (·.2.1),
              value := (lastSelfdestruct f.body).map (·.2.2) }) ∧
      (∀ tr ∈ ts, ∀ a receiver balance, tr.action = .selfdestruct a receiver balance →
        ∃ e ∈ located cfg t, selfdestructed e.2 = true ∧
          tr.traceAddress = e.1 ++ [(shownCalls cfg e.2).length] ∧
          (a = executingAs e.2.hdr ↔
            lastSelfdestruct e.2.body ≠ none ∨ callee e.2.hdr = executingAs e.2.hdr)) := by
  obtain ⟨s, root, hr, _, har, htr⟩ := run_traces cfg t hwf hsafe
  have hg := gethCallTraces_run decode cfg t opts gas honly
  rw [← har] at hg
  have hw := walk_shows decode cfg (opts.withLog.getD false) (opts.withLog.getD false) gas t
  refine ⟨s, _, _, hr, hg, htr, ?_, ?_, ?_⟩
  · intro k f d c hf hc
    obtain ⟨_, cfg', b, gas', _, hs⟩ := inStep_get hw k _ _ hc hf
    simp only at hs
    rw [← address_iff f (hlaw.2 f (List.mem_of_getElem? hf)), hs]
    simp [leaf]
  · intro c
    rw [sd_tree]
    constructor
    · rintro ⟨f, hf, hc⟩
      rw [sdFrame] at hc
      split at hc
      · case isTrue h => exact ⟨f, hf, h, by simpa using hc⟩
      · cases hc
    · rintro ⟨f, hf, h, rfl⟩
      exact ⟨f, hf, by rw [sdFrame, if_pos h]; simp⟩
  · intro tr htr' a receiver balance ha
    obtain ⟨e, he, hm⟩ := List.mem_flatMap.1 htr'
    have hfr : e.2 ∈ frames t := by
      have : e.2 ∈ (located cfg t).map (·.2) := List.mem_map_of_mem he
      rw [(located_frames cfg t hwf).1] at this
      exact (List.mem_filter.mp this).1
    rcases List.mem_cons.1 hm with rfl | hm
    · simp only [frameTrace, action] at ha
      cases hh : e.2.hdr <;> rw [hh] at ha <;> simp at ha
    · rw [sdTrace] at hm
      split at hm
      · case isTrue h =>
        simp only [List.mem_singleton] at hm
        subst hm
        simp only [Action.selfdestruct.injEq] at ha
        refine ⟨e, he, h, rfl, ?_⟩
        rw [← ha.1]
        exact sd_address_iff e.2 (hlaw.2 _ hfr)
      · cases hm

/-- 0xa calls the contract 0xb, which selfdestructs in favour of 0xe. -/
def destroysItself : Tx where
  hdr := Example.callHdr .Call 0x99 0xa 0xa 0
  body :=
    .act (Example.stepAct Op.CALL 0 200 .CallOrCreate)
      (.sub (Example.callHdr .Call 0xa 0xb 0xb 0) (.act (.selfdestruct 0xb 0xe 4) .nil)
        (Example.out .SelfDestruct) .nil)
  out := Example.out .Return

/-- **C103, refuted.** The contract 0xb, called by 0xa, destroys itself: the SELFDESTRUCT frame shows 0xa as
the account it comes from, which is not destroyed; the parity trace names 0xb. And if 0xb is destroyed by a
library 0xd it calls, the DELEGATECALL frame shows 0xb as the account called, not the library; so does
parity. Both executions follow the EVM's rules. -/
theorem C103_refuted :
    (destroysItself.WF ∧ (∀ cfg, Safe cfg destroysItself.body) ∧ AccountLaw destroysItself ∧
      ∀ decode cfg gas, ∃ s g ts, TI.run cfg TI.new destroysItself.events = .ok s ∧
        gethCallTraces decode s.arena {} gas = .ok g ∧ intoTransactionTraces s.arena = .ok ts ∧
        (selfdestructFrames g).map (fun c => (c.from_, c.to, c.value)) = [(0xa, some 0xe, some 4)] ∧
        (ts.filter (!isFrameTrace ·)).map (·.action) = [.selfdestruct 0xb 0xe 4]) ∧
    (AccountLaw destroysByLibrary ∧
      ∀ decode cfg gas, ∃ s g, TI.run cfg TI.new destroysByLibrary.events = .ok s ∧
        gethCallTraces decode s.arena {} gas = .ok g ∧
        (walk 0 g).map (fun e => (e.2.typ, e.2.from_, e.2.to)) =
          [("CALL", 0x99, some 0xb), ("DELEGATECALL", 0xb, some 0xb)]) := by
  have hwf : destroysItself.WF := ⟨fun _ => rfl, fun h => absurd h (by decide), fun _ => rfl,
    fun h => absurd h (by decide), trivial, trivial⟩
  have hsafe : ∀ cfg, Safe cfg destroysItself.body := fun cfg =>
    ⟨Example.stepSafe _ _ _ _ (by decide), trivial, trivial⟩
  refine ⟨⟨hwf, hsafe, ?_, fun decode cfg gas => ?_⟩, ?_, fun decode cfg gas => ?_⟩
  · refine ⟨⟨rfl, trivial, trivial⟩, ?_⟩
    intro f hf
    simp only [frames, destroysItself, subFrames, List.mem_cons, List.append_nil, List.not_mem_nil,
      or_false] at hf
    rcases hf with rfl | rfl
    · exact ⟨fun l hl => (nomatch hl), fun a ha => (by cases ha), fun a ha => (by cases ha)⟩
    · exact ⟨fun l hl => (nomatch hl), fun a ha => (by cases ha; rfl), fun a ha => (by cases ha)⟩
  · obtain ⟨s, root, hr, _, har, htr⟩ := run_traces cfg destroysItself hwf (hsafe cfg)
    have hg := gethCallTraces_run decode cfg destroysItself {} gas rfl
    rw [← har] at hg
    refine ⟨s, _, _, hr, hg, htr, ?_, ?_⟩
    · rfl
    · have hp : Header.isPrecompile (Example.callHdr .Call 0xa 0xb 0xb 0) = false := by decide
      have hl : (located cfg destroysItself).map (·.2) = frames destroysItself := by
        rw [(located_frames cfg destroysItself hwf).1, List.filter_eq_self]
        intro f hf
        simp only [frames, destroysItself, subFrames, List.mem_cons, List.append_nil, List.not_mem_nil,
          or_false] at hf
        rcases hf with rfl | rfl
        · simp [Spec.excluded]
        · simp only [Spec.excluded, hp, Bool.and_false, Bool.false_and, Bool.not_false]
      have hm : ∀ l : List (List Nat × FrameCtx), ((l.flatMap fun e =>
          frameTrace cfg root.trace.gasUsed e.1 e.2 :: sdTrace cfg e.1 e.2).filter (!isFrameTrace ·)).map
            (·.action) = (l.map (·.2)).flatMap (fun f => (sdTrace cfg [] f).map (·.action)) := by
        intro l
        induction l with
        | nil => rfl
        | cons e l ih =>
          rw [List.flatMap_cons, List.filter_append, List.map_append, ih, List.map_cons, List.flatMap_cons]
          congr 1
          rw [List.filter_cons_of_neg]
          · unfold sdTrace; split <;> simp [isFrameTrace]
          · simp only [isFrameTrace, frameTrace, action]; cases e.2.hdr <;> simp
      rw [txTraces, hm, hl]
      rfl
  · refine ⟨⟨rfl, trivial, trivial⟩, ?_⟩
    intro f hf
    simp only [frames, destroysByLibrary, subFrames, List.mem_cons, List.append_nil, List.not_mem_nil,
      or_false] at hf
    rcases hf with rfl | rfl
    · exact ⟨fun l hl => (nomatch hl), fun a ha => (by cases ha), fun a ha => (by cases ha)⟩
    · exact ⟨fun l hl => (nomatch hl), fun a ha => (by cases ha; rfl), fun a ha => (by cases ha)⟩
  · obtain ⟨hwf', hsafe', _⟩ := C03_refuted
    obtain ⟨s, root, hr, _, har, htr⟩ := run_traces cfg destroysByLibrary hwf' (hsafe' cfg)
    have hg := gethCallTraces_run decode cfg destroysByLibrary {} gas rfl
    rw [← har] at hg
    exact ⟨s, _, hr, hg, rfl⟩

/-- The example with five frames, among them a DELEGATECALL, a STATICCALL and a creation, follows the EVM's
rules. -/
example : AllEnteredFrom (executingAs Example.tx.hdr) Example.tx.body :=
  ⟨rfl, ⟨rfl, trivial, trivial⟩, rfl, trivial, rfl, trivial, trivial⟩

end Verif.Props
