import Verif.Props.CallFrames
import Verif.Props.Parity
/-!
# C67: the two kinds of call traces agree
-/
namespace Verif.Spec

mutual
/-- The frames of a geth call-frame tree in the order in which they were entered, each with its depth.
The frames that stand for selfdestructs are left out. -/
def walk (d : Nat) : CallFrame → List (Nat × CallFrame)
  | ⟨typ, from_, to, value, gas, gasUsed, input, output, error, revertReason, calls, logs⟩ =>
    if typ = "SELFDESTRUCT" then []
    else (d, ⟨typ, from_, to, value, gas, gasUsed, input, output, error, revertReason, calls, logs⟩) ::
      walkAll (d + 1) calls
/-- The same for several frames. -/
def walkAll (d : Nat) : List CallFrame → List (Nat × CallFrame)
  | [] => []
  | c :: cs => walk d c ++ walkAll d cs
end

/-- The name of a parity call type in geth traces. -/
def callTypeText : CallType → String
  | .call => "CALL" | .callCode => "CALLCODE" | .delegateCall => "DELEGATECALL"
  | .staticCall => "STATICCALL" | .authCall => "AUTHCALL" | .none => ""

/-- Two lists of the same length whose elements are related one by one. -/
inductive InStep {α β : Type} (r : α → β → Prop) : List α → List β → Prop
  | nil : InStep r [] []
  | cons {a : α} {b : β} {as : List α} {bs : List β} : r a b → InStep r as bs →
      InStep r (a :: as) (b :: bs)

/-- A geth call frame at depth `d` and a parity trace describe the same frame. -/
def SameFrame (d : Nat) (c : CallFrame) (tr : TransactionTrace) : Prop :=
  tr.traceAddress.length = d ∧
  (match tr.action with
    | .call f to value gas input ct => c.from_ = f ∧ c.to = some to ∧ c.gas = gas ∧ c.input = input ∧
        c.typ = callTypeText ct ∧ c.value = if ct = .staticCall then none else some value
    | .create f value gas init => c.from_ = f ∧ c.gas = gas ∧ c.input = init ∧
        (c.typ = "CREATE" ∨ c.typ = "CREATE2") ∧ c.value = some value
    | _ => False) ∧
  c.error = tr.error ∧
  (match tr.result with
    | some (.call gas out) => (d ≠ 0 → c.gasUsed = gas) ∧ c.output = if out = [] then none else some out
    | some (.create gas code addr) => (d ≠ 0 → c.gasUsed = gas) ∧
        (c.output = if code = [] then none else some code) ∧ c.to = some addr
    | none => c.error ≠ none ∧ c.error ≠ some "Reverted")

end Verif.Spec

namespace Verif.Props
open Spec
open Verif.Rec (run_frames nodeOf)
open Verif.Parity (intoTransactionTraces)

/-- What a frame of the tree shows of a frame of the execution. -/
def Shows (decode : RevertDecoder) (c : CallFrame) (f : FrameCtx) : Prop :=
  ∃ cfg b gas, (f.depth ≠ 0 → gas = (leaf decode cfg b f).gasUsed) ∧
    c = { leaf decode cfg b f with gasUsed := gas, calls := c.calls }

theorem _root_.Verif.Spec.InStep.append {α β : Type} {r : α → β → Prop} {as : List α} {bs : List β}
    (h : InStep r as bs) {as' : List α} {bs' : List β} (h' : InStep r as' bs') :
    InStep r (as ++ as') (bs ++ bs') := by
  induction h with
  | nil => exact h'
  | cons h1 _ ih => exact .cons h1 ih

theorem _root_.Verif.Spec.InStep.length {α β : Type} {r : α → β → Prop} {as : List α} {bs : List β}
    (h : InStep r as bs) : as.length = bs.length := by
  induction h with
  | nil => rfl
  | cons _ _ ih => simp [ih]

/-- Dropping on both sides the pairs whose right element is dropped. -/
theorem _root_.Verif.Spec.InStep.filter {α β : Type} {r : α → β → Prop} {as : List α} {bs : List β} (q : β → Bool)
    (h : InStep r as bs) :
    InStep r (((as.zip bs).filter (fun e => q e.2)).map (·.1)) (bs.filter q) := by
  induction h with
  | nil => exact .nil
  | @cons a b _ _ h1 _ ih =>
    rw [List.zip_cons_cons, List.filter_cons, List.filter_cons]
    cases hq : q b with
    | false => simpa [hq] using ih
    | true => simpa [hq] using .cons h1 ih

theorem _root_.Verif.Spec.InStep.map_right {α β γ : Type} {r : α → β → Prop} {r' : α → γ → Prop} {f : β → γ}
    {as : List α} {bs : List β} (h : InStep r as bs) (hf : ∀ a b, b ∈ bs → r a b → r' a (f b)) :
    InStep r' as (bs.map f) := by
  induction h with
  | nil => exact .nil
  | @cons a b _ bs h1 _ ih =>
    exact .cons (hf a b (by simp) h1) (ih (fun a b hb => hf a b (List.mem_cons_of_mem _ hb)))

theorem walk_cons {d : Nat} {c : CallFrame} (h : c.typ ≠ "SELFDESTRUCT") :
    walk d c = (d, c) :: walkAll (d + 1) c.calls := by
  obtain ⟨typ, _, _, _, _, _, _, _, _, _, _, _⟩ := c
  rw [walk, if_neg h]

theorem walk_sd {d : Nat} {c : CallFrame} (h : c.typ = "SELFDESTRUCT") : walk d c = [] := by
  obtain ⟨typ, _, _, _, _, _, _, _, _, _, _, _⟩ := c
  rw [walk, if_pos h]

theorem walkAll_append (d : Nat) (l l' : List CallFrame) :
    walkAll d (l ++ l') = walkAll d l ++ walkAll d l' := by
  induction l with
  | nil => rfl
  | cons c l ih => simp only [List.cons_append, walkAll, ih, List.append_assoc]

theorem walkAll_sd (d : Nat) (l : List CallFrame) (h : ∀ c ∈ l, c.typ = "SELFDESTRUCT") :
    walkAll d l = [] := by
  induction l with
  | nil => rfl
  | cons c l ih =>
    rw [walkAll, walk_sd (h c (by simp)), ih (fun c hc => h c (List.mem_cons_of_mem _ hc))]; rfl

theorem kindText_sd (k : CallKind) : kindText k ≠ "SELFDESTRUCT" := by cases k <;> decide

theorem walk_callTree (decode : RevertDecoder) (cfg : Config) (withLog : Bool)
    (extra : Nat → List CallFrame) (hex : ∀ i, ∀ c ∈ extra i, c.typ = "SELFDESTRUCT") (b : Body) :
    ∀ (ok : Bool) (d p : Nat) (v : U256) (n : Nat), 0 < d →
    InStep (fun (e : Nat × CallFrame) (f : FrameCtx) => e.1 = f.depth ∧ Shows decode e.2 f)
      (walkAll d (callTree decode cfg withLog extra ok d p v n b)) (subFrames d p v n b) := by
  induction b with
  | nil => intro ok d p v n _; exact .nil
  | act a rest ih => intro ok d p v n hd; exact ih ok d p v n hd
  | sub h b o rest ihb ihr =>
    intro ok d p v n hd
    rw [callTree.eq_def]; dsimp only
    rw [walkAll, walk_cons (kindText_sd _), subFrames]
    simp only [List.cons_append]
    refine .cons ⟨rfl, cfg, _, _, fun _ => rfl, rfl⟩ ?_
    rw [walkAll_append, walkAll_sd _ _ (hex n), List.append_nil]
    exact InStep.append (ihb _ _ _ _ _ (by omega)) (ihr _ _ _ _ _ hd)

theorem subFrames_nosub (b : Body) (h : b.hasSub = false) (d p : Nat) (v : U256) (n : Nat) :
    subFrames d p v n b = [] := by
  induction b with
  | nil => rfl
  | act a rest ih => exact ih h
  | sub _ _ _ _ _ _ => cases h

theorem subFrames_depth (b : Body) : ∀ (d p : Nat) (v : U256) (n : Nat), 0 < d →
    ∀ f ∈ subFrames d p v n b, 0 < f.depth ∧ f.parent ≠ none := by
  induction b with
  | nil => intro d p v n _ f hf; cases hf
  | act a rest ih => intro d p v n hd; exact ih d p v n hd
  | sub h b o rest ihb ihr =>
    intro d p v n hd f hf
    rcases List.mem_cons.mp hf with rfl | hf
    · exact ⟨hd, by simp⟩
    · rcases List.mem_append.mp hf with hf | hf
      · exact ihb _ _ _ _ (by omega) f hf
      · exact ihr _ _ _ _ hd f hf

theorem frames_depth_iff {t : Tx} {f : FrameCtx} (hf : f ∈ frames t) :
    f.depth = 0 ↔ f.parent = none := by
  rcases List.mem_cons.mp hf with rfl | hf
  · exact iff_of_true rfl rfl
  · obtain ⟨h1, h2⟩ := subFrames_depth t.body 1 0 _ 1 (by omega) f hf
    exact iff_of_false (by omega) h2

/-- The located frames are the frames that are not excluded, in the order in which they were entered,
and the length of a path is the depth. -/
theorem locate_frames (cfg : Config) (b : Body) : ∀ (d p : Nat) (v : U256) (n : Nat) (path : List Nat)
    (k : Nat), b.WF → path.length + 1 = d →
    (locate cfg d p v n path k b).map (·.2) =
      (subFrames d p v n b).filter (fun f => !excluded cfg f) ∧
    ∀ e ∈ locate cfg d p v n path k b, e.1.length = e.2.depth := by
  induction b with
  | nil => intro d p v n path k _ _; exact ⟨rfl, fun e he => by cases he⟩
  | act a rest ih => intro d p v n path k hwf hd; exact ih d p v n path k hwf hd
  | sub h b o rest ihb ihr =>
    intro d p v n path k hwf hd
    obtain ⟨_, hp, hwb, hwr⟩ := hwf
    rw [locate.eq_def]; dsimp only
    rw [subFrames.eq_def]; dsimp only
    rw [List.filter_cons]
    cases hx : excluded cfg ⟨n, some p, d, some v, h, b, o⟩ with
    | true =>
      have hpre : h.isPrecompile = true := by
        simp only [excluded, Bool.and_eq_true] at hx
        exact hx.1.2
      rw [subFrames_nosub b (hp hpre)]
      simp only [if_true, Bool.not_true, Bool.false_eq_true, if_false, List.nil_append]
      exact ihr d p v _ path k hwr hd
    | false =>
      simp only [Bool.false_eq_true, if_false, Bool.not_false, if_true, List.map_cons, List.map_append,
        List.filter_append]
      obtain ⟨b1, b2⟩ := ihb (d + 1) n (valueInScope (some v) h) (n + 1) (path ++ [k]) 0 hwb
        (by simp; omega)
      obtain ⟨r1, r2⟩ := ihr d p v (n + 1 + b.size) path (k + 1) hwr hd
      refine ⟨by rw [b1, r1], ?_⟩
      intro e he
      rcases List.mem_cons.mp he with rfl | he
      · simp; omega
      · rcases List.mem_append.mp he with he | he
        · exact b2 e he
        · exact r2 e he

theorem located_frames (cfg : Config) (t : Tx) (hwf : t.WF) :
    (located cfg t).map (·.2) = (frames t).filter (fun f => !excluded cfg f) ∧
    ∀ e ∈ located cfg t, e.1.length = e.2.depth := by
  obtain ⟨h1, h2⟩ := locate_frames cfg t.body 1 0 (valueInScope none t.hdr) 1 [] 0 hwf.2.2 rfl
  have hroot : excluded cfg (rootOf t) = false := by simp [excluded, rootOf]
  refine ⟨?_, ?_⟩
  · simp only [located, frames, List.map_cons, h1]
    rw [List.filter_cons_of_pos (by simpa [rootOf] using hroot)]
    rfl
  · intro e he
    rcases List.mem_cons.mp he with rfl | he
    · rfl
    · exact h2 e he

/-- Not the trace of a selfdestruct. -/
def isFrameTrace (tr : TransactionTrace) : Bool :=
  match tr.action with
  | .selfdestruct _ _ _ => false
  | _ => true

theorem txTraces_frames (cfg : Config) (g : Nat) (t : Tx) :
    (txTraces cfg g t).filter isFrameTrace = (located cfg t).map (fun e => frameTrace cfg g e.1 e.2) := by
  unfold txTraces
  induction located cfg t with
  | nil => rfl
  | cons e l ih =>
    rw [List.flatMap_cons, List.filter_append, ih, List.map_cons, List.filter_cons_of_pos]
    · have : (sdTrace cfg e.1 e.2).filter isFrameTrace = [] := by
        unfold sdTrace; split <;> simp [isFrameTrace]
      rw [this]; rfl
    · simp only [isFrameTrace, frameTrace, action]; cases e.2.hdr <;> rfl

theorem errorText_reverted (r : InstructionResult) (h : errorText .Parity r = "Reverted") :
    r = .Revert := by
  revert h
  cases r <;> decide

theorem agree_of (decode : RevertDecoder) (cfg : Config) (g : Nat) (e : List Nat × FrameCtx)
    (hl : e.1.length = e.2.depth) (hp : e.2.depth = 0 ↔ e.2.parent = none) (c : CallFrame)
    (h : Shows decode c e.2) : SameFrame e.2.depth c (frameTrace cfg g e.1 e.2) := by
  obtain ⟨path, f⟩ := e
  obtain ⟨cfg', b, gas, hg, hc⟩ := h
  simp only at hl hp hg hc ⊢
  rw [hc]
  have hgas : f.depth ≠ 0 → gas = (if f.parent = none then g
      else f.out.result.gas.limit - f.out.result.gas.remaining) := by
    intro hd
    rw [hg hd, if_neg (fun h => hd (hp.2 h))]; rfl
  refine ⟨hl, ?_, ?_, ?_⟩
  · cases hh : f.hdr with
    | call cx inp =>
      simp only [frameTrace, action, hh, leaf, kind, input]
      cases hs : inp.scheme <;> simp [callType, callTypeText, kindText]
    | create cx inp =>
      simp only [frameTrace, action, hh, leaf, kind, input, caller]
      cases hs : inp.scheme <;> simp [kindText]
  · rfl
  · simp only [frameTrace, outcome]
    by_cases ho : f.out.result.result.isOk = true ∨ f.out.result.result = .Revert
    · rw [if_pos ho]
      cases hh : f.hdr with
      | call cx inp => exact ⟨hgas, rfl⟩
      | create cx inp => exact ⟨hgas, rfl, rfl⟩
    · rw [if_neg ho]
      simp only [leaf]
      rw [if_neg (fun h => ho (.inl h))]
      exact ⟨by simp, fun h => ho (.inr (errorText_reverted _ (Option.some.inj h)))⟩

theorem sdUnder_typ (t : Tx) : ∀ i, ∀ c ∈ sdUnder t i, c.typ = "SELFDESTRUCT" := by
  have h : ∀ f : FrameCtx, ∀ c ∈ sdFrame f, c.typ = "SELFDESTRUCT" := by
    intro f c hc
    unfold sdFrame at hc
    split at hc
    · simp at hc; rw [hc]
    · cases hc
  intro i c hc
  unfold sdUnder at hc
  rcases List.mem_append.mp hc with hc | hc
  · split at hc
    · exact h _ c hc
    · cases hc
  · cases hf : (frames t)[i + 1]? with
    | none => rw [hf] at hc; cases hc
    | some f => rw [hf] at hc; exact h f c hc

/-- **C67.** For every execution, recording configuration and call configuration (without
`onlyTopCall`): the frames of the geth call-frame tree, in the order in which they were entered and with
their depths, are one for each executed frame; those of them that parity shows (all but the excluded
calls of precompiles) agree one by one with the parity traces (selfdestructs left out on both sides), in
order, in their position in depth, kind, sender, target, value, gas limit, input, error, output, created
address and, except for the root, gas used. -/
theorem C67_geth_and_parity_agree (decode : RevertDecoder) (cfg : Config) (t : Tx)
    (hwf : t.WF) (hsafe : Safe cfg t.body) (opts : CallConfig)
    (honly : opts.onlyTopCall.getD false = false) (gas : Nat) :
    ∃ s g ts, TI.run cfg TI.new t.events = .ok s ∧ gethCallTraces decode s.arena opts gas = .ok g ∧
      intoTransactionTraces s.arena = .ok ts ∧ (walk 0 g).length = (frames t).length ∧
      InStep (fun (e : Nat × CallFrame) (tr : TransactionTrace) => SameFrame e.1 e.2 tr)
        ((((walk 0 g).zip (frames t)).filter (fun e => !excluded cfg e.2)).map (·.1))
        (ts.filter isFrameTrace) := by
  obtain ⟨s, root, hr, _, har, htr⟩ := run_traces cfg t hwf hsafe
  have hg := gethCallTraces_run decode cfg t opts gas honly
  rw [← har] at hg
  refine ⟨s, _, _, hr, hg, htr, ?_⟩
  have hwalk : InStep (fun (e : Nat × CallFrame) (f : FrameCtx) => e.1 = f.depth ∧ Shows decode e.2 f)
      (walk 0 (callFrameTree decode cfg (opts.withLog.getD false) (opts.withLog.getD false)
        (sdUnder t) gas t)) (frames t) := by
    rw [callFrameTree, walk_cons (kindText_sd _), frames]
    refine .cons ⟨rfl, cfg, _, _, fun h => absurd rfl h, rfl⟩ ?_
    rw [walkAll_append, walkAll_sd _ _ (sdUnder_typ t 0), List.append_nil]
    exact walk_callTree decode cfg _ _ (sdUnder_typ t) t.body _ _ _ _ _ (by omega)
  refine ⟨hwalk.length, ?_⟩
  obtain ⟨l1, l2⟩ := located_frames cfg t hwf
  have hf := hwalk.filter (fun f => !excluded cfg f)
  rw [← l1] at hf
  rw [txTraces_frames]
  have key : ∀ (as : List (Nat × CallFrame)) (ls : List (List Nat × FrameCtx)),
      InStep (fun (e : Nat × CallFrame) (f : FrameCtx) => e.1 = f.depth ∧ Shows decode e.2 f) as
        (ls.map (·.2)) → (∀ e ∈ ls, e.1.length = e.2.depth ∧ (e.2.depth = 0 ↔ e.2.parent = none)) →
      InStep (fun (e : Nat × CallFrame) (tr : TransactionTrace) => SameFrame e.1 e.2 tr) as
        (ls.map (fun e => frameTrace cfg root.trace.gasUsed e.1 e.2)) := by
    intro as ls
    induction ls generalizing as with
    | nil => intro h _; cases h; exact .nil
    | cons e ls ih =>
      intro h hm
      rw [List.map_cons] at h ⊢
      cases h with
      | cons h1 h2 =>
        obtain ⟨m1, m2⟩ := hm e (by simp)
        refine .cons ?_ (ih _ h2 (fun e he => hm e (List.mem_cons_of_mem _ he)))
        rw [h1.1]
        exact agree_of decode cfg _ e m1 m2 _ h1.2
  refine key _ _ hf (fun e he => ⟨l2 e he, ?_⟩)
  have hm : e.2 ∈ frames t := by
    have : e.2 ∈ (located cfg t).map (·.2) := List.mem_map_of_mem he
    rw [l1] at this
    exact (List.mem_filter.mp this).1
  exact frames_depth_iff hm

/-- The example has five frames at depths 0, 1, 2, 1, 1; parity leaves one of them out. -/
example : ((walk 0 (callFrameTree ⟨fun _ => none, fun _ => ""⟩ Config.defaultParity false false (sdUnder Example.tx) 5
      Example.tx)).map (·.1) = [0, 1, 2, 1, 1]) ∧
    ((frames Example.tx).map (excluded Config.defaultParity) = [false, false, false, true, false]) := by
  refine ⟨?_, by decide⟩
  rfl

end Verif.Props
