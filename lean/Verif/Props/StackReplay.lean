import Verif.Spec.StackReplay
import Verif.Props.VmEntries

/-!
C102: the stack before each instruction can be recomputed from the opcodes and the pushed items shown by a
`vmTrace`.
-/

namespace Verif.Props
open Spec Rec Parity Par

/-- Items an instruction puts on the stack by the EVM specification, with the result of an instruction
that enters a frame, which is put there when the frame has returned. -/
def evmPlaces (op : OpCode) : Nat := if entersFrame op then 1 else evmPushes op.toNat

/-- What the EVM does to the stack between one instruction of a frame and the next (legacy bytecode): the
operands are replaced by the results. The results are there after the instruction, unless it enters a
frame. -/
def StackStep (a b : Instr) : Prop :=
  ∃ kept operands results, a.before.stack = kept ++ operands ∧ operands.length = evmPops a.before.op.toNat ∧
    b.before.stack = kept ++ results ∧ results.length = evmPlaces a.before.op ∧
    ∃ i' c', a.after = some (i', c') ∧ (entersFrame a.before.op = false → i'.stack = kept ++ results)

/-- It does so throughout a list of instructions. -/
def StackChain : List Instr → Prop
  | a :: b :: l => StackStep a b ∧ StackChain (b :: l)
  | _ => True

/-- The EVM's stack in the instructions of a frame: empty at first. -/
def StackLaw (l : List Instr) : Prop :=
  (∀ a, l.head? = some a → a.before.stack = []) ∧ StackChain l

/-- The opcodes whose results are not shown: TLOAD, BLOBHASH, BLOBBASEFEE (C55) and those that enter a
frame. -/
def unseen (op : OpCode) : Bool :=
  [0x5c, 0x49, 0x4a].contains op || entersFrame op

/-- Opcode and pushed items shown of an instruction. -/
def shown (a : Instr) : OpCode × List U256 :=
  (a.before.op, match a.after with
    | some (i', _) => topItems (Op.stackPushCount a.before.op) i'.stack
    | none => [])

theorem pushCount_unseen : ∀ op : OpCode, unseen op = true →
    Op.stackPushCount op = 0 ∧ evmPlaces op = 1 := by
  have h : ∀ n : Fin 256, let op := UInt8.ofNat n.val
      unseen op = true → Op.stackPushCount op = 0 ∧ evmPlaces op = 1 := by decide +kernel
  intro op
  simpa using h ⟨op.toNat, op.toNat_lt⟩

theorem pushCount_seen {op : OpCode} (h : unseen op = false) :
    Op.stackPushCount op = evmPlaces op ∧ entersFrame op = false := by
  simp only [unseen, Bool.or_eq_false_iff] at h
  refine ⟨?_, h.2⟩
  rw [evmPlaces, h.2]
  refine (C55_exact op).1.2 fun hm => ?_
  have := h.1
  rw [List.contains_iff_mem.2 hm] at this
  exact absurd this (by decide)

theorem topItems_length (k : Nat) (st : List U256) : (topItems k st).length ≤ k := by
  simp [topItems]; omega

theorem topItems_append (a b : List U256) : topItems b.length (a ++ b) = b := by
  simp [topItems]

/-- While nothing is unseen the stack is recomputed. -/
theorem replay_seen : ∀ (l : List Instr) (a : Instr) (k : Nat) (b : Instr), StackChain (a :: l) →
    (a :: l)[k]? = some b → (∀ x ∈ (a :: l).take k, unseen x.before.op = false) →
    replay a.before.stack (((a :: l).take k).map shown) = some b.before.stack := by
  intro l
  induction l with
  | nil =>
    intro a k b _ hb _
    cases k with
    | zero => simp at hb; subst hb; rfl
    | succ k => simp at hb
  | cons c l ih =>
    intro a k b hc hb hs
    cases k with
    | zero => simp at hb; subst hb; rfl
    | succ k =>
      obtain ⟨⟨kept, ops, res, h1, h2, h3, h4, i', c', ha, h5⟩, hrest⟩ := hc
      rw [List.take_succ_cons] at hs ⊢
      obtain ⟨hcount, hent⟩ := pushCount_seen (hs a (by simp))
      rw [List.map_cons, shown, ha, replay]
      dsimp only
      rw [if_pos (by rw [h1, List.length_append]; omega), hcount, ← h4, h5 hent, topItems_append, h1,
        ← h2, List.length_append, Nat.add_sub_cancel, List.take_left, ← h3]
      exact ih c k b hrest (by simpa using hb) fun x hx => hs x (by simp [hx])

/-- Once something was unseen items are missing. -/
theorem replay_short : ∀ (l : List Instr) (a : Instr) (k : Nat) (b : Instr) (st r : List U256),
    StackChain (a :: l) → (a :: l)[k]? = some b → st.length ≤ a.before.stack.length →
    (st.length < a.before.stack.length ∨ ∃ x ∈ (a :: l).take k, unseen x.before.op = true) →
    replay st (((a :: l).take k).map shown) = some r → r.length < b.before.stack.length := by
  intro l
  induction l with
  | nil =>
    intro a k b st r _ hb hle hor hr
    cases k with
    | zero =>
      simp at hb; subst hb
      simp [replay] at hr hor
      subst hr; exact hor
    | succ k => simp at hb
  | cons c l ih =>
    intro a k b st r hc hb hle hor hr
    cases k with
    | zero =>
      simp at hb; subst hb
      simp [replay] at hr hor
      subst hr; exact hor
    | succ k =>
      obtain ⟨⟨kept, ops, res, h1, h2, h3, h4, i', c', ha, h5⟩, hrest⟩ := hc
      rw [List.take_succ_cons] at hor hr
      rw [List.map_cons, shown, ha, replay] at hr
      dsimp only at hr
      split at hr
      case isFalse => cases hr
      case isTrue hp =>
        have e1 := congrArg List.length h1
        have e3 := congrArg List.length h3
        rw [List.length_append] at e1 e3
        have ht := topItems_length (Op.stackPushCount a.before.op) i'.stack
        cases hu : unseen a.before.op with
        | true =>
          obtain ⟨z, one⟩ := pushCount_unseen _ hu
          refine ih c k b _ r hrest (by simpa using hb) ?_ (Or.inl ?_) hr <;>
            rw [List.length_append, List.length_take] <;> omega
        | false =>
          obtain ⟨hcount, _⟩ := pushCount_seen hu
          refine ih c k b _ r hrest (by simpa using hb) ?_ ?_ hr
          · rw [List.length_append, List.length_take]; omega
          · rcases hor with h | ⟨x, hx, hxu⟩
            · left; rw [List.length_append, List.length_take]; omega
            · rcases List.mem_cons.1 hx with rfl | hx
              · rw [hu] at hxu; cases hxu
              · exact Or.inr ⟨x, hx, hxu⟩

/-- The entries of a frame show the opcodes and the pushed items. -/
theorem listing_shown (cfg : Config) (f : FrameCtx) (l : List VmInstruction)
    (h : l.map noSub = listing cfg f) : l.map opAndPush = (instrs cfg f.body).map shown := by
  have h1 : l.map opAndPush = (l.map noSub).map opAndPush := by
    rw [List.map_map]
    exact List.map_congr_left fun x _ => by cases x; rfl
  rw [h1, h, listing]
  have hl := shared_length (instrs cfg f.body) none
  generalize sharedMemory (instrs cfg f.body) none = ms at hl
  revert ms
  induction instrs cfg f.body with
  | nil => intro ms _; cases ms <;> rfl
  | cons a l ih =>
    intro ms hl
    cases ms with
    | nil => simp at hl
    | cons m ms =>
      rw [List.zipWith_cons_cons, List.map_cons, List.map_cons, ih ms (by simpa using hl)]
      congr 1
      rw [vmEntry, shown]
      cases a.after with
      | none => rfl
      | some r => rfl

/-- **C102, exactly.** With the configuration made for the `vmTrace` type and outside the STOP case of
C29: each trace in the result belongs to one of the shown frames, the outermost to the root. If the stack
of that frame behaves as the EVM says, starting with the empty stack and replacing for each entry the
operands of its opcode by its pushed items yields the stack before an instruction exactly if none of the
instructions before it was a TLOAD, BLOBHASH or BLOBBASEFEE or entered a frame. -/
theorem C102_exact (types : List TraceType) (hv : TraceType.VmTrace ∈ types) (t : Tx) (hwf : t.WF)
    (hsafe : Safe (Config.fromParityConfig types) t.body) :
    ∃ s v, TI.run (Config.fromParityConfig types) TI.new t.events = .ok s ∧ vmTrace s.arena = .ok v ∧
      (¬ StopCase (Config.fromParityConfig types) t (stepsAt s.arena) →
        ∀ (p : List Nat) (w : VmTrace), v.at p = some w →
          ∃ e ∈ located (Config.fromParityConfig types) t, (p = [] → e.2 = rootOf t) ∧
            (StackLaw (instrs (Config.fromParityConfig types) e.2.body) → ∀ (k : Nat) (a : Instr),
              (instrs (Config.fromParityConfig types) e.2.body)[k]? = some a →
              (replay [] ((w.ops.take k).map opAndPush) = some a.before.stack ↔
                ∀ b ∈ (instrs (Config.fromParityConfig types) e.2.body).take k,
                  unseen b.before.op = false))) := by
  obtain ⟨s, v, hr, hvm, h⟩ := C80_exact types hv t hwf hsafe
  refine ⟨s, v, hr, hvm, fun hn p w hw => ?_⟩
  obtain ⟨h1, h2⟩ := h hn
  have main : ∀ f : FrameCtx, w.ops.map noSub = listing (Config.fromParityConfig types) f →
      StackLaw (instrs (Config.fromParityConfig types) f.body) → ∀ (k : Nat) (a : Instr),
        (instrs (Config.fromParityConfig types) f.body)[k]? = some a →
        (replay [] ((w.ops.take k).map opAndPush) = some a.before.stack ↔
          ∀ b ∈ (instrs (Config.fromParityConfig types) f.body).take k, unseen b.before.op = false) := by
    intro f hf hlaw k a ha
    rw [List.map_take, listing_shown _ f _ hf, ← List.map_take]
    obtain ⟨hfirst, hchain⟩ := hlaw
    generalize instrs (Config.fromParityConfig types) f.body = l at ha hfirst hchain
    cases l with
    | nil => simp at ha
    | cons x l =>
      have hx := hfirst x rfl
      constructor
      · intro hrep b hb
        cases hu : unseen b.before.op with
        | false => rfl
        | true =>
          have := replay_short l x k a [] _ hchain ha (by simp) (Or.inr ⟨b, hb, hu⟩) hrep
          omega
      · intro hs
        rw [← hx]
        exact replay_seen l x k a hchain ha hs
  cases p with
  | nil =>
    simp only [VmTrace.at, Option.some.injEq] at hw
    subst hw
    exact ⟨([], rootOf t), by simp [located], fun _ => rfl, main _ h1⟩
  | cons i p =>
    obtain ⟨e, he, hw'⟩ := h2 _ w hw
    exact ⟨e, he, fun h => (by simp at h), main _ hw'⟩

/-- **C102** (partial: not in frames that call, create or use TLOAD, BLOBHASH or BLOBBASEFEE, see
`C102_exact` and the refutation). In a trace of a frame without such instructions whose stack behaves as
the EVM says, the stack before every instruction is recomputed from the entries before it. -/
theorem C102_replay_partial (types : List TraceType) (hv : TraceType.VmTrace ∈ types) (t : Tx) (hwf : t.WF)
    (hsafe : Safe (Config.fromParityConfig types) t.body) :
    ∃ s v, TI.run (Config.fromParityConfig types) TI.new t.events = .ok s ∧ vmTrace s.arena = .ok v ∧
      (¬ StopCase (Config.fromParityConfig types) t (stepsAt s.arena) →
        ∀ (p : List Nat) (w : VmTrace), v.at p = some w →
          ∃ e ∈ located (Config.fromParityConfig types) t, (p = [] → e.2 = rootOf t) ∧
            (StackLaw (instrs (Config.fromParityConfig types) e.2.body) →
              (∀ a ∈ instrs (Config.fromParityConfig types) e.2.body, unseen a.before.op = false) →
              ∀ (k : Nat) (a : Instr), (instrs (Config.fromParityConfig types) e.2.body)[k]? = some a →
                replay [] ((w.ops.take k).map opAndPush) = some a.before.stack)) := by
  obtain ⟨s, v, hr, hvm, h⟩ := C102_exact types hv t hwf hsafe
  refine ⟨s, v, hr, hvm, fun hn p w hw => ?_⟩
  obtain ⟨e, he, hp, hk⟩ := h hn p w hw
  exact ⟨e, he, hp, fun hlaw hs k a ha => (hk hlaw k a ha).2 fun b hb => hs b (List.mem_of_mem_take hb)⟩

namespace ReplayExample
open Example VmExample

/-- An instruction that turns one stack into another. -/
def on (op : OpCode) (pc gas : Nat) (a b : List U256) : Act :=
  .step (at_ op pc gas a []) ctx (at_ op (pc + 1) (gas - 3) b []) ctx

/-- A contract that adds two numbers and swaps the sum with another. -/
def adds : Body :=
  .act (on 0x60 0 500 [] [7]) <| .act (on 0x60 2 497 [7] [7, 3]) <| .act (on 0x60 4 494 [7, 3] [7, 3, 4]) <|
  .act (on 0x01 6 491 [7, 3, 4] [7, 7]) <| .act (on 0x90 7 488 [7, 7] [7, 7]) <|
  .act (on 0x56 8 485 [7, 7] [7]) .nil

/-- It is called by STATICCALL, and the result of the call is negated. -/
def txStatic : Tx where
  hdr := callHdr .Call 0x99 0xa 0xa 0
  body :=
    .act (on 0x60 0 900 [] [1]) <| .act (on 0x60 2 897 [1] [1, 2]) <|
    .act (on 0x60 4 894 [1, 2] [1, 2, 3]) <| .act (on 0x60 6 891 [1, 2, 3] [1, 2, 3, 4]) <|
    .act (on 0x60 8 888 [1, 2, 3, 4] [1, 2, 3, 4, 0xb]) <|
    .act (on 0x5a 10 885 [1, 2, 3, 4, 0xb] [1, 2, 3, 4, 0xb, 885]) <|
    .act (on 0xfa 11 882 [1, 2, 3, 4, 0xb, 885] []) <|
    .sub (callHdr .StaticCall 0xa 0xb 0xb 0) adds (out .Return) <|
    .act (on 0x15 12 200 [1] [0]) <| .act (on 0x50 13 197 [0] []) .nil
  out := out .Return

theorem wfStatic : txStatic.WF := by
  refine ⟨fun _ => rfl, fun h => absurd h (by decide), ?_⟩
  simp only [txStatic, adds, on, Body.WF]
  exact ⟨fun _ => rfl, fun h => absurd h (by decide), trivial, trivial⟩

theorem safeStatic (cfg : Config) : Safe cfg txStatic.body := by
  simp only [txStatic, adds, on, Safe]
  refine ⟨?_, ?_, ?_, ?_, ?_, ?_, ?_, ⟨?_, ?_, ?_, ?_, ?_, ?_, trivial⟩, ?_, ?_, trivial⟩ <;>
    exact stepSafe _ _ _ _ (by decide)

/-- Instructions whose stacks are given. -/
theorem chain_static (cfg : Config) (hall : ∀ op, records cfg op = true) :
    StackLaw (instrs cfg txStatic.body) ∧ StackLaw (instrs cfg adds) := by
  have st : ∀ (op : OpCode) (pc gas : Nat) (kept ops res aft : List U256) (b : Instr),
      ops.length = evmPops op.toNat → b.before.stack = kept ++ res → res.length = evmPlaces op →
      (entersFrame op = false → aft = kept ++ res) →
      StackStep ⟨at_ op pc gas (kept ++ ops) [], ctx, some (at_ op (pc + 1) (gas - 3) aft [], ctx)⟩ b :=
    fun op pc gas kept ops res aft b h1 h2 h3 h4 => ⟨kept, ops, res, rfl, h1, h2, h3, _, _, rfl, h4⟩
  simp only [txStatic, adds, on, instrs, hall, if_true, List.singleton_append, List.append_nil]
  constructor
  · refine ⟨fun a ha => by cases ha; rfl, ?_, ?_, ?_, ?_, ?_, ?_, ?_, ?_, trivial⟩
    · exact st 0x60 0 900 [] [] [1] _ _ rfl rfl rfl fun _ => rfl
    · exact st 0x60 2 897 [1] [] [2] _ _ rfl rfl rfl fun _ => rfl
    · exact st 0x60 4 894 [1, 2] [] [3] _ _ rfl rfl rfl fun _ => rfl
    · exact st 0x60 6 891 [1, 2, 3] [] [4] _ _ rfl rfl rfl fun _ => rfl
    · exact st 0x60 8 888 [1, 2, 3, 4] [] [0xb] _ _ rfl rfl rfl fun _ => rfl
    · exact st 0x5a 10 885 [1, 2, 3, 4, 0xb] [] [885] _ _ rfl rfl rfl fun _ => rfl
    · exact st 0xfa 11 882 [] [1, 2, 3, 4, 0xb, 885] [1] _ _ rfl rfl rfl fun h => absurd h (by decide)
    · exact st 0x15 12 200 [] [1] [0] _ _ rfl rfl rfl fun _ => rfl
  · refine ⟨fun a ha => by cases ha; rfl, ?_, ?_, ?_, ?_, ?_, trivial⟩
    · exact st 0x60 0 500 [] [] [7] _ _ rfl rfl rfl fun _ => rfl
    · exact st 0x60 2 497 [7] [] [3] _ _ rfl rfl rfl fun _ => rfl
    · exact st 0x60 4 494 [7, 3] [] [4] _ _ rfl rfl rfl fun _ => rfl
    · exact st 0x01 6 491 [7] [3, 4] [7] _ _ rfl rfl rfl fun _ => rfl
    · exact st 0x90 7 488 [] [7, 7] [7, 7] _ _ rfl rfl rfl fun _ => rfl

end ReplayExample
open ReplayExample

/-- **C102, refuted.** STATICCALL with its six operands, which succeeds, then ISZERO and POP: before the
ISZERO the stack holds the 1 the call put there, and before the POP the 0; but the entry of the call shows
nothing pushed, so the recomputed stack is empty before the ISZERO, which has then no operand. The stacks
of both frames behave as the EVM says. -/
theorem C102_refuted : txStatic.WF ∧ (∀ cfg, Safe cfg txStatic.body) ∧
    StackLaw (instrs (Config.fromParityConfig [.VmTrace]) txStatic.body) ∧
    StackLaw (instrs (Config.fromParityConfig [.VmTrace]) adds) ∧
    ∃ s v, TI.run (Config.fromParityConfig [.VmTrace]) TI.new txStatic.events = .ok s ∧
      vmTrace s.arena = .ok v ∧ v.ops.length = 9 ∧
      (instrs (Config.fromParityConfig [.VmTrace]) txStatic.body)[7]?.map (·.before.stack) = some [1] ∧
      (instrs (Config.fromParityConfig [.VmTrace]) txStatic.body)[8]?.map (·.before.stack) = some [0] ∧
      v.ops[6]?.map opAndPush = some (0xfa, []) ∧
      replay [] ((v.ops.take 7).map opAndPush) = some [] ∧
      replay [] ((v.ops.take 8).map opAndPush) = none :=
  ⟨wfStatic, safeStatic, (chain_static _ fun _ => rfl).1, (chain_static _ fun _ => rfl).2, _, _, rfl, rfl,
    by decide, by decide, by decide, by decide, by decide, by decide⟩

/-- The trace of the called contract replays: with the number 7 and the sum 7 on the stack before the
jump. The transaction is not in the STOP case. -/
example : ∃ s v w, TI.run (Config.fromParityConfig [.VmTrace]) TI.new txStatic.events = .ok s ∧
    vmTrace s.arena = .ok v ∧ v.at [6] = some w ∧
    replay [] ((w.ops.take 5).map opAndPush) = some [7, 7] ∧
    ¬ StopCase (Config.fromParityConfig [.VmTrace]) txStatic (stepsAt s.arena) := by
  obtain ⟨s, hr, _, ha, _⟩ := run_frames (Config.fromParityConfig [.VmTrace]) txStatic wfStatic
    (safeStatic _)
  have hn : ¬ StopCase (Config.fromParityConfig [.VmTrace]) txStatic (stepsAt s.arena) := by
    rw [ha]
    rintro ⟨_, e, he, st, h1, h2⟩
    have : ∀ e ∈ located (Config.fromParityConfig [.VmTrace]) txStatic,
        ((stepsAt ((frames txStatic).map (nodeOf (Config.fromParityConfig [.VmTrace])))
          e.2.index).head?.map (·.op)) ≠ some 0 := by decide +kernel
    exact this e he (by rw [h1, Option.map_some, h2])
  obtain ⟨s', v, w, h1, h2, h3, h4⟩ : ∃ s v w,
      TI.run (Config.fromParityConfig [.VmTrace]) TI.new txStatic.events = .ok s ∧
      vmTrace s.arena = .ok v ∧ v.at [6] = some w ∧
      replay [] ((w.ops.take 5).map opAndPush) = some [7, 7] :=
    ⟨_, _, _, rfl, rfl, rfl, by decide⟩
  obtain rfl : s = s' := by rw [hr] at h1; simpa using h1
  exact ⟨s, v, w, hr, h2, h3, h4, hn⟩

end Verif.Props
