import Verif.Lemmas.InternalGas
import Verif.Props.Writer
import Verif.Props.Steps
/-!
# C126 (the gas shown for internal calls)
-/
namespace Verif.Props
open Spec Rec Writer

/-- **C126, exactly.** In the text for a recorded transaction with any decoded information, the gas in brackets
before an internal call from the `k`-th to the `e`-th recorded instruction of a frame is the difference of what the
frame has spent before the two, each less what refunds could give back at that moment (and zero if this is
negative). It is the gas spent between the two exactly if refunds could give back equally much at both, or no gas
was spent and they could not give back less at the second. -/
theorem C126_exact (cfg : Config) (t : Tx) (hwf : t.WF) (hsafe : Safe cfg t.body) :
    ∃ s, TI.run cfg TI.new t.events = .ok s ∧ ∀ nodes, Decorates nodes s.arena →
      ∀ (j : Nat) (f : FrameCtx) (x : Node) (k e : Nat) (a b : Instr) (st : CallTraceStep),
        (frames t)[j]? = some f → nodes[j]? = some x → (instrs cfg f.body)[k]? = some a → (instrs cfg f.body)[e]? = some b →
        x.trace.steps[k]? = some st →
        gasBetween x st e = (spentBefore b - givableBefore b) - (spentBefore a - givableBefore a) ∧
        (spentBefore a ≤ spentBefore b → (gasBetween x st e = spentBefore b - spentBefore a ↔
          givableBefore a = givableBefore b ∨
            spentBefore a = spentBefore b ∧ givableBefore a ≤ givableBefore b)) := by
  obtain ⟨s, hr, hl, h⟩ := steps_of_run cfg t hwf hsafe
  refine ⟨s, hr, ?_⟩
  intro nodes hd j f x k e a b st hf hx ha hb hst
  obtain ⟨y, hy, hs⟩ := Decorates.get hd hx
  have hsteps := h j f y hf hy
  have hm := List.mem_of_getElem? hf
  have key : ∀ (k : Nat) (a : Instr) (st : CallTraceStep), (instrs cfg f.body)[k]? = some a →
      x.trace.steps[k]? = some st → st.gasUsed = spentBefore a - givableBefore a := by
    intro k a st ha hk
    have h1 : y.trace.steps.map (fun s => ({ s with decoded := none } : CallTraceStep)) =
        x.trace.steps.map (fun s => ({ s with decoded := none } : CallTraceStep)) :=
      (congrArg (fun n => n.trace.steps) hs).symm
    have h2 := congrArg (fun l => l[k]?.map CallTraceStep.gasUsed) h1
    simp only [List.getElem?_map, hk, Option.map_some, hsteps] at h2
    rw [stepsFor_get, ha] at h2
    simp only [Option.map_some, Option.some.injEq] at h2
    obtain ⟨h3, h4⟩ := instrs_safe cfg f.body (frames_all hsafe hm) a (List.mem_of_getElem? ha)
    rw [← h2]
    exact stepFor_gasUsed _ h3 h4
  have hlen : x.trace.steps.length = (instrs cfg f.body).length := by
    rw [← stepsFor_length cfg (f.depth + 1) (instrs cfg f.body) none, ← hsteps]
    exact (strip_eq hs).2.2.1
  obtain ⟨se, hse⟩ : ∃ se, x.trace.steps[e]? = some se :=
    ⟨_, List.getElem?_eq_getElem (by rw [hlen]; exact (List.getElem?_eq_some_iff.1 hb).1)⟩
  have hg : gasBetween x st e = (spentBefore b - givableBefore b) - (spentBefore a - givableBefore a) := by
    unfold gasBetween
    rw [hse]
    simp only
    rw [key e b se hb hse, key k a st ha hst]
  refine ⟨hg, fun hle => ?_⟩
  rw [hg]
  have h1 : ∀ a : Instr, givableBefore a ≤ spentBefore a := by
    intro a
    unfold givableBefore
    have : spentBefore a / (if a.ctx.specId < 12 then 2 else 5) ≤ spentBefore a := Nat.div_le_self _ _
    omega
  have ha1 := h1 a
  have hb1 := h1 b
  omega

/-- **C126** (partial: missing are frames with refunds, see `C126_refuted`). If the refund counter of the frame is zero
before both instructions, the gas shown for an internal call is what the frame spent between them. -/
theorem C126_without_refunds_partial (cfg : Config) (t : Tx) (hwf : t.WF) (hsafe : Safe cfg t.body) :
    ∃ s, TI.run cfg TI.new t.events = .ok s ∧ ∀ nodes, Decorates nodes s.arena →
      ∀ (j : Nat) (f : FrameCtx) (x : Node) (k e : Nat) (a b : Instr) (st : CallTraceStep),
        (frames t)[j]? = some f → nodes[j]? = some x → (instrs cfg f.body)[k]? = some a → (instrs cfg f.body)[e]? = some b →
        x.trace.steps[k]? = some st → a.before.gas.refunded = 0 → b.before.gas.refunded = 0 →
        gasBetween x st e = spentBefore b - spentBefore a := by
  obtain ⟨s, hr, h⟩ := C126_exact cfg t hwf hsafe
  refine ⟨s, hr, ?_⟩
  intro nodes hd j f x k e a b st hf hx ha hb hst h1 h2
  obtain ⟨h3, _⟩ := h nodes hd j f x k e a b st hf hx ha hb hst
  have ga : givableBefore a = 0 := by simp [givableBefore, h1]
  have gb : givableBefore b = 0 := by simp [givableBefore, h2]
  rw [h3, ga, gb, Nat.sub_zero, Nat.sub_zero]

/-! ### Examples -/

/-- An instruction of a frame with 10000 gas, before and after: gas spent and refund counter. -/
def refundsStep (op : OpCode) (pc spent : Nat) (r : Int) (spent' : Nat) (r' : Int) (res : InstructionResult := .Continue) :
    Act :=
  .step { Example.interp op pc 0 .Continue with gas := ⟨10000, 10000 - spent, r⟩ } Example.ctx
    { Example.interp op (pc + 1) 0 res with gas := ⟨10000, 10000 - spent', r'⟩ } Example.ctx

/-- An internal function that clears a slot for a refund (from 1000 to 6000 gas), one that takes it back (to 8000),
and one in which nothing is refunded or taken back. -/
def refundsTx : Tx where
  hdr := Example.callHdr .Call 0x99 0xa 0xa 0
  body := .act (refundsStep Op.ADD 0 900 0 1000 0) (.act (refundsStep Op.ADD 1 1000 0 1500 0)
    (.act (refundsStep Op.SSTORE 2 1500 0 6000 4800)
    (.act (refundsStep Op.ADD 3 6000 4800 6500 4800)
    (.act (refundsStep Op.SSTORE 4 6500 4800 8000 (-100)) (.act (refundsStep Op.STOP 5 8000 (-100) 8000 (-100) .Stop) .nil)))))
  out := Example.out .Stop

def refundsSteps : Nat → Option DecodedTraceStep
  | 0 => some (.internalCall ⟨"plain", none, none⟩ 1)
  | 2 => some (.internalCall ⟨"clear", none, none⟩ 3)
  | 4 => some (.internalCall ⟨"undo", none, none⟩ 5)
  | _ => none

def refundsArena : List Node :=
  match TI.run writerConfig TI.new refundsTx.events with
  | .ok s => s.arena
  | .error _ => []

theorem refundsTx_wf : refundsTx.WF := ⟨fun _ => rfl, fun h => absurd h (by decide), trivial⟩

theorem refundsTx_safe : Safe writerConfig refundsTx.body :=
  ⟨Example.stepSafe _ _ _ _ (by decide), Example.stepSafe _ _ _ _ (by decide), Example.stepSafe _ _ _ _ (by decide),
    Example.stepSafe _ _ _ _ (by decide), Example.stepSafe _ _ _ _ (by decide), Example.stepSafe _ _ _ _ (by decide),
    trivial⟩

set_option maxRecDepth 20000 in
/-- **C126, refuted.** The first internal call spends 100 gas, and 100 is shown. The second spends 4500, but 3300 is
shown, as it brings refunds; the third spends 1500, but 1200 is shown: it takes the refunds back, the counter of
the frame becomes negative, and is read as a number near 2^64. -/
theorem C126_refuted : refundsTx.WF ∧ Safe writerConfig refundsTx.body ∧
    Decorates (decorate refundsSteps refundsArena) refundsArena ∧
    (instrs writerConfig refundsTx.body).map spentBefore = [900, 1000, 1500, 6000, 6500, 8000] ∧
    glyphText (writeArena plainWriter goodSink (decorate refundsSteps refundsArena) {}).2.out =
"  [550] Root::01020304(05)
    ├─ [100] plain
    │   └─ ← 
    ├─ [3300] clear
    │   └─ ← 
    ├─ [1200] undo
    │   └─ ← 
    └─ ← [Stop] 0x0708
" := by
  refine ⟨refundsTx_wf, refundsTx_safe, decorate_decorates _ _, by decide, ?_⟩
  decide +kernel

/-- The hypotheses of `C126_without_refunds_partial` hold of the first internal call of `refundsTx`. -/
example : ∃ a b, refundsTx.WF ∧ Safe writerConfig refundsTx.body ∧
    (instrs writerConfig refundsTx.body)[0]? = some a ∧ (instrs writerConfig refundsTx.body)[1]? = some b ∧
    a.before.gas.refunded = 0 ∧ b.before.gas.refunded = 0 ∧ spentBefore b - spentBefore a = 100 ∧
    Decorates (decorate refundsSteps refundsArena) refundsArena :=
  ⟨_, _, refundsTx_wf, refundsTx_safe, rfl, rfl, by decide, by decide, by decide, decorate_decorates _ _⟩

end Verif.Props
