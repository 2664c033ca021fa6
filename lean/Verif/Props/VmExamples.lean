import Verif.Props.Vm
import Verif.Props.StructLogs
/-!
# C29, C30: examples and refutations
-/
namespace Verif.Props
open Spec Rec Parity Par

/-! ## Examples and refutations -/

namespace VmExample
open Example

/-- Contract A: calls C, then adds. -/
def nested : Body :=
  .act (stepAct Op.CALL 0 200 .CallOrCreate)
    (.sub (callHdr .Call 0xb 0xc 0xc 0) (.act (stepAct 0x02 0 50 .Continue) .nil) (out .Return)
      (.act (stepAct Op.ADD 1 100 .Return) .nil))

/-- Contract B: only adds. -/
def flat : Body := .act (stepAct Op.ADD 0 100 .Return) .nil

/-- A root calling two contracts, 0xb and 0xd. -/
def tx2 (b1 b2 : Body) : Tx where
  hdr := callHdr .Call 0x99 0xa 0xa 0
  body :=
    .act (stepAct Op.CALL 0 900 .CallOrCreate)
      (.sub (callHdr .Call 0xa 0xb 0xb 0) b1 (out .Return)
        (.act (stepAct Op.CALL 1 500 .CallOrCreate)
          (.sub (callHdr .Call 0xa 0xd 0xd 0) b2 (out .Return)
            (.act (stepAct 0xf3 2 100 .Return) .nil))))
  out := out .Return

/-- What a reader sees first of a `vmTrace`: per operation the opcode and the opcodes below it. -/
def view (v : VmTrace) : List (OpCode × Option (List (OpCode × Bool))) :=
  v.ops.map fun i => match i with
    | .mk _ _ _ sub op => (op, sub.map fun w => w.ops.map fun j => match j with
      | .mk _ _ _ sub' op' => (op', sub'.isSome))

theorem wf12 : (tx2 nested flat).WF := by
  refine ⟨fun _ => rfl, fun h => absurd h (by decide), ?_⟩
  refine ⟨fun _ => rfl, fun h => absurd h (by decide), ?_, ?_⟩
  · exact ⟨fun _ => rfl, fun h => absurd h (by decide), trivial, trivial⟩
  · exact ⟨fun _ => rfl, fun h => absurd h (by decide), trivial, trivial⟩

theorem wf21 : (tx2 flat nested).WF := by
  refine ⟨fun _ => rfl, fun h => absurd h (by decide), ?_⟩
  refine ⟨fun _ => rfl, fun h => absurd h (by decide), trivial, ?_⟩
  refine ⟨fun _ => rfl, fun h => absurd h (by decide), ?_, trivial⟩
  exact ⟨fun _ => rfl, fun h => absurd h (by decide), trivial, trivial⟩

theorem safe12 (cfg : Config) : Safe cfg (tx2 nested flat).body :=
  ⟨stepSafe _ _ _ _ (by decide), ⟨stepSafe _ _ _ _ (by decide),
    ⟨stepSafe _ _ _ _ (by decide), trivial⟩, stepSafe _ _ _ _ (by decide), trivial⟩,
    stepSafe _ _ _ _ (by decide), ⟨stepSafe _ _ _ _ (by decide), trivial⟩,
    stepSafe _ _ _ _ (by decide), trivial⟩

theorem safe21 (cfg : Config) : Safe cfg (tx2 flat nested).body :=
  ⟨stepSafe _ _ _ _ (by decide), ⟨stepSafe _ _ _ _ (by decide), trivial⟩,
    stepSafe _ _ _ _ (by decide), ⟨stepSafe _ _ _ _ (by decide),
    ⟨stepSafe _ _ _ _ (by decide), trivial⟩, stepSafe _ _ _ _ (by decide), trivial⟩,
    stepSafe _ _ _ _ (by decide), trivial⟩

theorem attached (b1 b2 : Body) (h1 : Attached false b1) (h2 : Attached false b2) :
    Attached false (tx2 b1 b2).body := by
  refine ⟨fun h => by simp at h, ⟨rfl, h1, fun h => by simp at h, ⟨rfl, h2, fun h => by simp at h, ?_⟩⟩⟩
  simp [Attached]

theorem attached_nested : Attached false nested := by
  refine ⟨fun h => by simp at h, ⟨rfl, ?_, ?_⟩⟩
  · exact ⟨fun h => by simp at h, trivial⟩
  · exact ⟨fun h => by simp at h, trivial⟩

theorem attached_flat : Attached false flat := ⟨fun h => by simp at h, trivial⟩

/-- A database with one byte of code at 0xa, 0xb, 0xc and 0xd. -/
def db : DB Unit where
  basic := fun a => .ok (some ⟨0, 0, BitVec.ofNat 256 a.toNat, none⟩)
  codeByHash := fun h => .ok [UInt8.ofNat h.toNat]

end VmExample
open VmExample

/-- The hypotheses of C29 and C30 are met when the first called contract calls further. -/
theorem vm_example : VmFriendly Config.all (tx2 nested flat) where
  all := fun op => by simp [records, Config.all]
  shown := by decide
  attached := attached _ _ attached_nested attached_flat
  chain := by
    refine ⟨fun h => by simp at h, ⟨fun h => by simp at h, trivial, trivial⟩, fun _ => rfl, trivial, trivial⟩
  stop := Or.inl (by decide)

example : ∃ s v, TI.run Config.all TI.new (tx2 nested flat).events = .ok s ∧ vmTrace s.arena = .ok v ∧
    view v = [(Op.CALL, some [(Op.CALL, true), (Op.ADD, false)]), (Op.CALL, some [(Op.ADD, false)]),
      (0xf3, none)] := ⟨_, _, rfl, rfl, by decide⟩

/-- **C29, refuted (order).** When the second called contract calls further, the traces are swapped:
the first CALL shows the trace of the innermost frame (MUL) instead of that of the frame it entered
(ADD), which in turn appears below the inner CALL. All instructions are recorded, nothing is left out. -/
theorem C29_refuted_order : (tx2 flat nested).WF ∧ (∀ cfg, Safe cfg (tx2 flat nested).body) ∧
    Attached false (tx2 flat nested).body ∧
    ∃ s v, TI.run Config.all TI.new (tx2 flat nested).events = .ok s ∧ vmTrace s.arena = .ok v ∧
      (stepsAt s.arena 1).map (·.op) = [Op.ADD] ∧ (stepsAt s.arena 3).map (·.op) = [0x02] ∧
      view v = [(Op.CALL, some [(0x02, false)]), (Op.CALL, some [(Op.CALL, true), (Op.ADD, false)]),
        (0xf3, none)] :=
  ⟨wf21, safe21, attached _ _ attached_flat attached_nested, _, _, rfl, rfl, by decide,
    by decide, by decide⟩

/-- **C29, refuted (STOP).** In the example the created contract's only instruction is STOP; the
whole `vmTrace` of the transaction is then empty. -/
theorem C29_refuted_stop : Example.tx.WF ∧ (∀ cfg, Safe cfg Example.tx.body) ∧
    Attached false Example.tx.body ∧ FirstChain true Example.tx.body ∧
    ∃ s v, TI.run Config.all TI.new Example.tx.events = .ok s ∧ vmTrace s.arena = .ok v ∧
      view v = [] ∧ (stepsAt s.arena 0).length = 6 := by
  refine ⟨Example.wf, Example.safe, example_attached, ?_, _, _, rfl, rfl, by decide, by decide⟩
  refine ⟨fun h => by simp at h, ⟨fun h => by simp at h, trivial, trivial⟩, fun _ => rfl, trivial,
    fun _ => rfl, trivial, trivial⟩

namespace VmExample
open Example
/-- A root calling the precompile 1 and then contract 0xb. -/
def txPre : Tx where
  hdr := callHdr .Call 0x99 0xa 0xa 0
  body :=
    .act (stepAct Op.CALL 0 900 .CallOrCreate)
      (.sub (callHdr .Call 0xa 1 1 0) .nil (out .Return)
        (.act (stepAct Op.CALL 1 500 .CallOrCreate)
          (.sub (callHdr .Call 0xa 0xb 0xb 0) flat (out .Return)
            (.act (stepAct 0xf3 2 100 .Return) .nil))))
  out := out .Return

theorem wfPre : txPre.WF := by
  refine ⟨fun _ => rfl, fun h => absurd h (by decide), ?_⟩
  refine ⟨fun _ => rfl, fun _ => rfl, trivial, ?_⟩
  exact ⟨fun _ => rfl, fun h => absurd h (by decide), trivial, trivial⟩

theorem safePre (cfg : Config) : Safe cfg txPre.body :=
  ⟨stepSafe _ _ _ _ (by decide), trivial, stepSafe _ _ _ _ (by decide),
    ⟨stepSafe _ _ _ _ (by decide), trivial⟩, stepSafe _ _ _ _ (by decide), trivial⟩
end VmExample

/-- **C29, refuted (precompiles).** With the configuration made for the `vmTrace` type, which leaves
precompile calls out, the trace of the contract called second is shown below the instruction that
called the precompile, and the instruction that called the contract shows none. -/
theorem C29_refuted_precompile : txPre.WF ∧ (∀ cfg, Safe cfg txPre.body) ∧
    Attached false txPre.body ∧
    ∃ s v, TI.run (Config.fromParityConfig [.VmTrace]) TI.new txPre.events = .ok s ∧
      vmTrace s.arena = .ok v ∧
      view v = [(Op.CALL, some [(Op.ADD, false)]), (Op.CALL, none), (0xf3, none)] := by
  refine ⟨wfPre, safePre, ?_, _, _, rfl, rfl, by decide⟩
  refine ⟨fun h => by simp at h, ⟨rfl, trivial, fun h => by simp at h, ⟨rfl, attached_flat, fun h => by simp at h, ?_⟩⟩⟩
  simp [Attached]

/-- Record, build and populate, then read the code and the operations of the trace below the first
operation. -/
def firstBelow (t : Tx) : Option (Bytes × List (OpCode × Option (List (OpCode × Bool)))) :=
  match TI.run Config.all TI.new t.events with
  | .error _ => none
  | .ok s =>
    match vmTrace s.arena with
    | .error _ => none
    | .ok v =>
      match walkBF s.arena with
      | .error _ => none
      | .ok W =>
        match populateVmTraceBytecodes VmExample.db v (W.map (·.trace.address)) with
        | .error _ => none
        | .ok r => (r.at [0]).map (fun w => (w.code, view w))

/-- **C30, refuted (right frames).** The transaction calls 0xb, which adds, and 0xd, which calls 0xc,
which multiplies: after populating, the trace with 0xc's instruction has the code of 0xb. -/
theorem C30_refuted : (tx2 flat nested).WF ∧ (∀ cfg, Safe cfg (tx2 flat nested).body) ∧
    ((frames (tx2 flat nested)).map (fun f => ((frameData f).address, firstOp f.body))) =
      [(0xa, some Op.CALL), (0xb, some Op.ADD), (0xd, some Op.CALL), (0xc, some 0x02)] ∧
    VmExample.db.codeByHash 0xc = .ok [0xc] ∧
    (firstBelow (tx2 flat nested)).map (·.1) = some [0xb] ∧
    (firstBelow (tx2 flat nested)).map (·.2) = some [(0x02, none)] :=
  ⟨wf21, safe21, by decide, rfl, by decide +kernel, by decide +kernel⟩

/-- With the order the other way round everything is right. -/
example : (firstBelow (tx2 nested flat)).map (·.1) = some [0xb] ∧
    (firstBelow (tx2 nested flat)).map (·.2) =
      some [(Op.CALL, some [(0x02, false)]), (Op.ADD, none)] := ⟨by decide +kernel, by decide +kernel⟩

end Verif.Props
