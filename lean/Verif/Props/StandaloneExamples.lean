import Verif.Props.Standalone
/-! Concrete histories for C35-C39, and the cases in which C35 and C38 fail. -/
namespace Verif.Props.StandaloneExample
open Spec

/-- An interpreter at `op`, with this stack (bottom first) and this much gas left. -/
def at' (op : OpCode) (stack : List U256) (gas : Nat) : Interp :=
  { (default : Interp) with op := op, stack := stack, gas := ⟨2 ^ 64 - 1, gas, 0⟩, contract := 0xc0 }

/-- An instruction that leaves `gas'`. -/
def instr (op : OpCode) (stack : List U256) (gas gas' : Nat) : Act :=
  .step (at' op stack gas) default (at' op [] gas') default

def hdr (value : U256) (input : Bytes) : Header :=
  .call default { (default : CallInputs) with
    input := input, caller := 1, targetAddress := 0xc0, bytecodeAddress := 0xc0
    value := .transfer value }

def out : Outcome := ⟨default, default, none⟩

/-- A transaction with a read, a call to another contract that is also made with a selector, a
create and a selfdestruct. -/
def tx : Tx where
  hdr := hdr 5 [1, 2, 3, 4, 5]
  body :=
    .act (instr 0x54 [7] 1000 900) <|
    .act (instr 0xf1 [0, 0xdd, 9] 900 200) <|
    .sub (hdr 3 [1, 2, 3, 4, 6])
      (.act (instr 0x55 [4, 8] 600 100) (.act (.selfdestruct 0xdd 0xee 2) .nil)) out <|
    .act (instr 0xf0 [] 500 300) <|
    .sub (.create default { (default : CreateInputs) with caller := 0xc0, value := 1 })
      .nil { out with address := some 0xab } <|
    .act (instr 0x54 [7] 300 200) .nil
  out := out

theorem tx_noAborts : NoAborts tx.body := by simp [tx, NoAborts, instr]

/-- The totals of the example: SLOAD twice, 200 gas. -/
theorem tx_totals : countOf 0x54 (executed tx.body) = 2 ∧ gasOf 0x54 (executed tx.body) = 200 ∧
    countOf 0xf1 (executed tx.body) = 1 ∧ gasOf 0xf1 (executed tx.body) = 700 := by decide

theorem tx_counts : starts tx.events = 5 ∧ callsWith [1, 2, 3, 4] 1 tx.events = 2 ∧
    callsWith [1, 2, 3, 4] 0 tx.events = 0 := ⟨rfl, rfl, rfl⟩

theorem tx_transfers : txTransfers tx =
    [⟨.call, 1, 0xc0, 5⟩, ⟨.call, 1, 0xc0, 3⟩, ⟨.selfDestruct, 0xdd, 0xee, 2⟩,
     ⟨.create, 0xc0, 0xab, 1⟩] := by decide

/-- The provided list of the example names two addresses. -/
def provided : List (Address × List U256) := [(0xdd, [3, 1]), (0xc0, [])]

theorem provided_ok : (provided.map Prod.fst).Nodup := by decide

theorem tx_accessList : ∃ s, runHooks AccessList.hook (AccessList.new provided 1 0xc0 []) tx.events
    = .ok s ∧ s.result = [(0xdd, [1, 3]), (0xc0, [7, 8])] := ⟨_, rfl, rfl⟩

/-- Two nested calls that pass on almost all of the largest gas limit. -/
def rich : Tx where
  hdr := hdr 0 []
  body :=
    .act (instr 0xf1 [] (2 ^ 64 - 1) (2 ^ 58)) <|
    .sub (hdr 0 []) (.act (instr 0xf1 [] (2 ^ 64 - 2 ^ 59) (2 ^ 57)) .nil) out .nil
  out := out

end Verif.Props.StandaloneExample

namespace Verif.Props
open Spec StandaloneExample

/-- C35 fails: an execution whose instructions each run to their end, and in which the gas consumed
by one opcode, summed over nested calls, does not fit in 64 bits. -/
theorem C35_refuted : ∃ t : Tx, NoAborts t.body ∧
    runHooks (OpcodeGas.hook (fun _ => true)) {} t.events = .error .arith :=
  ⟨rich, by simp [rich, NoAborts, instr], rfl⟩

/-- C38 fails: a slot of the provided list is lost when its address is named again. -/
theorem C38_refuted : ∃ (provided : List (Address × List U256)) (a : Address) (ks : List U256)
    (k : U256) (s : AccessList), (a, ks) ∈ provided ∧ k ∈ ks ∧
    runHooks AccessList.hook (AccessList.new provided 1 2 []) [] = .ok s ∧
    ∀ ks', (a, ks') ∈ s.result → k ∉ ks' := by
  refine ⟨[(5, [1]), (5, [2])], 5, [1], 1, _, by simp, by simp, rfl, ?_⟩
  intro ks' hm
  have : AccessList.result (AccessList.new [(5, [1]), (5, [2])] 1 2 []) = [(5, [2])] := by decide
  rw [this] at hm
  simp only [List.mem_singleton, Prod.mk.injEq, true_and] at hm
  subst hm
  decide

end Verif.Props
