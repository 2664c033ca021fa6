import Verif.Spec.Exec
/-!
A concrete execution used to show that the hypotheses of the theorems can be met: a root call that
executes an instruction, calls a contract (which logs, delegate-calls a library that logs, and
selfdestructs), calls a precompile without value, creates a contract, stores, and stops.
-/
namespace Verif.Example

def ctx : Ctx where
  depth := 0
  specId := 17
  txGasLimit := 100000
  precompiles := [1, 2]
  journal := [[.storageChanged 0xa 5 7]]
  storage := fun a k => if a = 0xa ∧ k = 5 then some 9 else none
  nonce := fun _ => 3

def interp (op : OpCode) (pc : Nat) (remaining : Nat) (res : InstructionResult) : Interp where
  op := op
  pc := pc
  stack := (List.range 20).map (fun n => BitVec.ofNat 256 n)
  memory := [1, 2, 3]
  returnData := [4]
  gas := { limit := 1000, remaining := remaining, refunded := 2 }
  contract := 0xa
  result := res

def stepAct (op : OpCode) (pc remaining : Nat) (res : InstructionResult := .Continue) : Act :=
  .step (interp op pc remaining .Continue) ctx (interp op (pc + 1) (remaining - 3) res) ctx

def out (res : InstructionResult) : Outcome where
  ctx := ctx
  result := { result := res, output := [7, 8], gas := { limit := 1000, remaining := 400, refunded := 50 } }
  address := none

def callHdr (scheme : CallScheme) (caller target code : Address) (v : U256) : Header :=
  .call ctx { input := [1, 2, 3, 4, 5], gasLimit := 900, bytecodeAddress := code,
              targetAddress := target, caller := caller, value := .transfer v, scheme := scheme }

def createHdr : Header :=
  .create ctx { caller := 0xa, scheme := .Create, value := 1, initCode := [0x60], gasLimit := 80,
                createdAddress := fun n => BitVec.ofNat 160 (0xc0 + n) }

/-- The library frame: logs as 0xb. -/
def lib : Body := .act (stepAct Op.LOG0 0 90) (.act (.log ctx ⟨0xb, [1], [2]⟩) .nil)

/-- The called contract 0xb. -/
def callee : Body :=
  .act (.log ctx ⟨0xb, [], [9]⟩)
    (.act (stepAct Op.DELEGATECALL 1 200 .CallOrCreate)
      (.sub (callHdr .DelegateCall 0xb 0xb 0xd 0) lib (out .Return)
        (.act (.selfdestruct 0xb 0xe 4) .nil)))

def body : Body :=
  .act (stepAct Op.ADD 0 500)
    (.act (stepAct Op.CALL 1 490 .CallOrCreate)
      (.sub (callHdr .Call 0xa 0xb 0xb 6) callee (out .SelfDestruct)
        (.act (stepAct Op.STATICCALL 2 400 .CallOrCreate)
          (.sub (callHdr .StaticCall 0xa 1 1 0) .nil (out .Return)
            (.act (stepAct Op.CREATE 3 300 .CallOrCreate)
              (.sub createHdr (.act (stepAct Op.STOP 0 70 .Stop) .nil)
                { out .Stop with address := some 0xc3 }
                (.act (stepAct Op.SSTORE 4 200)
                  (.act (stepAct Op.STOP 5 100 .Stop) .nil))))))))

def tx : Tx where
  hdr := callHdr .Call 0x99 0xa 0xa 11
  body := body
  out := out .Stop

theorem wf : tx.WF := by
  refine ⟨fun _ => rfl, fun h => absurd h (by decide), ?_⟩
  refine ⟨fun _ => rfl, fun h => absurd h (by decide), ?_, ?_⟩
  · exact ⟨fun h => absurd h (by decide), fun h => absurd h (by decide), trivial, trivial⟩
  · refine ⟨fun _ => rfl, fun _ => rfl, trivial, ?_⟩
    exact ⟨trivial, fun h => absurd h (by decide), trivial, trivial⟩

theorem journalOK : ctx.JournalOK := by
  refine ⟨[.storageChanged 0xa 5 7], rfl, ?_⟩
  intro a k h hm
  simp only [List.mem_singleton, JournalEntry.storageChanged.injEq] at hm
  obtain ⟨rfl, rfl, rfl⟩ := hm
  decide

theorem stepSafe (cfg : Config) (i i' : Interp) (c : Ctx) (h : Op.stackPushCount i.op ≤ i'.stack.length) :
    StepSafe cfg i c i' ctx := ⟨fun _ _ => h, fun _ => journalOK⟩

theorem safe (cfg : Config) : Safe cfg tx.body := by
  refine ⟨stepSafe _ _ _ _ (by decide), stepSafe _ _ _ _ (by decide), ⟨?_, ?_, trivial⟩,
    stepSafe _ _ _ _ (by decide), trivial, stepSafe _ _ _ _ (by decide), ⟨?_, trivial⟩,
    stepSafe _ _ _ _ (by decide), stepSafe _ _ _ _ (by decide), trivial⟩
  · exact stepSafe _ _ _ _ (by decide)
  · exact ⟨stepSafe _ _ _ _ (by decide), trivial⟩
  · exact stepSafe _ _ _ _ (by decide)

end Verif.Example
