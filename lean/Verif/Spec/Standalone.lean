import Verif.Spec.Exec
import Verif.Model.Standalone
/-! What the small inspectors are to report, as functions and relations of the hook history. -/
namespace Verif.Spec

/-- A history in which each start of an instruction is followed by its end, and its instructions
(interpreter at the start, interpreter at the end). -/
inductive Paired : List Event → List (Interp × Interp) → Prop
  | nil : Paired [] []
  | instr {es ps} (i i' : Interp) (c c' : Ctx) : Paired es ps →
      Paired (.step i c :: .stepEnd i' c' :: es) ((i, i') :: ps)
  | log {es ps} (c : Ctx) (l : Log) : Paired es ps → Paired (.log c l :: es) ps
  | call {es ps} (c : Ctx) (inp : CallInputs) : Paired es ps → Paired (.call c inp :: es) ps
  | callEnd {es ps} (c : Ctx) (inp : CallInputs) (r : InterpreterResult) : Paired es ps →
      Paired (.callEnd c inp r :: es) ps
  | create {es ps} (c : Ctx) (inp : CreateInputs) : Paired es ps → Paired (.create c inp :: es) ps
  | createEnd {es ps} (c : Ctx) (inp : CreateInputs) (r : InterpreterResult) (a : Option Address) :
      Paired es ps → Paired (.createEnd c inp r a :: es) ps
  | selfdestruct {es ps} (a t : Address) (v : U256) : Paired es ps →
      Paired (.selfdestruct a t v :: es) ps

/-- Number of executions of an opcode. -/
def countOf (op : OpCode) (ps : List (Interp × Interp)) : Nat :=
  (ps.filter (fun p => p.1.op == op)).length

/-- Gas consumed by the executions of an opcode. -/
def gasOf (op : OpCode) (ps : List (Interp × Interp)) : Nat :=
  ((ps.filter (fun p => p.1.op == op)).map (fun p => p.1.gas.remaining - p.2.gas.remaining)).sum

/-- The instructions of an execution that runs each instruction to its end. -/
def executed : Body → List (Interp × Interp)
  | .nil => []
  | .act (.step i _ i' _) rest => (i, i') :: executed rest
  | .act _ rest => executed rest
  | .sub _ b _ rest => executed b ++ executed rest

/-- No instruction is aborted between `step` and `step_end`. -/
def NoAborts : Body → Prop
  | .nil => True
  | .act (.aborted _ _) _ => False
  | .act _ rest => NoAborts rest
  | .sub _ b _ rest => NoAborts b ∧ NoAborts rest

/-- Number of instructions started. -/
def starts : List Event → Nat
  | [] => 0
  | .step _ _ :: es => starts es + 1
  | _ :: es => starts es

/-- Number of calls with these first four bytes and this number of bytes after them. -/
def callsWith (sel : Bytes) (size : Nat) : List Event → Nat
  | [] => 0
  | .call _ inp :: es =>
    (if inp.input.length = 4 + size ∧ inp.input.take 4 = sel then 1 else 0) + callsWith sel size es
  | _ :: es => callsWith sel size es

/-- The execution reads or writes this slot of this contract. -/
def SlotTouched (es : List Event) (a : Address) (k : U256) : Prop :=
  ∃ (i : Interp) (c : Ctx), Event.step i c ∈ es ∧ (i.op = 0x54 ∨ i.op = 0x55) ∧ i.contract = a ∧
    i.stack.getLast? = some k

/-- The execution names this address in an instruction that accesses accounts. -/
def AddressNamed (es : List Event) (a : Address) : Prop :=
  ∃ (i : Interp) (c : Ctx) (w : U256), Event.step i c ∈ es ∧ w.toNat % 2 ^ 160 = a.toNat ∧
    ((i.op ∈ ([0x31, 0x3b, 0x3c, 0x3f, 0xff] : List OpCode) ∧ i.stack.reverse[0]? = some w) ∨
     (i.op ∈ ([0xf1, 0xf2, 0xf4, 0xfa] : List OpCode) ∧ i.stack.reverse[1]? = some w))

/-- An access list contains what was provided and what was touched, and nothing else. -/
structure IsAccessList (provided : List (Address × List U256)) (excluded : List Address)
    (es : List Event) (r : List (Address × List U256)) : Prop where
  once : (r.map Prod.fst).Nodup
  addresses : ∀ a : Address, a ∈ r.map Prod.fst ↔
    a ∈ provided.map Prod.fst ∨ (∃ k, SlotTouched es a k) ∨ (AddressNamed es a ∧ a ∉ excluded)
  slots : ∀ (a : Address) (ks : List U256), (a, ks) ∈ r → ∀ k : U256, k ∈ ks ↔
    (∃ ks', (a, ks') ∈ provided ∧ k ∈ ks') ∨ SlotTouched es a k
  sorted : ∀ (a : Address) (ks : List U256), (a, ks) ∈ r →
    ks.Pairwise (fun x y => x.toNat < y.toNat)

/-- The transfer made by a call. -/
def callTransfer (inp : CallInputs) : List Transfer :=
  match inp.value with
  | .transfer v => if v = 0 then [] else [⟨.call, inp.caller, inp.targetAddress, v⟩]
  | .apparent _ => []

/-- The transfer made by a create. -/
def createTransfer (inp : CreateInputs) (a : Option Address) : List Transfer :=
  match a, inp.scheme with
  | some a, .Create => [⟨.create, inp.caller, a, inp.value⟩]
  | some a, .Create2 _ => [⟨.create2, inp.caller, a, inp.value⟩]
  | none, _ => []

/-- The transfers made while a frame runs, in order. A create is listed when it ends. -/
def transfers : Body → List Transfer
  | .nil => []
  | .act (.selfdestruct a t v) rest => ⟨.selfDestruct, a, t, v⟩ :: transfers rest
  | .act _ rest => transfers rest
  | .sub (.call _ inp) b _ rest => callTransfer inp ++ transfers b ++ transfers rest
  | .sub (.create _ inp) b o rest =>
    transfers b ++ createTransfer inp o.address ++ transfers rest

/-- The transfers made by a transaction. -/
def txTransfers (t : Tx) : List Transfer :=
  match t.hdr with
  | .call _ inp => callTransfer inp ++ transfers t.body
  | .create _ inp => transfers t.body ++ createTransfer inp t.out.address

/-- The transfer that a hook call tells of, whatever it belongs to: with `internalOnly`, calls and creates at
depth 0 are left out. -/
def hookTransfer (internalOnly : Bool) : Event → List Transfer
  | .call c inp => if internalOnly = true ∧ c.depth = 0 then [] else callTransfer inp
  | .createEnd c inp _ a => if internalOnly = true ∧ c.depth = 0 then [] else createTransfer inp a
  | .selfdestruct a t v => [⟨.selfDestruct, a, t, v⟩]
  | _ => []

end Verif.Spec
