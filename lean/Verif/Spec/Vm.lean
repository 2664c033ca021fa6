import Verif.Spec.Parity
import Verif.Spec.Calls
/-! What the `vmTrace` of an execution should be. -/
namespace Verif.Spec

/-- The action is an instruction. -/
def isInstr : Act → Bool
  | .step _ _ _ _ => true
  | .aborted _ _ => true
  | _ => false

/-- The entry of a recorded step. -/
def vmInstr (st : CallTraceStep) (sub : Option Parity.VmTrace) : Parity.VmInstruction :=
  .mk st.pc st.gasCost
    ⟨st.gasRemaining, st.pushStack.getD [], st.memory.map (fun m => (m.length, m)),
      st.storageChange.map (fun c => (c.key, c.value))⟩ sub st.op

mutual
/-- The entries of a frame: one per recorded step, in order; an instruction that entered a frame has
that frame's entries below it, no other instruction has any. `S` are the recorded steps and `code`
the code of the frame with a given index, `n` is the index of the next frame, the last argument are
the recorded steps of this frame that are still to come. -/
def vmOps (S : Nat → List CallTraceStep) (code : Nat → Bytes) :
    Nat → Body → List CallTraceStep → List Parity.VmInstruction
  | _, .nil, _ => []
  | n, .act a rest, ss =>
    if isInstr a then
      match ss with
      | [] => []
      | st :: ss => vmInstr st (nextVm S code n rest) :: vmOps S code n rest ss
    else vmOps S code n rest ss
  | n, .sub _ b _ rest, ss => vmOps S code (n + 1 + b.size) rest ss
termination_by structural _ b => b
/-- The trace of the frame entered next, if one is entered right away. -/
def nextVm (S : Nat → List CallTraceStep) (code : Nat → Bytes) :
    Nat → Body → Option Parity.VmTrace
  | _, .nil => none
  | _, .act _ _ => none
  | n, .sub _ b _ _ => some (.mk (code n) (vmOps S code (n + 1) b (S n)))
termination_by structural _ b => b
end

/-- The `vmTrace` of a transaction. -/
def vmTree (S : Nat → List CallTraceStep) (code : Nat → Bytes) (t : Tx) : Parity.VmTrace :=
  .mk (code 0) (vmOps S code 1 t.body (S 0))

/-- The frame itself executes a CALL- or CREATE-like instruction. -/
def hasCall : Body → Bool
  | .nil => false
  | .act a rest => isCallStep a || hasCall rest
  | .sub _ _ _ rest => hasCall rest

/-- Among the frames entered by one frame, only the first (and within it, the first, and so on) may
execute CALL- or CREATE-like instructions. `first`: no frame has been left before. -/
def FirstChain : (first : Bool) → Body → Prop
  | _, .nil => True
  | first, .act _ rest => FirstChain first rest
  | first, .sub _ b _ rest =>
    (first = false → hasCall b = false) ∧ FirstChain first b ∧ FirstChain false rest

/-- The opcode of the first instruction of a frame. -/
def firstOp : Body → Option OpCode
  | .nil => none
  | .act (.step i _ _ _) _ => some i.op
  | .act (.aborted i _) _ => some i.op
  | .act _ rest => firstOp rest
  | .sub _ _ _ rest => firstOp rest

/-- The opcode of the last instruction of a frame. -/
def lastOp : Body → Option OpCode
  | .nil => none
  | .act (.step i _ _ _) rest => some ((lastOp rest).getD i.op)
  | .act (.aborted i _) rest => some ((lastOp rest).getD i.op)
  | .act _ rest => lastOp rest
  | .sub _ _ _ rest => lastOp rest

/-- The code the database has for an address, empty if it has none. -/
def codeOf {ε : Type} (db : DB ε) (a : Address) : Bytes :=
  match db.account a with
  | .error _ => []
  | .ok acc =>
    if acc.codeHash = KECCAK_EMPTY then []
    else match db.codeByHash acc.codeHash with
      | .error _ => []
      | .ok code => code

/-! What the `vmTrace` is in every case. -/

/-- The shown frames below a frame, in the order in which they are left. -/
def leftFrames (cfg : Config) : (d p : Nat) → (v : U256) → (n : Nat) → Body → List FrameCtx
  | _, _, _, _, .nil => []
  | d, p, v, n, .act _ rest => leftFrames cfg d p v n rest
  | d, p, v, n, .sub h b o rest =>
    if excluded cfg ⟨n, some p, d, some v, h, b, o⟩ then
      leftFrames cfg d p v (n + 1 + b.size) rest
    else
      leftFrames cfg (d + 1) n (valueInScope (some v) h) (n + 1) b ++
        ⟨n, some p, d, some v, h, b, o⟩ :: leftFrames cfg d p v (n + 1 + b.size) rest

/-- The shown frames of a transaction in the order in which they are left, the root last. -/
def leftOrder (cfg : Config) (t : Tx) : List FrameCtx :=
  leftFrames cfg 1 0 (valueInScope none t.hdr) 1 t.body ++ [rootOf t]

/-- The entries of a frame if the traces `q` are given to its CALL- and CREATE-like steps in order, as
long as there are any. -/
def handOut : List CallTraceStep → List Parity.VmTrace → List Parity.VmInstruction
  | [], _ => []
  | st :: ss, q =>
    if entersFrame st.op then vmInstr st q.head? :: handOut ss q.tail
    else vmInstr st none :: handOut ss q

/-- How many traces have been given away before the i-th frame is left, if the j-th frame has `calls j`
CALL- and CREATE-like steps: as many as there were such steps, but not more than frames left before. -/
def givenAway (calls : Nat → Nat) : Nat → Nat
  | 0 => 0
  | i + 1 => min i (givenAway calls i + calls i)

/-- The number of CALL- and CREATE-like steps. -/
def callSteps (ss : List CallTraceStep) : Nat := (ss.filter (fun st => entersFrame st.op)).length

/-- The number of CALL- and CREATE-like steps of the i-th frame of a list. -/
def callsOf (S : Nat → List CallTraceStep) (fs : List FrameCtx) (i : Nat) : Nat :=
  match fs[i]? with
  | some f => callSteps (S f.index)
  | none => 0

/-- `V` are the traces of the first frames of the list, in the order in which the frames are left: the
i-th has the steps of its frame, and the oldest traces not given away before are given to its CALL- and
CREATE-like steps. -/
def TracesOf (S : Nat → List CallTraceStep) (fs : List FrameCtx) (V : List Parity.VmTrace) : Prop :=
  ∀ (i : Nat) (f : FrameCtx) (v : Parity.VmTrace), fs[i]? = some f → V[i]? = some v →
    v = .mk [] (handOut (S f.index) ((V.take i).drop (givenAway (callsOf S fs) i)))

/-- The `vmTrace` is lost: the last recorded step of the frame entered last is a STOP, and so is the
first recorded step of some shown frame. -/
def StopCase (cfg : Config) (t : Tx) (S : Nat → List CallTraceStep) : Prop :=
  (∃ f st, (frames t).getLast? = some f ∧ (S f.index).getLast? = some st ∧ st.op = 0) ∧
  ∃ e ∈ located cfg t, ∃ st, (S e.2.index).head? = some st ∧ st.op = 0

/-! Where the codes of the `vmTrace` come from in every case. -/

/-- Breadth-first order of paths: the shorter ones first, those of the same length from left to right. -/
def PathBefore (p q : List Nat) : Prop := p.length < q.length ∨ (p.length = q.length ∧ p < q)

/-- `P` are the paths of the sub-traces of a trace in breadth-first order. -/
structure LevelOrder (v : Parity.VmTrace) (P : List (List Nat)) : Prop where
  mem : ∀ p, p ∈ P ↔ ∃ w, v.at p = some w
  sorted : P.Pairwise PathBefore

/-- An operation without the contents of its sub-trace. -/
def bare : Parity.VmInstruction → Parity.VmInstruction
  | .mk pc cost ex sub op => .mk pc cost ex (sub.map fun _ => .mk [] []) op

/-- What the database answers about the code of an address: none if the account has no code. -/
def dbCode {ε : Type} (db : DB ε) (a : Address) : Except ε (Option Bytes) :=
  match db.account a with
  | .error e => .error e
  | .ok acc =>
    if acc.codeHash = KECCAK_EMPTY then .ok none
    else match db.codeByHash acc.codeHash with
      | .error e => .error e
      | .ok code => .ok (some code)

/-- The database answers. -/
def Answers {ε : Type} (db : DB ε) (a : Address) : Prop := ∃ c, dbCode db a = .ok c

/-- `r` is `v` with the code of the k-th path of `P` replaced by the one of the k-th address, if that
one has a code, for every k; nothing else is different. -/
def Coded {ε : Type} (db : DB ε) (P : List (List Nat)) (addrs : List Address)
    (v r : Parity.VmTrace) : Prop :=
  (∀ p, (∃ w, r.at p = some w) ↔ ∃ w, v.at p = some w) ∧
  ∀ (k : Nat) (p : List Nat), P[k]? = some p → ∃ (a : Address) (c : Option Bytes)
    (w u : Parity.VmTrace), addrs[k]? = some a ∧ dbCode db a = .ok c ∧
      v.at p = some w ∧ r.at p = some u ∧ u.code = c.getD w.code ∧ u.ops.map bare = w.ops.map bare

/-- `F` are the shown frames of an execution with their trace addresses, in breadth-first order. -/
structure FramesByLevel (cfg : Config) (t : Tx) (F : List (List Nat × FrameCtx)) : Prop where
  mem : ∀ p f, (p, f) ∈ F ↔ follow cfg (rootOf t) p = some f
  sorted : F.Pairwise (fun a b => PathBefore a.1 b.1)

end Verif.Spec
