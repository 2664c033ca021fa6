import Verif.Spec.Exec
/-!
# What a recording of an execution should contain

Everything here is a function of the execution tree alone (and of the configuration); nothing
refers to the model of the inspector.
-/
namespace Verif.Spec

/-- The frame is opened by DELEGATECALL. -/
def isDelegateCall : Header → Bool
  | .call _ inp => decide (inp.scheme = .DelegateCall)
  | .create _ _ => false

/-- The value the frame's own call or create inputs carry. -/
def ownValue : Header → U256
  | .call _ inp => inp.callValue
  | .create _ inp => inp.value

/-- The value in scope of a frame whose parent has the value `pv` in scope (`none`: root). -/
def valueInScope (pv : Option U256) (h : Header) : U256 :=
  match isDelegateCall h, pv with
  | true, some v => v
  | _, _ => ownValue h

/-- A frame of the execution together with where it sits in the tree. -/
structure FrameCtx where
  /-- position in the order in which the frames were entered -/
  index : Nat
  /-- position of the frame that entered it -/
  parent : Option Nat
  /-- number of enclosing frames -/
  depth : Nat
  /-- value in scope of the parent -/
  parentValue : Option U256
  hdr : Header
  body : Body
  out : Outcome

/-- The value in scope of the frame. -/
def FrameCtx.value (f : FrameCtx) : U256 := valueInScope f.parentValue f.hdr

/-- The frames below a frame with index `p` and value `v`, entered when `d` frames are open, the
first of them having index `n`. -/
def subFrames (d p : Nat) (v : U256) (n : Nat) : Body → List FrameCtx
  | .nil => []
  | .act _ rest => subFrames d p v n rest
  | .sub h b o rest =>
    ⟨n, some p, d, some v, h, b, o⟩ ::
      (subFrames (d + 1) n (valueInScope (some v) h) (n + 1) b ++
        subFrames d p v (n + 1 + b.size) rest)

/-- All frames of a transaction in the order in which they were entered. -/
def frames (t : Tx) : List FrameCtx :=
  ⟨0, none, 0, none, t.hdr, t.body, t.out⟩ ::
    subFrames 1 0 (valueInScope none t.hdr) 1 t.body

/-- The data of a frame that users see. -/
structure FrameData where
  parent : Option Nat
  depth : Nat
  kind : CallKind
  caller : Address
  address : Address
  value : U256
  input : Bytes
  output : Bytes
  status : InstructionResult
  success : Bool
  refundTarget : Option Address
  refundValue : Option U256
  deriving DecidableEq, Repr

def kind : Header → CallKind
  | .call _ inp => match inp.scheme with
    | .Call => .Call | .StaticCall => .StaticCall | .CallCode => .CallCode
    | .DelegateCall => .DelegateCall
  | .create _ inp => match inp.scheme with
    | .Create => .Create
    | .Create2 _ => .Create2

/-- The frame that executes the call instruction: for DELEGATECALL and CALLCODE the executing
account is the new frame's target itself. -/
def caller : Header → Address
  | .call _ inp => match inp.scheme with
    | .Call | .StaticCall => inp.caller
    | .CallCode | .DelegateCall => inp.targetAddress
  | .create _ inp => inp.caller

/-- The account whose code runs, or that is being created. -/
def callee : Header → Address
  | .call _ inp => match inp.scheme with
    | .Call | .StaticCall => inp.targetAddress
    | .CallCode | .DelegateCall => inp.bytecodeAddress
  | .create c inp => inp.createdAddress (c.nonce inp.caller)

/-- The account the frame executes as (EVM `ADDRESS`). -/
def executingAs : Header → Address
  | .call _ inp => inp.targetAddress
  | .create c inp => inp.createdAddress (c.nonce inp.caller)

def input : Header → Bytes
  | .call _ inp => inp.input
  | .create _ inp => inp.initCode

def gasLimit : Header → Nat
  | .call _ inp => inp.gasLimit
  | .create _ inp => inp.gasLimit

def txGasLimit : Header → Nat
  | .call c _ => c.txGasLimit
  | .create c _ => c.txGasLimit

/-- The last selfdestruct the frame itself executed: contract, refund target, value. -/
def lastSelfdestruct : Body → Option (Address × Address × U256)
  | .nil => none
  | .act (.selfdestruct a t v) rest => (lastSelfdestruct rest).or (some (a, t, v))
  | .act _ rest => lastSelfdestruct rest
  | .sub _ _ _ rest => lastSelfdestruct rest

/-- The address a creation reports at its end. -/
def createdAt (h : Header) (o : Outcome) : Option Address :=
  match h with
  | .call _ _ => none
  | .create _ _ => o.address

/-- The data shown for a frame: the address is the creation's reported one, or the selfdestructed
contract, or else the callee. (That the selfdestructed contract takes the place of the callee is not what
users should see, see `trueData`.) -/
def frameData (f : FrameCtx) : FrameData where
  parent := f.parent
  depth := f.depth
  kind := kind f.hdr
  caller := caller f.hdr
  address := match createdAt f.hdr f.out, lastSelfdestruct f.body with
    | some a, _ => a
    | none, some (a, _, _) => a
    | none, none => callee f.hdr
  value := f.value
  input := input f.hdr
  output := f.out.result.output
  status := f.out.result.result
  success := f.out.result.result.isOk
  refundTarget := (lastSelfdestruct f.body).map (·.2.1)
  refundValue := (lastSelfdestruct f.body).map (·.2.2)

/-- The data users should see for a frame: the address is the one the creation reports, or else the
callee. -/
def trueData (f : FrameCtx) : FrameData :=
  { frameData f with address := (createdAt f.hdr f.out).getD (callee f.hdr) }

/-- The logs a frame emitted itself, in order. -/
def emitted : Body → List Log
  | .nil => []
  | .act (.log _ l) rest => l :: emitted rest
  | .act _ rest => emitted rest
  | .sub _ _ _ rest => emitted rest

/-- The text users should get: the named classes per style, the variant name otherwise. -/
def errorText (style : TraceStyle) (r : InstructionResult) : String :=
  if r = .Revert then (if style = .Parity then "Reverted" else "execution reverted")
  else if r = .OutOfGas ∨ r = .MemoryOOG then (if style = .Parity then "Out of gas" else "out of gas")
  else if r = .OpcodeNotFound then (if style = .Parity then "Bad instruction" else "invalid opcode")
  else if r = .StackOverflow then "Out of stack"
  else if r = .InvalidJump then
    (if style = .Parity then "Bad jump destination" else "invalid jump destination")
  else if r = .PrecompileError then
    (if style = .Parity then "Built-in failed" else "precompiled failed")
  else r.debug

/-- Left out of the call graph: exclusion is on, not the root, a call, to the code of a
precompile, with no value in scope. -/
def excluded (cfg : Config) (f : FrameCtx) : Bool :=
  cfg.excludePrecompileCalls && f.parent.isSome && f.hdr.isPrecompile && f.value == 0

/-- The part of a step that is a function of the instruction alone. -/
structure StepView where
  depth : Nat
  pc : Nat
  op : OpCode
  contract : Address
  gasRemaining : Nat
  stack : Option (List U256)
  returndata : Bytes
  hasMemory : Bool
  pushStack : Option (List U256)
  gasCost : Nat
  status : InstructionResult
  deriving DecidableEq, Repr

/-- The `k` topmost items of a stack (bottom first). -/
def topItems (k : Nat) (stack : List U256) : List U256 := (stack.reverse.take k).reverse

/-- The view of a step that has been started, with the given results. -/
def stepView (cfg : Config) (d : Nat) (i : Interp) (pushStack : Option (List U256)) (cost : Nat)
    (status : InstructionResult) : StepView where
  depth := d
  pc := i.pc
  op := i.op
  contract := i.contract
  gasRemaining := i.gas.remaining
  stack := if cfg.recordStackSnapshots = .Full then some i.stack else none
  returndata := if cfg.recordReturndataSnapshots then i.returnData else []
  hasMemory := cfg.recordMemorySnapshots
  pushStack := pushStack
  gasCost := cost
  status := status

/-- One entry of the chronological record of a frame. -/
inductive Item where
  | step (v : StepView)
  | log (l : LogData)
  | call (index : Nat)
  deriving DecidableEq, Repr

/-- What happens in a frame, in order, as far as the configuration asks to record it. `f` is the
frame, `n` the index of its next sub-frame. -/
def bodyItems (cfg : Config) (d p : Nat) (v : U256) (n : Nat) : Body → List Item
  | .nil => []
  | .act a rest =>
    (match a with
      | .step i _ i' _ =>
        if records cfg i.op then
          [.step (stepView cfg d i
            (if cfg.recordStackSnapshots = .Pushes
              then some (topItems (Op.stackPushCount i.op) i'.stack) else none)
            (i.gas.remaining - i'.gas.remaining) i'.result)]
        else []
      | .aborted i _ => if records cfg i.op then [.step (stepView cfg d i none 0 .Continue)] else []
      | .log _ l => if cfg.recordLogs then [.log l.data] else []
      | .selfdestruct _ _ _ => []) ++ bodyItems cfg d p v n rest
  | .sub h b o rest =>
    (if excluded cfg ⟨n, some p, d, some v, h, b, o⟩ then [] else [.call n]) ++
      bodyItems cfg d p v (n + 1 + b.size) rest

/-- The chronological record of a frame. -/
def items (cfg : Config) (f : FrameCtx) : List Item :=
  bodyItems cfg (f.depth + 1) f.index f.value (f.index + 1) f.body

end Verif.Spec
