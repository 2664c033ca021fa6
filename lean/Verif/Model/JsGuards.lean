import Verif.Model.JsDb
/-! Model of the guarded references of the JavaScript tracer: /repo/src/tracing/js/bindings.rs:58-154.

`Rc<RefCell<Option<Guarded<Val>>>>` is an index into a heap of cells; clones of the `Rc` share the
index. The number of references is not counted: a cell stays in the heap for ever, whereas Rust frees
it with the last clone, when nobody can look at it any more. -/
namespace Verif

/-- A guarded value: what the cell refers to. /repo/src/tracing/js/bindings.rs:123-128. -/
inductive GVal where
  | stack (s : List U256)
  | memory (m : Bytes)
  | state (st : JsState)
  | database (d : JsDatabase)

/-- The objects a hook builds for a callback. /repo/src/tracing/js/bindings.rs:237, 422, 736. -/
inductive JsObj where
  | stack (s : List U256)
  | memory (m : Bytes)
  | db (st : JsState) (d : JsDatabase)

/-- A JavaScript object: the cells its methods captured, and the length its `length` method
captured. /repo/src/tracing/js/bindings.rs:237, 422, 736. -/
inductive JsRef where
  | stack (cell len : Nat)
  | memory (cell len : Nat)
  | db (stateCell dbCell : Nat)
  deriving DecidableEq

/-- The heap of cells, and the references JavaScript holds, wherever it stored them.
/repo/src/tracing/js/bindings.rs:74-82. -/
structure JsWorld where
  cells : List (Option GVal)
  refs : List JsRef

/-- /repo/src/tracing/js/bindings.rs:97-106 `GuardedNullableGc::new`: a new cell, shared by the
reference and the guard. -/
def newCell (cells : List (Option GVal)) (v : GVal) : List (Option GVal) × Nat :=
  (cells ++ [some v], cells.length)

/-- /repo/src/tracing/js/bindings.rs:109-115 `with_inner`: the content of a cell. -/
def withInner (cells : List (Option GVal)) (cell : Nat) : Option GVal :=
  match cells[cell]? with
  | some content => content
  | none => none

/-- /repo/src/tracing/js/bindings.rs:150-154: dropping the guard of a cell. -/
def dropGuard (cells : List (Option GVal)) (cell : Nat) : List (Option GVal) := cells.set cell none

/-- The stack in a cell. /repo/src/tracing/js/bindings.rs:109-115. -/
def stackIn (cells : List (Option GVal)) (cell : Nat) : Option (List U256) :=
  match withInner cells cell with
  | some (.stack s) => some s
  | _ => none

/-- The memory in a cell. /repo/src/tracing/js/bindings.rs:109-115. -/
def memoryIn (cells : List (Option GVal)) (cell : Nat) : Option Bytes :=
  match withInner cells cell with
  | some (.memory m) => some m
  | _ => none

/-- The journaled state in a cell. /repo/src/tracing/js/bindings.rs:109-115. -/
def stateIn (cells : List (Option GVal)) (cell : Nat) : Option JsState :=
  match withInner cells cell with
  | some (.state st) => some st
  | _ => none

/-- The database in a cell. /repo/src/tracing/js/bindings.rs:109-115. -/
def databaseIn (cells : List (Option GVal)) (cell : Nat) : Option JsDatabase :=
  match withInner cells cell with
  | some (.database d) => some d
  | _ => none

/-- Building one object: `StackRef::new` (425-428) with 451-459, `MemoryRef::new` (241-244) with
250-252, `EvmDbRef::new` (742-769). Returns the guarded cells. /repo/src/tracing/js/bindings.rs. -/
def newObj (w : JsWorld) : JsObj → JsWorld × List Nat
  | .stack s =>
    let (cells, c) := newCell w.cells (.stack s)
    (⟨cells, w.refs ++ [.stack c ((stackIn cells c).map List.length |>.getD 0)]⟩, [c])
  | .memory m =>
    let (cells, c) := newCell w.cells (.memory m)
    (⟨cells, w.refs ++ [.memory c (memRefLen (memoryIn cells c))]⟩, [c])
  | .db st d =>
    let (cells, c) := newCell w.cells (.state st)
    let (cells, c') := newCell cells (.database d)
    (⟨cells, w.refs ++ [.db c c']⟩, [c, c'])

/-- All objects of a callback. /repo/src/tracing/js/mod.rs:385-405. -/
def newObjs (w : JsWorld) : List JsObj → JsWorld × List Nat
  | [] => (w, [])
  | o :: os =>
    let (w, gs) := newObj w o
    let (w, gs') := newObjs w os
    (w, gs ++ gs')

/-- A method call on an object. /repo/src/tracing/js/bindings.rs:253-325, 460-487, 833-918. -/
inductive JsMethod where
  | length
  | peek (i : JsNum)
  | slice (start end_ : JsNum)
  | getUint (offset : JsNum)
  | exist (address : JsBuf)
  | getBalance (address : JsBuf)
  | getNonce (address : JsBuf)
  | getCode (address : JsBuf)
  | getState (address slot : JsBuf)

/-- What JavaScript sees of a method call. /repo/src/tracing/js/bindings.rs:253-325, 460-487, 833-918. -/
inductive JsOut where
  | panic (p : Panic)
  | throws
  | number (n : Nat)
  | bool (b : Bool)
  | word (w : U256)
  | bytes (b : Bytes)
  deriving DecidableEq

/-- A result of a native function. /repo/src/tracing/js/bindings.rs:253-325. -/
def JsOut.of {α : Type} (f : α → JsOut) : R (Option α) → JsOut
  | .error p => .panic p
  | .ok none => .throws
  | .ok (some a) => f a

/-- The methods of the objects. A method an object does not have throws.
/repo/src/tracing/js/bindings.rs:253-325, 460-487, 833-918. -/
def callMethod (cells : List (Option GVal)) : JsRef → JsMethod → JsOut
  | .stack c len, .length => .number (jsLength len (stackIn cells c))
  | .stack c len, .peek i => .of .word (.ok (jsStackPeek len (stackIn cells c) i))
  | .memory c len, .length => .number (jsLength len (memoryIn cells c))
  | .memory c _, .slice s e => .of .bytes (jsMemorySlice (memoryIn cells c) s e)
  | .memory c _, .getUint o => .of .bytes (jsMemoryGetUint (memoryIn cells c) o)
  | .db c c', .exist a => .of .bool (jsExists (stateIn cells c) (databaseIn cells c') a)
  | .db c c', .getBalance a => .of .word (jsGetBalance (stateIn cells c) (databaseIn cells c') a)
  | .db c c', .getNonce a => .of .number (jsGetNonce (stateIn cells c) (databaseIn cells c') a)
  | .db c c', .getCode a => .of .bytes (jsGetCode (stateIn cells c) (databaseIn cells c') a)
  | .db _ c', .getState a k => .of .word (jsGetState (databaseIn cells c') a k)
  | _, _ => .throws

/-- What a callback does with the references it has: store another copy of one (object or bound
method; `Rc::clone` of the captured cells), or call a method of one.
Tracer code, which is not in /repo/src; the cells are /repo/src/tracing/js/bindings.rs:74-82. -/
inductive JsOp where
  | copy (ref : Nat)
  | call (ref : Nat) (m : JsMethod)

/-- The code of a callback, as the sequence of its operations.
Tracer code, called in /repo/src/tracing/js/mod.rs:285-315. -/
def runOps (w : JsWorld) : List JsOp → JsWorld × List JsOut
  | [] => (w, [])
  | .copy r :: ops =>
    match w.refs[r]? with
    | none => runOps w ops
    | some ref => runOps { w with refs := w.refs ++ [ref] } ops
  | .call r m :: ops =>
    let out := match w.refs[r]? with
      | none => JsOut.throws
      | some ref => callMethod w.cells ref m
    let (w, outs) := runOps w ops
    (w, out :: outs)

/-- One hook (/repo/src/tracing/js/mod.rs:385-410 `step`, 412-437 `step_end`, 222-283 `result`):
objects and guards, the callback, and the guards are dropped at the end of the hook. -/
def runHook (w : JsWorld) (objs : List JsObj) (ops : List JsOp) : JsWorld × List JsOut :=
  let (w, guards) := newObjs w objs
  let (w, outs) := runOps w ops
  ({ w with cells := guards.foldl dropGuard w.cells }, outs)

/-- A sequence of hooks, and what each callback sees. The hooks are /repo/src/tracing/js/mod.rs:385-575. -/
def runHookSeq (w : JsWorld) : List (List JsObj × List JsOp) → JsWorld × List (List JsOut)
  | [] => (w, [])
  | (objs, ops) :: rest =>
    let (w, outs) := runHook w objs ops
    let (w, outss) := runHookSeq w rest
    (w, outs :: outss)

end Verif
