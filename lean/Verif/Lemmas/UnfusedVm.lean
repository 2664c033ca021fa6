import Verif.Model.Parity
/-! The parity builders do not look at the logs and the ordering of a node: lemmas for C137. -/
namespace Verif.Props
open Parity

/-- A node without its logs. -/
def logless (n : Node) : Node := { n with logs := [], ordering := [] }

theorem logless_get (A : List Node) (i : Nat) : (A.map logless)[i]? = (A[i]?).map logless := List.getElem?_map ..

theorem vmLoop_logless (A : List Node) (hlast : isLastStepStopOp (A.map logless) = isLastStepStopOp A) (fuel : Nat) :
    ∀ (stack : List Nat) (q : List VmTrace) (cur : Node) (ci : Nat),
    vmLoop (A.map logless) fuel stack q (logless cur) ci = vmLoop A fuel stack q cur ci := by
  induction fuel with
  | zero => intros; rfl
  | succ fuel ih =>
    intro stack q cur ci
    simp only [vmLoop, show (logless cur).children = cur.children from rfl,
      show (logless cur).trace = cur.trace from rfl, show (logless cur).parent = cur.parent from rfl, hlast,
      logless_get]
    cases cur.children[ci]? with
    | some c =>
      cases h : A[c]? with
      | none => simp [h]
      | some n => simp only [h, Option.map_some]; exact ih _ _ _ _
    | none =>
      simp only
      split
      · rfl
      · cases cur.parent with
        | none => rfl
        | some p =>
          cases stack with
          | nil => rfl
          | cons c stack =>
            cases h : A[p]? with
            | none => simp [h]
            | some n => simp only [h, Option.map_some]; exact ih _ _ _ _

theorem vmTrace_logless (A : List Node) : vmTrace (A.map logless) = vmTrace A := by
  have hlast : isLastStepStopOp (A.map logless) = isLastStepStopOp A := by
    rw [isLastStepStopOp, isLastStepStopOp, List.getLast?_map]
    cases A.getLast? <;> rfl
  have hfuel : vmFuel (A.map logless) = vmFuel A := by
    rw [vmFuel, vmFuel, List.map_map]; rfl
  cases A with
  | nil => rfl
  | cons x A =>
    rw [List.map_cons] at hlast hfuel ⊢
    simp only [vmTrace, hfuel]
    rw [← List.map_cons] at hlast ⊢
    rw [vmLoop_logless _ hlast]

theorem addressLoop_logless (A : List Node) (fuel : Nat) : ∀ (cur : Node) (g : List Nat),
    traceAddressLoop (A.map logless) fuel (logless cur) g = traceAddressLoop A fuel cur g := by
  induction fuel with
  | zero =>
    intro cur g
    rw [traceAddressLoop.eq_def, traceAddressLoop.eq_def A]
    simp only [show (logless cur).parent = cur.parent from rfl]
  | succ fuel ih =>
    intro cur g
    rw [traceAddressLoop.eq_def, traceAddressLoop.eq_def A]
    simp only [show (logless cur).parent = cur.parent from rfl]
    cases cur.parent with
    | none => rfl
    | some p =>
      simp only [logless_get]
      cases h : A[p]? with
      | none => rfl
      | some n =>
        simp only [Option.map_some, show (logless n).children = n.children from rfl,
          show (logless cur).idx = cur.idx from rfl]
        cases n.children.idxOf? cur.idx with
        | none => rfl
        | some k => exact ih _ _

theorem address_logless (A : List Node) (i : Nat) : traceAddress (A.map logless) i = traceAddress A i := by
  rw [traceAddress, traceAddress, logless_get]
  split
  · rfl
  · cases A[i]? with
    | none => rfl
    | some n =>
      simp only [Option.map_some, List.length_map, addressLoop_logless]
      rfl

theorem traceLoop_logless (A : List Node) (w : Bool) (l : List Node) : ∀ acc,
    traceLoop (A.map logless) w (l.map logless) acc = traceLoop A w l acc := by
  induction l with
  | nil => intro acc; rfl
  | cons n l ih =>
    intro acc
    simp only [List.map_cons, traceLoop, address_logless, show (logless n).idx = n.idx from rfl,
      show (logless n).isSelfdestruct = n.isSelfdestruct from rfl,
      show ∀ a, (logless n).parityTransactionTrace a = n.parityTransactionTrace a from fun _ => rfl,
      show ∀ a, (logless n).paritySelfdestructTrace a = n.paritySelfdestructTrace a from fun _ => rfl, ih]

theorem typeTraces_logless (A : List Node) (types : List TraceType) :
    intoTraceTypeTraces (A.map logless) types = intoTraceTypeTraces A types := by
  have hf : (A.map logless).filter (fun n => !n.isPrecompile) = (A.filter (fun n => !n.isPrecompile)).map logless := by
    rw [List.filter_map]; rfl
  simp only [intoTraceTypeTraces, vmTrace_logless, hf, traceLoop_logless, List.isEmpty_map]

theorem walkLoop_logless (A : List Node) (fuel : Nat) : ∀ q,
    walkLoop (A.map logless) fuel q = (walkLoop A fuel q).map (List.map logless) := by
  induction fuel with
  | zero =>
    intro q
    cases q with
    | nil => rfl
    | cons i q =>
      simp only [walkLoop, List.length_map]
      split <;> rfl
  | succ fuel ih =>
    intro q
    cases q with
    | nil => rfl
    | cons i q =>
      simp only [walkLoop, logless_get]
      cases A[i]? with
      | none => rfl
      | some n =>
        simp only [Option.map_some, show (logless n).children = n.children from rfl, ih]
        cases walkLoop A fuel (q ++ n.children) <;> rfl

theorem withState_logless {ε : Type} (db : DB ε) (A : List Node) (gas : Nat) (out : Option Bytes)
    (state : List (Address × Account)) (types : List TraceType) :
    intoTraceResultsWithState db (A.map logless) gas out state types =
      intoTraceResultsWithState db A gas out state types := by
  have hw : walkBF (A.map logless) = (walkBF A).map (List.map logless) := by
    rw [walkBF, walkBF, walkLoop_logless, List.length_map]
  simp only [intoTraceResultsWithState, intoTraceResults, typeTraces_logless, hw]
  cases walkBF A with
  | error e => rfl
  | ok ns =>
    have hm : (ns.map logless).map (·.trace.address) = ns.map (·.trace.address) := by rw [List.map_map]; rfl
    simp only [Except.map, hm]

end Verif.Props
