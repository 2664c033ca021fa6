import Verif.Model.Inspector
import Verif.Spec.Exec
/-!
# Closed form of the recording

`own` and `newNodes` say which nodes a frame body adds to the arena; `run_body` and `run_tx` prove
that running the hooks of the model produces exactly these. Helper definitions and lemmas: the
property theorems in `Verif/Props` restate the facts in terms of separate specifications.
-/
namespace Verif
namespace Rec

/-- `fillStep` where it does not panic. -/
def finishStep (cfg : Config) (i : Interp) (c : Ctx) (step : CallTraceStep) : CallTraceStep :=
  match TI.fillStep cfg i c step with
  | .ok s => s
  | .error _ => step

/-- The step is recorded at all. -/
def recorded (cfg : Config) (i : Interp) : Bool := cfg.recordSteps && cfg.shouldRecordOpcode i.op

/-- Effect of one action on the node of its frame. -/
def actNode (cfg : Config) (d : Nat) : Act → Node → Node
  | .step i c i' c', n =>
    if recorded cfg i then
      TI.pushStep (finishStep cfg i' (c'.at d) (TI.newStep cfg i (c.at d) n.trace.steps.getLast?)) n
    else n
  | .aborted i c, n =>
    if recorded cfg i then TI.pushStep (TI.newStep cfg i (c.at d) n.trace.steps.getLast?) n else n
  | .log _ l, n => if cfg.recordLogs then TI.logNode l n else n
  | .selfdestruct a t v, n => TI.selfdestructNode a t v n

/-- The trace a frame starts with; `pval` is the value of the parent frame, `none` at the root. -/
def enterTrace (cfg : Config) (pval : Option U256) (d : Nat) : Header → CallTrace
  | .call c inp =>
    let to := match inp.scheme with
      | .DelegateCall | .CallCode => inp.bytecodeAddress
      | _ => inp.targetAddress
    let caller := match inp.scheme with
      | .DelegateCall | .CallCode => inp.targetAddress
      | _ => inp.caller
    let value := match inp.scheme with
      | .DelegateCall => pval.getD inp.callValue
      | _ => inp.callValue
    { depth := d, address := to, kind := CallKind.ofCallScheme inp.scheme, data := inp.input
      value := value, status := .Continue, caller := caller
      maybePrecompile := if cfg.excludePrecompileCalls then
        some (if c.precompiles.contains to then pval.isSome && value == 0 else false) else none
      gasLimit := if pval.isSome then inp.gasLimit else c.txGasLimit }
  | .create c inp =>
    { depth := d, address := inp.createdAddress (c.nonce inp.caller)
      kind := CallKind.ofCreateScheme inp.scheme, data := inp.initCode
      value := inp.value, status := .Continue, caller := inp.caller
      maybePrecompile := some false
      gasLimit := if pval.isSome then inp.gasLimit else c.txGasLimit }

/-- The address reported by the end hook. -/
def created (o : Outcome) : Header → Option Address
  | .call _ _ => none
  | .create _ _ => o.address

/-- Effect of the end hook on the node with index `n`. -/
def leaveNode (n : Nat) (d : Nat) (h : Header) (o : Outcome) (x : Node) : Node :=
  { x with trace := TI.fillTrace (o.ctx.at d) n o.result (created o h) x.trace }

/-- Not attached to the parent. -/
def excluded (t : CallTrace) : Bool := t.maybePrecompile.getD false

/-- Effect of entering a sub-frame (stored at index `n`) on the parent node. -/
def attachIf (t : CallTrace) (n : Nat) (x : Node) : Node := if excluded t then x else x.attach n

/-- Effect of a whole body on the node of the frame; sub-frames are stored from index `n` on. -/
def own (cfg : Config) (d : Nat) : Nat → Body → Node → Node
  | _, .nil, x => x
  | n, .act a rest, x => own cfg d n rest (actNode cfg d a x)
  | n, .sub h b _ rest, x =>
    own cfg d (n + 1 + b.size) rest (attachIf (enterTrace cfg (some x.trace.value) d h) n x)

/-- The nodes a body appends; `p` is the index of the frame and `v` its value. -/
def newNodes (cfg : Config) : (d p : Nat) → (v : U256) → (n : Nat) → Body → List Node
  | _, _, _, _, .nil => []
  | d, p, v, n, .act _ rest => newNodes cfg d p v n rest
  | d, p, v, n, .sub h b o rest =>
    let t := enterTrace cfg (some v) d h
    leaveNode n d h o (own cfg (d + 1) (n + 1) b { parent := some p, idx := n, trace := t }) ::
      (newNodes cfg (d + 1) n t.value (n + 1) b ++ newNodes cfg d p v (n + 1 + b.size) rest)

theorem length_newNodes (cfg : Config) (b : Body) :
    ∀ d p v n, (newNodes cfg d p v n b).length = b.size := by
  induction b with
  | nil => intros; rfl
  | act a rest ih => intros; simp [newNodes, Body.size, ih]
  | sub h b o rest ihb ihr => intros; simp [newNodes, Body.size, ihb, ihr]; omega

/-! ### Invariants of `own` -/

@[simp] theorem actNode_value (cfg d a x) : (actNode cfg d a x).trace.value = x.trace.value := by
  cases a <;> simp only [actNode] <;> (try split) <;> rfl
@[simp] theorem actNode_depth (cfg d a x) : (actNode cfg d a x).trace.depth = x.trace.depth := by
  cases a <;> simp only [actNode] <;> (try split) <;> rfl
@[simp] theorem actNode_children (cfg d a x) : (actNode cfg d a x).children = x.children := by
  cases a <;> simp only [actNode] <;> (try split) <;> rfl
@[simp] theorem actNode_parent (cfg d a x) : (actNode cfg d a x).parent = x.parent := by
  cases a <;> simp only [actNode] <;> (try split) <;> rfl
@[simp] theorem actNode_idx (cfg d a x) : (actNode cfg d a x).idx = x.idx := by
  cases a <;> simp only [actNode] <;> (try split) <;> rfl
@[simp] theorem attachIf_trace (t n x) : (attachIf t n x).trace = x.trace := by
  unfold attachIf; split <;> rfl
@[simp] theorem attachIf_parent (t n x) : (attachIf t n x).parent = x.parent := by
  unfold attachIf; split <;> rfl
@[simp] theorem attachIf_idx (t n x) : (attachIf t n x).idx = x.idx := by
  unfold attachIf; split <;> rfl
@[simp] theorem attachIf_logs (t n x) : (attachIf t n x).logs = x.logs := by
  unfold attachIf; split <;> rfl

/-! ### Finding the parent -/

/-- `e :: r` is a chain of last children with depths `k, k+1, ...` and increasing indices. -/
def Path (A : List Node) : Nat → Nat → List Nat → Prop
  | k, e, [] => ∃ x, A[e]? = some x ∧ x.trace.depth = k
  | k, e, c :: r => e < c ∧ (∃ x, A[e]? = some x ∧ x.trace.depth = k ∧
      x.children.getLast? = some c) ∧ Path A (k + 1) c r

/-- Last element of the chain. -/
def lastOf : Nat → List Nat → Nat
  | e, [] => e
  | _, c :: r => lastOf c r

theorem lastOf_append (r : List Nat) : ∀ e c, lastOf e (r ++ [c]) = c := by
  induction r with
  | nil => intros; rfl
  | cons a r ih => intros; simp [lastOf, ih]

theorem lastOf_eq_getLast (r : List Nat) : ∀ e, (e :: r).getLast? = some (lastOf e r) := by
  induction r with
  | nil => intros; rfl
  | cons a r ih => intro e; rw [List.getLast?_cons_cons, ih]; rfl

theorem Path.len {A : List Node} (r : List Nat) :
    ∀ {k e}, Path A k e r → e + r.length ≤ lastOf e r ∧ lastOf e r < A.length := by
  induction r with
  | nil =>
    intro k e ⟨x, hx, _⟩
    have := (List.getElem?_eq_some_iff.1 hx).1
    simp [lastOf]; omega
  | cons c r ih =>
    intro k e ⟨hlt, _, hp⟩
    have := ih hp
    simp only [lastOf, List.length_cons]; omega

theorem Path.last {A : List Node} (r : List Nat) :
    ∀ {k e}, Path A k e r → ∃ x, A[lastOf e r]? = some x ∧ x.trace.depth = k + r.length := by
  induction r with
  | nil => intro k e ⟨x, hx, hd⟩; exact ⟨x, hx, by simpa using hd⟩
  | cons c r ih =>
    intro k e ⟨_, _, hp⟩
    obtain ⟨x, hx, hd⟩ := ih hp
    exact ⟨x, hx, by simp [hd]; omega⟩

/-- The chain only depends on the nodes before its end, and on the depth of its end. -/
theorem Path.congr {A A' : List Node} (r : List Nat) :
    ∀ {k e}, Path A k e r →
      (∀ i, i < lastOf e r → A'[i]? = A[i]?) →
      (∀ x, A[lastOf e r]? = some x → ∃ x', A'[lastOf e r]? = some x' ∧
        x'.trace.depth = x.trace.depth) →
      Path A' k e r := by
  induction r with
  | nil =>
    intro k e ⟨x, hx, hd⟩ _ h2
    obtain ⟨x', hx', hd'⟩ := h2 x hx
    exact ⟨x', hx', hd'.trans hd⟩
  | cons c r ih =>
    intro k e ⟨hlt, hx, hp⟩ h1 h2
    have := (Path.len r hp).1
    refine ⟨hlt, ?_, ih hp h1 h2⟩
    rw [h1 e (by simp only [lastOf]; omega)]; exact hx

/-- Extending a chain by a new last child of its end. -/
theorem Path.snoc {A A' : List Node} (r : List Nat) :
    ∀ {k e c}, Path A k e r →
      (∀ i, i < lastOf e r → A'[i]? = A[i]?) →
      lastOf e r < c →
      (∃ x, A'[lastOf e r]? = some x ∧ x.trace.depth = k + r.length ∧
        x.children.getLast? = some c) →
      (∃ y, A'[c]? = some y ∧ y.trace.depth = k + r.length + 1) →
      Path A' k e (r ++ [c]) := by
  induction r with
  | nil =>
    intro k e c _ _ hlt ⟨x, hx, hd, hc⟩ ⟨y, hy, hyd⟩
    exact ⟨hlt, ⟨x, hx, by simpa using hd, hc⟩, ⟨y, hy, by simpa using hyd⟩⟩
  | cons a r ih =>
    intro k e c ⟨hlt, hx, hp⟩ h1 hc ⟨x, hx', hd, hcc⟩ ⟨y, hy, hyd⟩
    have := (Path.len r hp).1
    refine ⟨hlt, ?_, ih hp h1 hc ⟨x, hx', by simp at hd; omega, hcc⟩ ⟨y, hy, by simp at hyd; omega⟩⟩
    rw [h1 e (by simp only [lastOf]; omega)]; exact hx

theorem pushTraceLoop_path {A : List Node} {kind t} (r : List Nat) :
    ∀ {k e fuel}, Path A k e r → t.depth = k + r.length + 1 → r.length < fuel →
      ∃ x, A[lastOf e r]? = some x ∧
      pushTraceLoop kind t fuel A e = .ok
        (A.set (lastOf e r) (match kind with
          | .pushAndAttachToParent => x.attach A.length
          | .pushOnly => x) ++
          [{ parent := some (lastOf e r), trace := t, idx := A.length }], A.length) := by
  induction r with
  | nil =>
    intro k e fuel ⟨x, hx, hd⟩ ht hf
    obtain ⟨fuel, rfl⟩ : ∃ f, fuel = f + 1 := ⟨fuel - 1, by simp at hf; omega⟩
    refine ⟨x, hx, ?_⟩
    simp only [List.length_nil, Nat.add_zero] at ht
    have hx' : A[e]? = some x := hx
    have hd' : x.trace.depth = t.depth - 1 := by omega
    simp only [pushTraceLoop, show t.depth ≠ 0 by omega, if_false, hx', hd', if_true, lastOf]
    cases kind
    · have : A.set e x = A := by
        apply List.ext_getElem? ; intro i
        rw [List.getElem?_set]
        split
        · subst_vars
          split
          · exact hx'.symm
          · rename_i h; rw [List.getElem?_eq_none (by omega)]
        · rfl
      simp [this]
    · rfl
  | cons c r ih =>
    intro k e fuel ⟨hlt, ⟨x, hx, hd, hc⟩, hp⟩ ht hf
    obtain ⟨fuel, rfl⟩ : ∃ f, fuel = f + 1 := ⟨fuel - 1, by simp at hf; omega⟩
    simp only [List.length_cons] at ht hf
    obtain ⟨y, hy, heq⟩ := ih (fuel := fuel) hp (by omega) (by omega)
    refine ⟨y, hy, ?_⟩
    have hd' : ¬ x.trace.depth = t.depth - 1 := by omega
    rw [show lastOf e (c :: r) = lastOf c r from rfl]
    rw [← heq]
    simp only [pushTraceLoop, show t.depth ≠ 0 by omega, if_false, hx, hd', hc]

end Rec
end Verif
