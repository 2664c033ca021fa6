import Verif.Lemmas.Parity
/-! The loop of `make_vm_trace` is a post-order walk of the shown frames; its result is never larger
than the number of shown frames. -/
namespace Verif.Par
open Spec Rec Parity

/-- The number of shown frames below. -/
def shownSize (cfg : Config) : (d p : Nat) → (v : U256) → (n : Nat) → Body → Nat
  | _, _, _, _, .nil => 0
  | d, p, v, n, .act _ rest => shownSize cfg d p v n rest
  | d, p, v, n, .sub h b o rest =>
    if Spec.excluded cfg ⟨n, some p, d, some v, h, b, o⟩ then
      shownSize cfg d p v (n + 1 + b.size) rest
    else 1 + shownSize cfg (d + 1) n (valueInScope (some v) h) (n + 1) b +
      shownSize cfg d p v (n + 1 + b.size) rest

/-- The post-order walk with the queue; `error` is the early exit. `S` are the steps of a node. -/
def dfs (cfg : Config) (ls : Bool) (S : Nat → List CallTraceStep) : (d p : Nat) → (v : U256) →
    (n : Nat) → List VmTrace → Body → Except (List VmInstruction) (List VmTrace)
  | _, _, _, _, q, .nil => .ok q
  | d, p, v, n, q, .act _ rest => dfs cfg ls S d p v n q rest
  | d, p, v, n, q, .sub h b o rest =>
    if Spec.excluded cfg ⟨n, some p, d, some v, h, b, o⟩ then
      dfs cfg ls S d p v (n + 1 + b.size) q rest
    else
      match dfs cfg ls S (d + 1) n (valueInScope (some v) h) (n + 1) q b with
      | .error ins => .error ins
      | .ok q1 =>
        match instrLoop ls (S n) q1 [] with
        | (true, _, ins) => .error ins
        | (false, q2, ins) => dfs cfg ls S d p v (n + 1 + b.size) (q2 ++ [.mk [] ins]) rest

/-- Continue after the walk. -/
def contVm (k : List VmTrace → R (List VmInstruction)) :
    Except (List VmInstruction) (List VmTrace) → R (List VmInstruction)
  | .error ins => .ok ins
  | .ok q => k q

theorem vmLoop_body (cfg : Config) (nodes : List Node) (S : Nat → List CallTraceStep) (b : Body) :
    ∀ (d p : Nat) (v : U256) (n : Nat) (q : List VmTrace) (x : Node) (pre : List Nat)
      (F : Nat) (stack : List Nat),
    nodes[p]? = some x → x.children = pre ++ ownChildren cfg d p v n b →
    (∀ g ∈ subFrames d p v n b, ∃ y : Node, nodes[g.index]? = some y ∧ LinkOf cfg y g ∧
      y.trace.steps = S g.index) →
    vmLoop nodes (2 * shownSize cfg d p v n b + F) stack q x pre.length =
      contVm (fun q' => vmLoop nodes F stack q' x x.children.length)
        (dfs cfg (isLastStepStopOp nodes) S d p v n q b) := by
  induction b with
  | nil =>
    intro d p v n q x pre F stack _ hch _
    simp [shownSize, dfs, contVm, hch, ownChildren]
  | act a rest ih =>
    intro d p v n q x pre F stack hx hch hn
    exact ih d p v n q x pre F stack hx hch hn
  | sub h b o rest ihb ihr =>
    intro d p v n q x pre F stack hx hch hn
    have hsub : ∀ g ∈ subFrames d p v (n + 1 + b.size) rest, ∃ y : Node,
        nodes[g.index]? = some y ∧ LinkOf cfg y g ∧ y.trace.steps = S g.index :=
      fun g hg => hn g (by simp [subFrames, hg])
    simp only [ownChildren] at hch
    simp only [shownSize, dfs]
    by_cases hxc : Spec.excluded cfg ⟨n, some p, d, some v, h, b, o⟩ = true
    · rw [if_pos hxc, List.nil_append] at hch
      rw [if_pos hxc, if_pos hxc]
      exact ihr d p v _ q x pre F stack hx hch hsub
    · rw [if_neg hxc] at hch
      rw [if_neg hxc, if_neg hxc]
      obtain ⟨y, hy, hly, hys⟩ := hn ⟨n, some p, d, some v, h, b, o⟩ (by simp [subFrames])
      have hget : x.children[pre.length]? = some n := by rw [hch]; simp
      have hfu : 2 * (1 + shownSize cfg (d + 1) n (valueInScope (some v) h) (n + 1) b +
          shownSize cfg d p v (n + 1 + b.size) rest) + F =
          2 * shownSize cfg (d + 1) n (valueInScope (some v) h) (n + 1) b +
            (2 * shownSize cfg d p v (n + 1 + b.size) rest + F + 1) + 1 := by omega
      rw [hfu, vmLoop]
      simp only [hget]
      rw [show nodes[n]? = some y from hy]
      simp only
      have hb := ihb (d + 1) n (valueInScope (some v) h) (n + 1) q y []
        (2 * shownSize cfg d p v (n + 1 + b.size) rest + F + 1) ((pre.length + 1) :: stack)
        hy hly.children (fun g hg => hn g (by simp [subFrames, hg]))
      simp only [List.length_nil] at hb
      rw [hb]
      cases hd : dfs cfg (isLastStepStopOp nodes) S (d + 1) n (valueInScope (some v) h) (n + 1) q b with
      | error ins => rfl
      | ok q1 =>
        simp only [contVm]
        rw [vmLoop, List.getElem?_eq_none_iff.2 (Nat.le_refl _)]
        simp only
        rw [show y.trace.steps = S n from hys, show y.parent = some p from hly.parent]
        rcases hi : instrLoop (isLastStepStopOp nodes) (S n) q1 [] with ⟨stop, q2, ins⟩
        cases stop with
        | true => rfl
        | false =>
          simp only [hx]
          have hr := ihr d p v (n + 1 + b.size) (q2 ++ [.mk [] ins]) x (pre ++ [n]) F stack hx
            (by rw [hch]; simp) hsub
          rw [List.length_append, List.length_singleton] at hr
          rw [hr]; rfl

theorem sum_children (cfg : Config) (b : Body) (hwf : b.WF) : ∀ (d p : Nat) (v : U256) (n : Nat),
    shownSize cfg d p v n b = (ownChildren cfg d p v n b).length + ((subFrames d p v n b).map
      (fun g => (ownChildren cfg (g.depth + 1) g.index g.value (g.index + 1) g.body).length)).sum := by
  induction b with
  | nil => intros; rfl
  | act a rest ih => intro d p v n; exact ih hwf d p v n
  | sub h b o rest ihb ihr =>
    intro d p v n
    obtain ⟨_, h2, h3, h4⟩ := hwf
    simp only [shownSize, ownChildren, subFrames]
    have hv : FrameCtx.value ⟨n, some p, d, some v, h, b, o⟩ = valueInScope (some v) h := rfl
    split
    · rename_i hx
      have hns := h2 (excluded_noSub hx)
      have h5 := ihb h3 (d + 1) n (valueInScope (some v) h) (n + 1)
      have h6 : ∀ (b : Body), b.hasSub = false → ∀ d p v n, ownChildren cfg d p v n b = [] := by
        intro b
        induction b with
        | nil => intros; rfl
        | act a rest ih => intro hs d p v n; exact ih hs d p v n
        | sub h b o rest _ _ => intro hs; simp [Body.hasSub] at hs
      rw [Props.subFrames_of_hasSub_false b hns, h6 b hns] at h5
      rw [ihr h4, Props.subFrames_of_hasSub_false b hns]
      simp [hv, h6 b hns]
    · rw [ihb h3, ihr h4]
      simp only [List.map_cons, List.map_append, List.sum_cons, List.sum_append, List.length_append,
        List.length_singleton, hv]
      omega

theorem shownSize_locate (cfg : Config) (b : Body) : ∀ d p v n path k,
    (locate cfg d p v n path k b).length = shownSize cfg d p v n b := by
  induction b with
  | nil => intros; rfl
  | act a rest ih => intro d p v n path k; exact ih d p v n path k
  | sub h b o rest ihb ihr =>
    intro d p v n path k
    simp only [locate, shownSize]
    split
    · exact ihr ..
    · simp only [List.length_cons, List.length_append, ihb, ihr]; omega

/-- The nodes of a recording as far as `make_vm_trace` is concerned. -/
structure VmNodes (cfg : Config) (t : Tx) (nodes : List Node) (S : Nat → List CallTraceStep) : Prop where
  length : nodes.length = (frames t).length
  get : ∀ g ∈ frames t, ∃ y : Node, nodes[g.index]? = some y ∧ LinkOf cfg y g ∧
    y.trace.steps = S g.index
  link : nodes.map (fun y : Node => y.children.length) = (frames t).map (fun g =>
    (ownChildren cfg (g.depth + 1) g.index g.value (g.index + 1) g.body).length)

theorem sum_map_succ {α : Type} (f : α → Nat) (l : List α) :
    (l.map (fun a => f a + 1)).sum = (l.map f).sum + l.length := by
  induction l with
  | nil => rfl
  | cons a l ih => simp only [List.map_cons, List.sum_cons, ih, List.length_cons]; omega

theorem shownSize_le (cfg : Config) (b : Body) : ∀ d p v n, shownSize cfg d p v n b ≤ b.size := by
  induction b with
  | nil => intros; exact Nat.le_refl _
  | act a rest ih => intro d p v n; exact ih d p v n
  | sub h b o rest ihb ihr =>
    intro d p v n
    have h1 := ihb (d + 1) n (valueInScope (some v) h) (n + 1)
    have h2 := ihr d p v (n + 1 + b.size)
    simp only [shownSize, Body.size]
    split <;> omega

/-- `vm_trace` in terms of the walk. -/
theorem vmTrace_eq (cfg : Config) (t : Tx) (hwf : t.WF) (nodes : List Node)
    (S : Nat → List CallTraceStep) (hn : VmNodes cfg t nodes S) :
    vmTrace nodes = .ok (.mk [] (match dfs cfg (isLastStepStopOp nodes) S 1 0 (valueInScope none t.hdr) 1 [] t.body with
      | .error ins => ins
      | .ok q => (instrLoop (isLastStepStopOp nodes) (S 0) q []).2.2)) := by
  obtain ⟨x, hx, hlx, hsx⟩ := hn.get (rootOf t) (by simp [frames, rootOf])
  have hx0 : nodes[0]? = some x := hx
  have hsum := sum_children cfg t.body hwf.2.2 1 0 (valueInScope none t.hdr) 1
  have hfuel : vmFuel nodes = 2 * shownSize cfg 1 0 (valueInScope none t.hdr) 1 t.body +
      ((vmFuel nodes - 2 * shownSize cfg 1 0 (valueInScope none t.hdr) 1 t.body - 1) + 1) := by
    have h1 : vmFuel nodes = (nodes.map (fun y : Node => y.children.length)).sum + nodes.length :=
      sum_map_succ _ _
    have h2 := shownSize_le cfg t.body 1 0 (valueInScope none t.hdr) 1
    rw [hn.link, hn.length] at h1
    have h3 : (frames t).length = t.body.size + 1 := by simp [frames, subFrames_length]
    simp only [frames, List.map_cons, List.sum_cons] at h1
    have hv : FrameCtx.value ⟨0, none, 0, none, t.hdr, t.body, t.out⟩ = valueInScope none t.hdr := rfl
    simp only [hv] at h1
    rw [List.length_cons, subFrames_length] at h1
    simp only [Nat.zero_add] at h1
    omega
  have hb := vmLoop_body cfg nodes S t.body 1 0 (valueInScope none t.hdr) 1 [] x []
    ((vmFuel nodes - 2 * shownSize cfg 1 0 (valueInScope none t.hdr) 1 t.body - 1) + 1) [] hx0
    hlx.children (fun g hg => hn.get g (by simp [frames, hg]))
  rw [← hfuel] at hb
  cases nodes with
  | nil => simp at hx0
  | cons y ys =>
    have : y = x := by simpa using hx0
    subst this
    rw [vmTrace, show (0 : Nat) = ([] : List Nat).length from rfl, hb]
    cases dfs cfg (isLastStepStopOp (y :: ys)) S 1 0 (valueInScope none t.hdr) 1 [] t.body with
    | error ins => rfl
    | ok q =>
      simp only [contVm]
      rw [vmLoop, List.getElem?_eq_none_iff.2 (Nat.le_refl _)]
      simp only
      rw [show y.trace.steps = S 0 from hsx, show y.parent = none from hlx.parent]
      rcases instrLoop (isLastStepStopOp (y :: ys)) (S 0) q [] with ⟨stop, q2, ins⟩
      cases stop <;> rfl

/-! ### Counting -/

/-- Number of traces in a queue, with sub-traces. -/
def countList : List VmTrace → Nat
  | [] => 0
  | v :: q => v.count + countList q

theorem countList_append (a b : List VmTrace) : countList (a ++ b) = countList a + countList b := by
  induction a with
  | nil => simp [countList]
  | cons v a ih => simp only [List.cons_append, countList, ih]; omega

theorem countOps_append (a b : List VmInstruction) : countOps (a ++ b) = countOps a + countOps b := by
  induction a with
  | nil => simp [countOps]
  | cons v a ih => simp only [List.cons_append, countOps, ih]; omega

theorem countList_head_tail (q : List VmTrace) (step : CallTraceStep) :
    countOp (makeInstruction step q.head?) + countList q.tail = countList q := by
  cases q <;> simp [makeInstruction, countOp, countList]

theorem instrLoop_count (ls : Bool) (steps : List CallTraceStep) : ∀ (q : List VmTrace)
    (ins : List VmInstruction),
    countOps (instrLoop ls steps q ins).2.2 + countList (instrLoop ls steps q ins).2.1 ≤
      countOps ins + countList q := by
  induction steps with
  | nil => intro q ins; exact Nat.le_refl _
  | cons step steps ih =>
    intro q ins
    simp only [instrLoop]
    have ht : countList (if step.isCalllikeOp then q.tail else q) ≤ countList q := by
      split
      · cases q <;> simp [countList]
      · exact Nat.le_refl _
    split
    · dsimp only
      omega
    · refine Nat.le_trans (ih _ _) ?_
      rw [countOps_append]
      simp only [countOps]
      have hc := countList_head_tail q step
      by_cases hs : step.isCalllikeOp = true
      · simp only [hs, if_true]; omega
      · simp only [hs, Bool.false_eq_true, if_false, makeInstruction, countOp]; omega

/-- Size of the outcome of the walk. -/
def countRes : Except (List VmInstruction) (List VmTrace) → Nat
  | .error ins => countOps ins
  | .ok q => countList q

theorem dfs_count (cfg : Config) (ls : Bool) (S : Nat → List CallTraceStep) (b : Body) :
    ∀ d p v n q, countRes (dfs cfg ls S d p v n q b) ≤ countList q + shownSize cfg d p v n b := by
  induction b with
  | nil => intros; exact Nat.le_refl _
  | act a rest ih => intro d p v n q; exact ih d p v n q
  | sub h b o rest ihb ihr =>
    intro d p v n q
    simp only [dfs, shownSize]
    split
    · exact ihr ..
    · have h1 := ihb (d + 1) n (valueInScope (some v) h) (n + 1) q
      cases hd : dfs cfg ls S (d + 1) n (valueInScope (some v) h) (n + 1) q b with
      | error ins => rw [hd] at h1; simp only [countRes] at h1 ⊢; omega
      | ok q1 =>
        rw [hd] at h1
        simp only [countRes] at h1
        have h2 := instrLoop_count ls (S n) q1 []
        rcases hi : instrLoop ls (S n) q1 [] with ⟨stop, q2, ins⟩
        rw [hi] at h2
        simp only [countOps] at h2
        cases stop with
        | true => dsimp only; rw [hi]; simp only [countRes]; omega
        | false =>
          have h3 := ihr d p v (n + 1 + b.size) (q2 ++ [.mk [] ins])
          rw [countList_append] at h3
          simp only [countList, VmTrace.count] at h3
          dsimp only; rw [hi]; dsimp only
          omega

/-- The `vmTrace` has at most as many sub-traces as there are shown frames. -/
theorem vmTrace_count (cfg : Config) (t : Tx) (hwf : t.WF) (nodes : List Node)
    (S : Nat → List CallTraceStep) (hn : VmNodes cfg t nodes S) :
    ∃ v, vmTrace nodes = .ok v ∧ v.count ≤ (located cfg t).length := by
  refine ⟨_, vmTrace_eq cfg t hwf nodes S hn, ?_⟩
  rw [located, List.length_cons, shownSize_locate, VmTrace.count]
  have h1 := dfs_count cfg (isLastStepStopOp nodes) S t.body 1 0 (valueInScope none t.hdr) 1 []
  cases hd : dfs cfg (isLastStepStopOp nodes) S 1 0 (valueInScope none t.hdr) 1 [] t.body with
  | error ins => rw [hd] at h1; simp only [countRes, countList] at h1 ⊢; omega
  | ok q =>
    rw [hd] at h1
    have h2 := instrLoop_count (isLastStepStopOp nodes) (S 0) q []
    simp only [countRes, countList, countOps] at h1 h2 ⊢
    omega

end Verif.Par
