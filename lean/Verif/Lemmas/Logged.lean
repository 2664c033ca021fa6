import Verif.Lemmas.Parity
import Verif.Spec.Logged
/-! The loop of `fill_geth_trace` for any recorded arena. -/
namespace Verif
namespace Rec
open Spec

/-- `weave`, with the step made for each instruction. -/
def weave3 (cfg : Config) (f : FrameCtx) : List Instr → Option CallTraceStep →
    List (List (FrameCtx × Instr × CallTraceStep)) → List (FrameCtx × Instr × CallTraceStep)
  | [], _, _ => []
  | a :: as, prev, subs =>
    (f, a, stepFor cfg (f.depth + 1) a prev) ::
      (if entersFrame a.before.op then
          subs.head?.getD [] ++ weave3 cfg f as (some (stepFor cfg (f.depth + 1) a prev)) subs.tail
        else weave3 cfg f as (some (stepFor cfg (f.depth + 1) a prev)) subs)

/-- `loggedBelow`, with the step made for each instruction. -/
def below3 (cfg : Config) : (d p : Nat) → (v : U256) → (n : Nat) → Body →
    List (List (FrameCtx × Instr × CallTraceStep))
  | _, _, _, _, .nil => []
  | d, p, v, n, .act _ rest => below3 cfg d p v n rest
  | d, p, v, n, .sub h b o rest =>
    (if Spec.excluded cfg ⟨n, some p, d, some v, h, b, o⟩ then []
      else [weave3 cfg ⟨n, some p, d, some v, h, b, o⟩ (instrs cfg b) none
        (below3 cfg (d + 1) n (valueInScope (some v) h) (n + 1) b)]) ++
      below3 cfg d p v (n + 1 + b.size) rest

/-- Forget the steps. -/
def drop3 (e : FrameCtx × Instr × CallTraceStep) : FrameCtx × Instr := (e.1, e.2.1)

theorem weave3_weave (cfg : Config) (f : FrameCtx) (as : List Instr) : ∀ prev subs,
    (weave3 cfg f as prev subs).map drop3 = weave f as (subs.map (List.map drop3)) := by
  induction as with
  | nil => intros; rfl
  | cons a as ih =>
    intro prev subs
    simp only [weave3, weave, List.map_cons]
    congr 1
    by_cases h : entersFrame a.before.op = true
    · simp only [h, if_true, List.map_append, ih, List.map_tail, List.head?_map]
      cases subs.head? <;> rfl
    · simp only [h, Bool.false_eq_true, if_false, ih]

theorem below3_logged (cfg : Config) (b : Body) : ∀ d p v n,
    (below3 cfg d p v n b).map (List.map drop3) = loggedBelow cfg d p v n b := by
  induction b with
  | nil => intros; rfl
  | act a rest ih => intro d p v n; exact ih d p v n
  | sub h b o rest ihb ihr =>
    intro d p v n
    simp only [below3, loggedBelow, List.map_append, ihr]
    congr 1
    split
    · rfl
    · simp only [List.map_cons, List.map_nil, weave3_weave, ihb]

/-- The items of a node lead to the given steps being processed. -/
def Loops (cfg : Config) (nodes : List Node) (opts : GethOptions) (i : Nat)
    (l : List (FrameCtx × Instr × CallTraceStep)) : Prop :=
  ∃ x, nodes[i]? = some x ∧ ∀ fuel K st,
    fillLoop nodes opts (l.length + fuel) (x.callStepStack ++ K) st =
      fillLoop nodes opts fuel K (processAll cfg opts st l)

/-- Element by element. -/
inductive AllLoops (cfg : Config) (nodes : List Node) (opts : GethOptions) :
    List Nat → List (List (FrameCtx × Instr × CallTraceStep)) → Prop
  | nil : AllLoops cfg nodes opts [] []
  | cons {i l is ls} : Loops cfg nodes opts i l → AllLoops cfg nodes opts is ls →
      AllLoops cfg nodes opts (i :: is) (l :: ls)

theorem AllLoops.append {cfg nodes opts is ls js ks} (h : AllLoops cfg nodes opts is ls)
    (h' : AllLoops cfg nodes opts js ks) : AllLoops cfg nodes opts (is ++ js) (ls ++ ks) := by
  induction h with
  | nil => exact h'
  | cons h _ ih => exact .cons h ih

theorem fillLoop_weave (cfg : Config) (nodes : List Node) (opts : GethOptions) (f : FrameCtx)
    (as : List Instr) : ∀ prev cs ls, AllLoops cfg nodes opts cs ls → ∀ fuel K st,
    fillLoop nodes opts ((weave3 cfg f as prev ls).length + fuel)
        (tagItems (nodeOf cfg f) (stepsFor cfg (f.depth + 1) as prev) cs ++ K) st =
      fillLoop nodes opts fuel K (processAll cfg opts st (weave3 cfg f as prev ls)) := by
  induction as with
  | nil => intro prev cs ls _ fuel K st; simp [weave3, stepsFor, tagItems, processAll]
  | cons a as ih =>
    intro prev cs ls hl fuel K st
    have hcl : (stepFor cfg (f.depth + 1) a prev).isCalllikeOp = entersFrame a.before.op :=
      stepFor_calllike cfg (f.depth + 1) a prev
    simp only [weave3, stepsFor, tagItems, hcl]
    by_cases h : entersFrame a.before.op = true
    · simp only [h, if_true]
      cases hl with
      | nil =>
        simp only [List.head?_nil, Option.getD_none, List.tail_nil, List.nil_append, List.cons_append,
          List.length_cons, Nat.add_right_comm _ 1 fuel, fillLoop]
        exact ih _ [] [] .nil fuel K _
      | cons h1 h2 =>
        rename_i c l cs ls
        obtain ⟨x, hx, hloop⟩ := h1
        simp only [List.head?_cons, Option.getD_some, List.tail_cons, List.cons_append,
          List.length_cons, List.length_append, Nat.add_right_comm _ 1 fuel, fillLoop, hx,
          Node.pushStepsOnStack]
        rw [Nat.add_assoc, hloop, ih _ cs ls h2]
        simp only [processAll, List.foldl_cons, List.foldl_append]
    · simp only [h, Bool.false_eq_true, if_false, List.cons_append, List.length_cons,
        Nat.add_right_comm _ 1 fuel, fillLoop]
      exact ih _ cs ls hl fuel K _

theorem allLoops_below (cfg : Config) (nodes : List Node) (opts : GethOptions) (b : Body) :
    ∀ d p v n, b.WF →
    (∀ g ∈ subFrames d p v n b, nodes[g.index]? = some (nodeOf cfg g)) →
    AllLoops cfg nodes opts (ownChildren cfg d p v n b) (below3 cfg d p v n b) := by
  induction b with
  | nil => intros; exact .nil
  | act a rest ih => intro d p v n hwf hn; exact ih d p v n hwf hn
  | sub h b o rest ihb ihr =>
    intro d p v n hwf hn
    simp only [ownChildren, below3]
    have hwfb : b.WF := hwf.2.2.1
    have hwfr : rest.WF := hwf.2.2.2
    apply AllLoops.append
    · split
      · exact .nil
      · refine .cons ⟨nodeOf cfg ⟨n, some p, d, some v, h, b, o⟩, hn ⟨n, some p, d, some v, h, b, o⟩ (by simp [subFrames]), ?_⟩ .nil
        intro fuel K st
        have := fillLoop_weave cfg nodes opts ⟨n, some p, d, some v, h, b, o⟩ (instrs cfg b) none _ _
          (ihb (d + 1) n (valueInScope (some v) h) (n + 1) hwfb
            (fun g hg => hn g (by simp only [subFrames, List.mem_cons, List.mem_append]; exact Or.inr (Or.inl hg))))
          fuel K st
        rw [Node.callStepStack, callStepStackFrom_eq, List.drop_zero, nodeOf_steps,
          nodeOf_children cfg _ hwfb]
        exact this
    · exact ihr d p v (n + 1 + b.size) hwfr
        (fun g hg => hn g (by simp only [subFrames, List.mem_cons, List.mem_append]; exact Or.inr (Or.inr hg)))

theorem weave3_length (cfg : Config) (f : FrameCtx) (as : List Instr) : ∀ prev subs,
    (weave3 cfg f as prev subs).length ≤ as.length + (subs.map List.length).sum := by
  induction as with
  | nil => intros; simp [weave3]
  | cons a as ih =>
    intro prev subs
    simp only [weave3, List.length_cons]
    split
    · cases subs with
      | nil => have := ih (some (stepFor cfg (f.depth + 1) a prev)) []; simp at this ⊢; omega
      | cons l ls =>
        have := ih (some (stepFor cfg (f.depth + 1) a prev)) ls
        simp only [List.head?_cons, Option.getD_some, List.tail_cons, List.length_append, List.map_cons,
          List.sum_cons]
        omega
    · have := ih (some (stepFor cfg (f.depth + 1) a prev)) subs; omega

theorem below3_length (cfg : Config) (b : Body) : ∀ d p v n,
    ((below3 cfg d p v n b).map List.length).sum ≤
      ((subFrames d p v n b).map (fun g => (instrs cfg g.body).length)).sum := by
  induction b with
  | nil => intros; simp [below3]
  | act a rest ih => intro d p v n; exact ih d p v n
  | sub h b o rest ihb ihr =>
    intro d p v n
    simp only [below3, subFrames, List.map_append, List.sum_append, List.map_cons, List.sum_cons]
    have h1 := ihb (d + 1) n (valueInScope (some v) h) (n + 1)
    have h2 := ihr d p v (n + 1 + b.size)
    split
    · simp only [List.map_nil, List.sum_nil]; omega
    · have h3 := weave3_length cfg ⟨n, some p, d, some v, h, b, o⟩ (instrs cfg b) none
        (below3 cfg (d + 1) n (valueInScope (some v) h) (n + 1) b)
      simp only [List.map_cons, List.map_nil, List.sum_cons, List.sum_nil]
      omega

/-- The steps that are processed for a transaction. -/
def tx3 (cfg : Config) (t : Tx) : List (FrameCtx × Instr × CallTraceStep) :=
  weave3 cfg (rootOf t) (instrs cfg t.body) none (below3 cfg 1 0 (valueInScope none t.hdr) 1 t.body)

theorem tx3_logged (cfg : Config) (t : Tx) : (tx3 cfg t).map drop3 = logged cfg t := by
  rw [tx3, weave3_weave, below3_logged]; rfl

theorem totalSteps_ge (cfg : Config) (t : Tx) :
    (tx3 cfg t).length ≤ totalSteps ((frames t).map (nodeOf cfg)) := by
  simp only [totalSteps, List.map_map, frames, List.map_cons, List.sum_cons]
  have h : ∀ g : FrameCtx, ((fun x : Node => x.trace.steps.length) ∘ nodeOf cfg) g =
      (instrs cfg g.body).length := by
    intro g; simp [nodeOf_steps, stepsFor_length]
  rw [show (fun x : Node => x.trace.steps.length) ∘ nodeOf cfg =
    fun g : FrameCtx => (instrs cfg g.body).length from funext h]
  simp only [nodeOf_steps, stepsFor_length]
  have h1 := weave3_length cfg (rootOf t) (instrs cfg t.body) none
    (below3 cfg 1 0 (valueInScope none t.hdr) 1 t.body)
  have h2 := below3_length cfg t.body 1 0 (valueInScope none t.hdr) 1
  rw [tx3]
  omega

theorem fillLoop_nil (nodes : List Node) (opts : GethOptions) (fuel : Nat) (st : FillState) :
    fillLoop nodes opts fuel [] st = .ok st := by
  cases fuel <;> rfl

/-- The struct logs of any recorded transaction. -/
theorem gethTraces_any (cfg : Config) (t : Tx) (opts : GethOptions) (gas : Nat) (ret : Bytes)
    (hwf : t.WF) :
    gethTraces ((frames t).map (nodeOf cfg)) gas ret opts = .ok
      { failed := !t.out.result.result.isOk, gas := gas, returnValue := ret,
        structLogs := (processAll cfg opts {} (tx3 cfg t)).logs } := by
  have hcons : (frames t).map (nodeOf cfg) =
      nodeOf cfg (rootOf t) :: (subFrames 1 0 (valueInScope none t.hdr) 1 t.body).map (nodeOf cfg) := rfl
  have hbelow := allLoops_below cfg ((frames t).map (nodeOf cfg)) opts t.body 1 0
    (valueInScope none t.hdr) 1 hwf.2.2
    (fun g hg => frames_lookup cfg t g (by simp only [frames, List.mem_cons]; exact Or.inr hg))
  have hloop := fillLoop_weave cfg ((frames t).map (nodeOf cfg)) opts (rootOf t) (instrs cfg t.body)
    none _ _ hbelow
    (totalSteps ((frames t).map (nodeOf cfg)) - (tx3 cfg t).length) [] {}
  have hge := totalSteps_ge cfg t
  rw [show weave3 cfg (rootOf t) (instrs cfg t.body) none
    (below3 cfg 1 0 (valueInScope none t.hdr) 1 t.body) = tx3 cfg t from rfl,
    Nat.add_sub_cancel' hge, fillLoop_nil, List.append_nil] at hloop
  have hfill : fillGethTrace ((frames t).map (nodeOf cfg)) (nodeOf cfg (rootOf t)) opts {} =
      .ok (processAll cfg opts {} (tx3 cfg t)) := by
    rw [fillGethTrace, Node.pushStepsOnStack, List.append_nil, Node.callStepStack,
      callStepStackFrom_eq, List.drop_zero, nodeOf_steps, nodeOf_children cfg (rootOf t) hwf.2.2]
    exact hloop
  have hsucc : (nodeOf cfg (rootOf t)).trace.success = t.out.result.result.isOk := by
    simp only [nodeOf, leaveNode, TI.fillTrace]
    split <;> rfl
  unfold gethTraces
  rw [hcons]
  dsimp only
  rw [← hcons, hfill]
  simp only [hsucc]

theorem weave3_mem (cfg : Config) (f : FrameCtx) (as : List Instr) : ∀ prev subs,
    ∀ e ∈ weave3 cfg f as prev subs, (∃ l ∈ subs, e ∈ l) ∨
      (e.1 = f ∧ e.2.1 ∈ as ∧ ∃ prev, e.2.2 = stepFor cfg (e.1.depth + 1) e.2.1 prev) := by
  induction as with
  | nil => intro prev subs e he; simp [weave3] at he
  | cons a as ih =>
    intro prev subs e he
    simp only [weave3, List.mem_cons] at he
    rcases he with rfl | he
    · exact Or.inr ⟨rfl, by simp, prev, rfl⟩
    · split at he
      · cases subs with
        | nil =>
          simp only [List.head?_nil, Option.getD_none, List.nil_append, List.tail_nil] at he
          rcases ih _ _ e he with h | ⟨h1, h2, h3⟩
          · exact Or.inl h
          · exact Or.inr ⟨h1, by simp [h2], h3⟩
        | cons l ls =>
          simp only [List.head?_cons, Option.getD_some, List.tail_cons, List.mem_append] at he
          rcases he with he | he
          · exact Or.inl ⟨l, by simp, he⟩
          · rcases ih _ _ e he with ⟨l', hl', h⟩ | ⟨h1, h2, h3⟩
            · exact Or.inl ⟨l', by simp [hl'], h⟩
            · exact Or.inr ⟨h1, by simp [h2], h3⟩
      · rcases ih _ _ e he with h | ⟨h1, h2, h3⟩
        · exact Or.inl h
        · exact Or.inr ⟨h1, by simp [h2], h3⟩

theorem instrs_spec (cfg : Config) {P : Interp → Ctx → Interp → Ctx → Prop} (b : Body)
    (h : b.AllSteps P) : ∀ a ∈ instrs cfg b, records cfg a.before.op = true ∧
      ∀ i' c', a.after = some (i', c') → P a.before a.ctx i' c' := by
  induction b with
  | nil => intro a ha; simp [instrs] at ha
  | act x rest ih =>
    cases x with
    | step i c i' c' =>
      intro a ha
      simp only [instrs, List.mem_append] at ha
      rcases ha with ha | ha
      · split at ha
        · rename_i hr
          simp only [List.mem_singleton] at ha
          subst ha
          refine ⟨hr, ?_⟩
          intro j c'' he
          simp only [Option.some.injEq, Prod.mk.injEq] at he
          obtain ⟨rfl, rfl⟩ := he
          exact h.1
        · simp at ha
      · exact ih h.2 a ha
    | aborted i c =>
      intro a ha
      simp only [instrs, List.mem_append] at ha
      rcases ha with ha | ha
      · split at ha
        · rename_i hr
          simp only [List.mem_singleton] at ha
          subst ha
          exact ⟨hr, by intro _ _ he; simp at he⟩
        · simp at ha
      · exact ih h a ha
    | log c l => exact ih h
    | selfdestruct a b c => exact ih h
  | sub hd b o rest _ ihr => exact ihr h.2

theorem below3_spec (cfg : Config) {P : Interp → Ctx → Interp → Ctx → Prop} (b : Body)
    (h : b.AllSteps P) : ∀ d p v n, ∀ l ∈ below3 cfg d p v n b, ∀ e ∈ l,
      records cfg e.2.1.before.op = true ∧
      (∀ i' c', e.2.1.after = some (i', c') → P e.2.1.before e.2.1.ctx i' c') ∧
      ∃ prev, e.2.2 = stepFor cfg (e.1.depth + 1) e.2.1 prev := by
  induction b with
  | nil => intro d p v n l hl; simp [below3] at hl
  | act x rest ih =>
    intro d p v n l hl
    refine ih ?_ d p v n l hl
    cases x with
    | step => exact h.2
    | aborted => exact h
    | log => exact h
    | selfdestruct => exact h
  | sub hd b o rest ihb ihr =>
    intro d p v n l hl
    simp only [below3, List.mem_append] at hl
    rcases hl with hl | hl
    · split at hl
      · simp at hl
      · simp only [List.mem_singleton] at hl
        subst hl
        intro e he
        rcases weave3_mem cfg _ _ _ _ e he with ⟨l, hl, hel⟩ | ⟨_, h2, h3⟩
        · exact ihb h.1 _ _ _ _ l hl e hel
        · obtain ⟨r1, r2⟩ := instrs_spec cfg b h.1 _ h2
          exact ⟨r1, r2, h3⟩
    · exact ihr h.2 _ _ _ _ l hl

theorem tx3_spec (cfg : Config) (t : Tx) (h : Safe cfg t.body) : ∀ e ∈ tx3 cfg t,
      records cfg e.2.1.before.op = true ∧
      (∀ i' c', e.2.1.after = some (i', c') → StepSafe cfg e.2.1.before e.2.1.ctx i' c') ∧
      ∃ prev, e.2.2 = stepFor cfg (e.1.depth + 1) e.2.1 prev := by
  intro e he
  rcases weave3_mem cfg _ _ _ _ e he with ⟨l, hl, hel⟩ | ⟨_, h2, h3⟩
  · exact below3_spec cfg t.body h _ _ _ _ l hl e hel
  · obtain ⟨r1, r2⟩ := instrs_spec cfg t.body h _ h2
    exact ⟨r1, r2, h3⟩

theorem weave3_at (cfg : Config) (f : FrameCtx) (as : List Instr) : ∀ prev subs,
    ∀ e ∈ weave3 cfg f as prev subs, (∃ l ∈ subs, e ∈ l) ∨
      (e.1 = f ∧ ∃ j : Nat, as[j]? = some e.2.1 ∧
        (stepsFor cfg (f.depth + 1) as prev)[j]? = some e.2.2) := by
  induction as with
  | nil => intro prev subs e he; simp [weave3] at he
  | cons a as ih =>
    intro prev subs e he
    have hlater : ∀ subs', (∀ l ∈ subs', l ∈ subs) →
        e ∈ weave3 cfg f as (some (stepFor cfg (f.depth + 1) a prev)) subs' →
        (∃ l ∈ subs, e ∈ l) ∨ (e.1 = f ∧ ∃ j : Nat, (a :: as)[j]? = some e.2.1 ∧
          (stepsFor cfg (f.depth + 1) (a :: as) prev)[j]? = some e.2.2) := by
      intro subs' hsub he
      rcases ih _ _ e he with ⟨l, hl, h⟩ | ⟨h1, j, h2, h3⟩
      · exact Or.inl ⟨l, hsub l hl, h⟩
      · exact Or.inr ⟨h1, j + 1, h2, h3⟩
    simp only [weave3, List.mem_cons] at he
    rcases he with rfl | he
    · exact Or.inr ⟨rfl, 0, rfl, rfl⟩
    · split at he
      · rcases List.mem_append.1 he with he | he
        · cases subs with
          | nil => simp at he
          | cons l ls => exact Or.inl ⟨l, by simp, he⟩
        · exact hlater _ (fun l hl => List.mem_of_mem_tail hl) he
      · exact hlater _ (fun _ h => h) he

theorem below3_at (cfg : Config) (b : Body) : ∀ d p v n, ∀ l ∈ below3 cfg d p v n b, ∀ e ∈ l,
      e.1 ∈ subFrames d p v n b ∧ ∃ j : Nat, (instrs cfg e.1.body)[j]? = some e.2.1 ∧
        (stepsFor cfg (e.1.depth + 1) (instrs cfg e.1.body) none)[j]? = some e.2.2 := by
  induction b with
  | nil => intro d p v n l hl; simp [below3] at hl
  | act x rest ih => intro d p v n l hl; exact ih d p v n l hl
  | sub hd b o rest ihb ihr =>
    intro d p v n l hl e he
    simp only [below3, List.mem_append] at hl
    simp only [subFrames, List.mem_cons, List.mem_append]
    rcases hl with hl | hl
    · split at hl
      · simp at hl
      · simp only [List.mem_singleton] at hl
        subst hl
        rcases weave3_at cfg _ _ _ _ e he with ⟨l, hl, hel⟩ | ⟨h1, h2⟩
        · obtain ⟨r1, r2⟩ := ihb _ _ _ _ l hl e hel
          exact ⟨Or.inr (Or.inl r1), r2⟩
        · rw [h1]
          exact ⟨Or.inl rfl, h2⟩
    · obtain ⟨r1, r2⟩ := ihr _ _ _ _ l hl e he
      exact ⟨Or.inr (Or.inr r1), r2⟩

/-- The frame and the position of each listed instruction. -/
theorem tx3_at (cfg : Config) (t : Tx) : ∀ e ∈ tx3 cfg t, e.1 ∈ frames t ∧
    ∃ j : Nat, (instrs cfg e.1.body)[j]? = some e.2.1 ∧
      (stepsFor cfg (e.1.depth + 1) (instrs cfg e.1.body) none)[j]? = some e.2.2 := by
  intro e he
  simp only [frames, List.mem_cons]
  rcases weave3_at cfg _ _ _ _ e he with ⟨l, hl, hel⟩ | ⟨h1, h2⟩
  · obtain ⟨r1, r2⟩ := below3_at cfg t.body _ _ _ _ l hl e hel
    exact ⟨Or.inr r1, r2⟩
  · rw [h1]
    exact ⟨Or.inl rfl, h2⟩

end Rec
end Verif
