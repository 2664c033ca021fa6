import Verif.Props.Walk
import Verif.Model.Geth
import Verif.Lemmas.Vm
/-! Subtrees of an arena with consistent links. -/
namespace Verif.Props
open Spec Rec Parity

/-- The positions of the subtree of a node, cut at height `k`. -/
def pre (A : List Node) : Nat → Nat → List Nat
  | 0, _ => []
  | k + 1, i => i :: (childrenAt A i).flatMap (pre A k)

/-- The weights of the subtree of a node, cut at height `k`. -/
def sub (A : List Node) (w : Nat → Nat) : Nat → Nat → Nat
  | 0, _ => 0
  | k + 1, i => w i + ((childrenAt A i).map (sub A w k)).sum

theorem sum_flatMap (w : Nat → Nat) (f : Nat → List Nat) (l : List Nat) :
    ((l.flatMap f).map w).sum = (l.map (fun c => ((f c).map w).sum)).sum := by
  induction l with
  | nil => rfl
  | cons a l ih => simp only [List.flatMap_cons, List.map_append, List.sum_append, List.map_cons,
      List.sum_cons, ih]

theorem sub_eq (A : List Node) (w : Nat → Nat) : ∀ k i, sub A w k i = ((pre A k i).map w).sum
  | 0, _ => rfl
  | k + 1, i => by
    simp only [sub, pre, List.map_cons, List.sum_cons, sum_flatMap]
    congr 2
    apply List.map_congr_left
    intro c _
    exact sub_eq A w k c

/-- `x` is at or below `c`. -/
inductive Desc (A : List Node) (c : Nat) : Nat → Prop
  | refl : Desc A c c
  | step {p x : Nat} : Desc A c p → x ∈ childrenAt A p → Desc A c x

theorem Desc.le {A : List Node} (h : Links A) {c x : Nat} (hd : Desc A c x) : c ≤ x := by
  induction hd with
  | refl => exact Nat.le_refl _
  | step _ hx ih => have := (mem_childrenAt h hx).2.1; omega

theorem Desc.head {A : List Node} {i c x : Nat} (hc : c ∈ childrenAt A i) (hd : Desc A c x) :
    Desc A i x := by
  induction hd with
  | refl => exact .step .refl hc
  | step _ hx ih => exact .step ih hx

theorem parent_unique {A : List Node} (h : Links A) {p q x : Nat} (hp : x ∈ childrenAt A p)
    (hq : x ∈ childrenAt A q) : p = q := by
  obtain ⟨_, _, y, hy, hp'⟩ := mem_childrenAt h hp
  obtain ⟨_, _, z, hz, hq'⟩ := mem_childrenAt h hq
  rw [hy] at hz
  simp only [Option.some.injEq] at hz
  subst hz
  rw [hp'] at hq'
  simpa using hq'

/-- Subtrees of two children of a node are disjoint. -/
theorem desc_unique {A : List Node} (h : Links A) {i c c' : Nat} (hc : c ∈ childrenAt A i)
    (hc' : c' ∈ childrenAt A i) {x : Nat} (hx : Desc A c x) : Desc A c' x → c = c' := by
  induction hx with
  | refl =>
    intro hx'
    cases hx' with
    | refl => rfl
    | step hp hm =>
      have := parent_unique h hc hm
      subst this
      have h1 := hp.le h
      have h2 := (mem_childrenAt h hc').2.1
      omega
  | step hp hm ih =>
    intro hx'
    cases hx' with
    | refl =>
      have := parent_unique h hc' hm
      subst this
      have h1 := hp.le h
      have h2 := (mem_childrenAt h hc).2.1
      omega
    | step hp' hm' =>
      have := parent_unique h hm hm'
      subst this
      exact ih hp'

theorem pre_desc {A : List Node} : ∀ k i x, x ∈ pre A k i → Desc A i x
  | 0, _, _, h => nomatch h
  | k + 1, i, x, h => by
    simp only [pre, List.mem_cons, List.mem_flatMap] at h
    rcases h with rfl | ⟨c, hc, hx⟩
    · exact .refl
    · exact (pre_desc k c x hx).head hc

theorem nodup_flatMap {f : Nat → List Nat} {l : List Nat} (hl : l.Nodup) (hf : ∀ c ∈ l, (f c).Nodup)
    (hd : ∀ c ∈ l, ∀ c' ∈ l, ∀ x, x ∈ f c → x ∈ f c' → c = c') : (l.flatMap f).Nodup := by
  induction l with
  | nil => simp
  | cons a l ih =>
    rw [List.nodup_cons] at hl
    rw [List.flatMap_cons, List.nodup_append]
    refine ⟨hf a (by simp), ih hl.2 (fun c hc => hf c (by simp [hc]))
      (fun c hc c' hc' => hd c (by simp [hc]) c' (by simp [hc'])), ?_⟩
    intro x hx y hy hxy
    subst hxy
    obtain ⟨c, hc, hxc⟩ := List.mem_flatMap.1 hy
    have := hd a (by simp) c (by simp [hc]) x hx hxc
    subst this
    exact hl.1 hc

theorem pre_nodup {A : List Node} (h : Links A) : ∀ k i, (pre A k i).Nodup
  | 0, _ => by simp [pre]
  | k + 1, i => by
    simp only [pre, List.nodup_cons, List.mem_flatMap, not_exists, not_and]
    refine ⟨?_, nodup_flatMap (childrenAt_nodup h i) (fun c _ => pre_nodup h k c) ?_⟩
    · intro c hc hi
      have h1 := (pre_desc k c i hi).le h
      have h2 := (mem_childrenAt h hc).2.1
      omega
    · intro c hc c' hc' x hx hx'
      exact desc_unique h hc hc' (pre_desc k c x hx) (pre_desc k c' x hx')

theorem pre_lt {A : List Node} (h : Links A) : ∀ k i, i < A.length → ∀ x ∈ pre A k i, x < A.length
  | 0, _, _, _, hx => nomatch hx
  | k + 1, i, hi, x, hx => by
    simp only [pre, List.mem_cons, List.mem_flatMap] at hx
    rcases hx with rfl | ⟨c, hc, hx⟩
    · exact hi
    · exact pre_lt h k c (mem_childrenAt h hc).1 x hx

theorem sum_erase (w : Nat → Nat) (l : List Nat) (n : Nat) :
    (l.map w).sum ≤ ((l.erase n).map w).sum + w n := by
  induction l with
  | nil => simp
  | cons a l ih =>
    rw [List.erase_cons]
    split
    · rename_i h
      have : a = n := by simpa using h
      subst this
      simp only [List.map_cons, List.sum_cons]
      omega
    · simp only [List.map_cons, List.sum_cons]
      omega

theorem sum_le_range (w : Nat → Nat) : ∀ (n : Nat) (l : List Nat), l.Nodup → (∀ c ∈ l, c < n) →
    (l.map w).sum ≤ ((List.range n).map w).sum
  | 0, l, _, h => by
    cases l with
    | nil => simp
    | cons a l => exact absurd (h a (by simp)) (by omega)
  | n + 1, l, hn, h => by
    have h1 := sum_le_range w n (l.erase n) (hn.erase n) (fun c hc => by
      have := h c (List.mem_of_mem_erase hc)
      have hne : c ≠ n := by
        intro he; subst he
        exact (List.Nodup.not_mem_erase hn) hc
      omega)
    have h2 := sum_erase w l n
    rw [List.range_succ, List.map_append, List.sum_append]
    simp only [List.map_cons, List.map_nil, List.sum_cons, List.sum_nil]
    omega

/-- The weights of a subtree are at most all weights. -/
theorem sub_le {A : List Node} (h : Links A) (w : Nat → Nat) (k i : Nat) (hi : i < A.length) :
    sub A w k i ≤ ((List.range A.length).map w).sum := by
  rw [sub_eq]
  exact sum_le_range w _ _ (pre_nodup h k i) (pre_lt h k i hi)

theorem sum_range_get {α : Type} (f : α → Nat) (l : List α) :
    ((List.range l.length).map (fun i => ((l[i]?).map f).getD 0)).sum = (l.map f).sum := by
  induction l with
  | nil => rfl
  | cons a l ih =>
    rw [List.length_cons, List.range_succ_eq_map]
    simp only [List.map_cons, List.map_map, List.sum_cons, List.getElem?_cons_zero, Option.map_some,
      Option.getD_some, ← ih]
    rfl

theorem child_get {A : List Node} (h : Links A) {i c : Nat} {x : Node} (hx : A[i]? = some x)
    (hc : c ∈ x.children) : i < c ∧ c < A.length ∧ ∃ y, A[c]? = some y ∧ y.parent = some i := by
  have hm : c ∈ childrenAt A i := by simp [childrenAt, hx, hc]
  obtain ⟨h1, h2, h3⟩ := mem_childrenAt h hm
  exact ⟨h2, h1, h3⟩

/-! ### Struct logs -/

/-- Number of recorded steps of a node. -/
def stepsW (A : List Node) (i : Nat) : Nat := ((A[i]?).map (fun x => x.trace.steps.length)).getD 0

theorem fillLoop_items {A : List Node} (opts : GethOptions) (k : Nat) (x : Node)
    (ih : ∀ c ∈ x.children, ∃ y, A[c]? = some y ∧ ∀ (fuel : Nat) (stack : List StackItem)
      (st : FillState), sub A (stepsW A) k c ≤ fuel → ∃ fuel' st', fuel ≤ fuel' + sub A (stepsW A) k c ∧
        fillLoop A opts fuel (y.pushStepsOnStack stack) st = fillLoop A opts fuel' stack st') :
    ∀ (steps : List CallTraceStep) (cid fuel : Nat) (stack : List StackItem) (st : FillState),
      steps.length + ((x.children.drop cid).map (sub A (stepsW A) k)).sum ≤ fuel →
      ∃ fuel' st',
        fuel ≤ fuel' + (steps.length + ((x.children.drop cid).map (sub A (stepsW A) k)).sum) ∧
        fillLoop A opts fuel (x.callStepStackFrom cid steps ++ stack) st =
          fillLoop A opts fuel' stack st' := by
  intro steps
  induction steps with
  | nil => intro cid fuel stack st _; exact ⟨fuel, st, by omega, rfl⟩
  | cons step steps ihs =>
    intro cid fuel stack st hf
    obtain ⟨fuel, rfl⟩ : ∃ g, fuel = g + 1 := ⟨fuel - 1, by simp at hf; omega⟩
    have hplain : ∀ items, x.callStepStackFrom cid (step :: steps) = ⟨x, step, none⟩ :: items →
        items = x.callStepStackFrom cid steps → ∃ fuel' st',
        fuel + 1 ≤ fuel' + ((step :: steps).length +
          ((x.children.drop cid).map (sub A (stepsW A) k)).sum) ∧
        fillLoop A opts (fuel + 1) (x.callStepStackFrom cid (step :: steps) ++ stack) st =
          fillLoop A opts fuel' stack st' := by
      intro items h1 h2
      subst h2
      obtain ⟨fuel', st', h3, h4⟩ := ihs cid fuel stack (st.process opts x step)
        (by simp only [List.length_cons] at hf; omega)
      refine ⟨fuel', st', by simp only [List.length_cons]; omega, ?_⟩
      rw [h1, ← h4]
      rfl
    by_cases hcl : step.isCalllikeOp = true
    · cases hc : x.children[cid]? with
      | none => exact hplain _ (by simp only [Node.callStepStackFrom, hcl, if_true, hc]) rfl
      | some c =>
        have hlt := (List.getElem?_eq_some_iff.1 hc).1
        have hdrop : x.children.drop cid = c :: x.children.drop (cid + 1) := by
          rw [List.drop_eq_getElem_cons hlt]
          congr 1
          exact (List.getElem?_eq_some_iff.1 hc).2
        rw [hdrop] at hf ⊢
        simp only [List.map_cons, List.sum_cons, List.length_cons] at hf ⊢
        obtain ⟨y, hy, hyl⟩ := ih c (List.mem_of_getElem? hc)
        obtain ⟨f1, s1, h1, h2⟩ := hyl fuel (x.callStepStackFrom (cid + 1) steps ++ stack)
          (st.process opts x step) (by omega)
        obtain ⟨f2, s2, h3, h4⟩ := ihs (cid + 1) f1 stack s1 (by omega)
        refine ⟨f2, s2, by omega, ?_⟩
        rw [← h4, ← h2]
        simp only [Node.callStepStackFrom, hcl, if_true, hc, List.cons_append, fillLoop, hy]
    · exact hplain _ (by simp only [Node.callStepStackFrom, hcl, Bool.false_eq_true, if_false]) rfl

theorem fillLoop_node {A : List Node} (h : Links A) (opts : GethOptions) : ∀ (k i : Nat) (x : Node),
    A[i]? = some x → A.length ≤ k + i → ∀ (fuel : Nat) (stack : List StackItem) (st : FillState),
      sub A (stepsW A) k i ≤ fuel → ∃ fuel' st', fuel ≤ fuel' + sub A (stepsW A) k i ∧
        fillLoop A opts fuel (x.pushStepsOnStack stack) st = fillLoop A opts fuel' stack st'
  | 0, i, x, hx, hk => by
    have := (List.getElem?_eq_some_iff.1 hx).1
    omega
  | k + 1, i, x, hx, hk => by
    intro fuel stack st hf
    have hsub : sub A (stepsW A) (k + 1) i =
        x.trace.steps.length + ((x.children.drop 0).map (sub A (stepsW A) k)).sum := by
      simp [sub, stepsW, childrenAt, hx]
    rw [hsub] at hf ⊢
    refine fillLoop_items opts k x ?_ x.trace.steps 0 fuel stack st hf
    intro c hc
    obtain ⟨h1, h2, y, hy, _⟩ := child_get h hx hc
    exact ⟨y, hy, fillLoop_node h opts k c y hy (by omega)⟩

/-! ### vmTrace -/

/-- The iterations a node takes by itself. -/
def kidsW (A : List Node) (i : Nat) : Nat := ((A[i]?).map (fun x => x.children.length + 1)).getD 0

/-- The loop from a node with some of its children left either ends or goes on with its parent; it
takes at most `cost` iterations and makes at most `size` traces. -/
def VmDone (A : List Node) (x : Node) (ci cost size : Nat) : Prop :=
  ∀ (fuel : Nat) (stack : List Nat) (q : List VmTrace), cost ≤ fuel →
    (∃ ins, vmLoop A fuel stack q x ci = .ok ins ∧ 1 + countOps ins ≤ Par.countList q + size) ∨
    ∃ p, x.parent = some p ∧ ∃ fuel' q', fuel ≤ fuel' + cost ∧
      Par.countList q' ≤ Par.countList q + size ∧
      ∀ cj stack' y, stack = cj :: stack' → A[p]? = some y →
        vmLoop A fuel stack q x ci = vmLoop A fuel' stack' q' y cj

theorem vmLoop_kids {A : List Node} (k i : Nat) (x : Node) (hx : A[i]? = some x)
    (ih : ∀ c ∈ x.children, ∃ y, A[c]? = some y ∧ y.parent = some i ∧
      VmDone A y 0 (sub A (kidsW A) k c) (sub A (fun _ => 1) k c)) :
    ∀ (m ci : Nat), x.children.length - ci = m →
      VmDone A x ci (m + 1 + ((x.children.drop ci).map (sub A (kidsW A) k)).sum)
        (1 + ((x.children.drop ci).map (sub A (fun _ => 1) k)).sum) := by
  intro m
  induction m with
  | zero =>
    intro ci hm fuel stack q hf
    obtain ⟨fuel, rfl⟩ : ∃ g, fuel = g + 1 := ⟨fuel - 1, by omega⟩
    have hnone : x.children[ci]? = none := List.getElem?_eq_none (by omega)
    cases hil : instrLoop (isLastStepStopOp A) x.trace.steps q [] with
    | mk b r =>
      obtain ⟨q', ins⟩ := r
      have hcnt := Par.instrLoop_count (isLastStepStopOp A) x.trace.steps q []
      rw [hil] at hcnt
      simp only [countOps] at hcnt
      cases b with
      | true => exact Or.inl ⟨ins, by simp only [vmLoop, hnone, hil], by omega⟩
      | false =>
        cases hp : x.parent with
        | none => exact Or.inl ⟨ins, by simp only [vmLoop, hnone, hil, hp], by omega⟩
        | some p =>
          refine Or.inr ⟨p, rfl, fuel, q' ++ [.mk [] ins], by omega, ?_, ?_⟩
          · rw [Par.countList_append]
            simp only [Par.countList, VmTrace.count]
            omega
          intro cj stack' y hs hy
          subst hs
          simp only [vmLoop, hnone, hil, hp, hy]
  | succ m ihm =>
    intro ci hm fuel stack q hf
    have hlt : ci < x.children.length := by omega
    have hc := List.getElem?_eq_getElem hlt
    obtain ⟨y, hy, hpar, hdone⟩ := ih _ (List.getElem_mem hlt)
    rw [List.drop_eq_getElem_cons hlt] at hf ⊢
    simp only [List.map_cons, List.sum_cons] at hf ⊢
    obtain ⟨fuel, rfl⟩ : ∃ g, fuel = g + 1 := ⟨fuel - 1, by omega⟩
    have hstep : vmLoop A (fuel + 1) stack q x ci = vmLoop A fuel ((ci + 1) :: stack) q y 0 := by
      simp only [vmLoop, hc, hy]
    rw [hstep]
    rcases hdone fuel ((ci + 1) :: stack) q (by omega) with ⟨ins, hok, hsz⟩ | ⟨p, hp, f1, q1, h1, hq1, h2⟩
    · exact Or.inl ⟨ins, hok, by omega⟩
    · rw [hpar] at hp
      simp only [Option.some.injEq] at hp
      subst hp
      rw [h2 (ci + 1) stack x rfl hx]
      rcases ihm (ci + 1) (by omega) f1 stack q1 (by omega) with
        ⟨ins, hok, hsz⟩ | ⟨p, hp, f2, q2, h3, hq2, h4⟩
      · exact Or.inl ⟨ins, hok, by omega⟩
      · exact Or.inr ⟨p, hp, f2, q2, by omega, by omega, h4⟩

theorem vmLoop_node {A : List Node} (h : Links A) : ∀ (k i : Nat) (x : Node),
    A[i]? = some x → A.length ≤ k + i →
      VmDone A x 0 (sub A (kidsW A) k i) (sub A (fun _ => 1) k i)
  | 0, i, x, hx, hk => by
    have := (List.getElem?_eq_some_iff.1 hx).1
    omega
  | k + 1, i, x, hx, hk => by
    have hsub : sub A (kidsW A) (k + 1) i =
        x.children.length + 1 + ((x.children.drop 0).map (sub A (kidsW A) k)).sum := by
      simp [sub, kidsW, childrenAt, hx]
    have hone : sub A (fun _ => 1) (k + 1) i =
        1 + ((x.children.drop 0).map (sub A (fun _ => 1) k)).sum := by
      simp [sub, childrenAt, hx]
    rw [hsub, hone]
    refine vmLoop_kids k i x hx ?_ _ 0 (by omega)
    intro c hc
    obtain ⟨h1, h2, y, hy, hp⟩ := child_get h hx hc
    exact ⟨y, hy, hp, vmLoop_node h k c y hy (by omega)⟩

end Verif.Props
