import Verif.Props.Links
import Verif.Model.Parity
/-!
# C31: the breadth-first walk
-/
namespace Verif.Props
open Spec Rec Parity

/-- The children of the node at a position. -/
def childrenAt (A : List Node) (i : Nat) : List Nat := ((A[i]?).map (·.children)).getD []

/-- The positions at distance `k` from the root through children, in order. -/
def level (A : List Node) : Nat → List Nat
  | 0 => [0]
  | k + 1 => (level A k).flatMap (childrenAt A)

/-- Reachable from the root through children. -/
inductive Reach (A : List Node) : Nat → Prop
  | root : Reach A 0
  | child {i c : Nat} : Reach A i → c ∈ childrenAt A i → Reach A c

theorem mem_childrenAt {A : List Node} (h : Links A) {i c : Nat} (hc : c ∈ childrenAt A i) :
    c < A.length ∧ i < c ∧ ∃ y, A[c]? = some y ∧ y.parent = some i := by
  unfold childrenAt at hc
  cases hx : A[i]? with
  | none => rw [hx] at hc; simp at hc
  | some x =>
    rw [hx] at hc
    simp only [Option.map_some, Option.getD_some] at hc
    rw [h.children i x hx, List.mem_filter] at hc
    obtain ⟨h1, h2⟩ := hc
    have hlt := List.mem_range.1 h1
    cases hy : A[c]? with
    | none => rw [hy] at h2; simp at h2
    | some y =>
      rw [hy] at h2
      simp only [Option.any_some, Bool.and_eq_true, decide_eq_true_eq] at h2
      have hc0 : c ≠ 0 := by
        intro h0; subst h0
        rw [(h.root y hy).1] at h2; simp at h2
      obtain ⟨p, z, h3, h4, _⟩ := h.parent c y hy hc0
      rw [h3] at h2
      have : p = i := by simpa using h2.1
      exact ⟨hlt, by omega, y, rfl, by rw [h3, this]⟩

theorem childrenAt_nodup {A : List Node} (h : Links A) (i : Nat) : (childrenAt A i).Nodup := by
  unfold childrenAt
  cases hx : A[i]? with
  | none => simp
  | some x =>
    simp only [Option.map_some, Option.getD_some]
    rw [h.children i x hx]
    exact List.nodup_range.sublist List.filter_sublist

/-- Invariant of the walk: `vis` has been yielded, `queue` is waiting. -/
structure WalkInv (A : List Node) (vis queue : List Nat) : Prop where
  nodup : (vis ++ queue).Nodup
  lt : ∀ c ∈ vis ++ queue, c < A.length
  reach : ∀ c ∈ vis ++ queue, Reach A c
  parent : ∀ c ∈ vis ++ queue, c = 0 ∨ ∃ p ∈ vis, c ∈ childrenAt A p
  closed : ∀ p ∈ vis, ∀ c ∈ childrenAt A p, c ∈ vis ++ queue
  root : 0 ∈ vis ++ queue

theorem WalkInv.step {A : List Node} (h : Links A) {vis queue : List Nat} {i : Nat}
    (hi : WalkInv A vis (i :: queue)) : WalkInv A (vis ++ [i]) (queue ++ childrenAt A i) := by
  have happ : vis ++ [i] ++ (queue ++ childrenAt A i) = (vis ++ i :: queue) ++ childrenAt A i := by simp
  have hsplit := hi.nodup
  rw [List.nodup_append] at hsplit
  have hiv : i ∉ vis := fun hm => hsplit.2.2 i hm i (by simp) rfl
  have hir := hi.reach i (by simp)
  refine ⟨?_, ?_, ?_, ?_, ?_, ?_⟩
  · rw [happ, List.nodup_append]
    refine ⟨hi.nodup, childrenAt_nodup h i, ?_⟩
    intro a ha b hb hab
    subst hab
    obtain ⟨_, hlt, y, hy, hpy⟩ := mem_childrenAt h hb
    rcases hi.parent a ha with h0 | ⟨p, hp, hap⟩
    · omega
    · obtain ⟨_, _, y', hy', hpy'⟩ := mem_childrenAt h hap
      rw [hy] at hy'; simp at hy'; subst hy'
      rw [hpy] at hpy'; simp at hpy'; subst hpy'
      exact hiv hp
  · rw [happ]
    intro c hc
    rcases List.mem_append.1 hc with hc | hc
    · exact hi.lt c hc
    · exact (mem_childrenAt h hc).1
  · rw [happ]
    intro c hc
    rcases List.mem_append.1 hc with hc | hc
    · exact hi.reach c hc
    · exact Reach.child hir hc
  · rw [happ]
    intro c hc
    rcases List.mem_append.1 hc with hc | hc
    · rcases hi.parent c hc with h0 | ⟨p, hp, hcp⟩
      · exact Or.inl h0
      · exact Or.inr ⟨p, List.mem_append_left _ hp, hcp⟩
    · exact Or.inr ⟨i, by simp, hc⟩
  · rw [happ]
    intro p hp c hc
    rcases List.mem_append.1 hp with hp | hp
    · exact List.mem_append_left _ (hi.closed p hp c hc)
    · simp at hp; subst hp; exact List.mem_append_right _ hc
  · rw [happ]; exact List.mem_append_left _ hi.root

theorem subset_length {A : List Node} {vis queue : List Nat} (hi : WalkInv A vis queue) :
    vis.length + queue.length ≤ A.length := by
  have : ∀ (l : List Nat) (n : Nat), l.Nodup → (∀ c ∈ l, c < n) → l.length ≤ n := by
    intro l n
    induction n generalizing l with
    | zero => intro _ h; cases l with
      | nil => simp
      | cons a l => exact absurd (h a (by simp)) (by omega)
    | succ n ih =>
      intro hn h
      have h1 := ih (l.erase n) (hn.erase n) (fun c hc => by
        have hc' := List.mem_of_mem_erase hc
        have := h c hc'
        have hne : c ≠ n := by
          intro he; subst he
          exact (List.Nodup.not_mem_erase hn) hc
        omega)
      have h2 := List.length_erase (a := n) (l := l)
      split at h2 <;> omega
  have := this _ _ hi.nodup hi.lt
  rwa [List.length_append] at this

theorem walkLoop_ok {A : List Node} (h : Links A) : ∀ (fuel : Nat) (vis queue : List Nat),
    WalkInv A vis queue → A.length ≤ vis.length + fuel →
    ∃ W, walkLoop A fuel queue = .ok W ∧ WalkInv A (vis ++ W.map (·.idx)) [] ∧
      ∀ x ∈ W, A[x.idx]? = some x := by
  intro fuel
  induction fuel with
  | zero =>
    intro vis queue hi hl
    cases queue with
    | nil => exact ⟨[], rfl, by simpa using hi, by simp⟩
    | cons i queue =>
      have := subset_length hi
      simp at this; omega
  | succ fuel ih =>
    intro vis queue hi hl
    cases queue with
    | nil => exact ⟨[], by simp [walkLoop], by simpa using hi, by simp⟩
    | cons i queue =>
      have hlt := hi.lt i (by simp)
      have hx := List.getElem?_eq_getElem hlt
      have hch : childrenAt A i = (A[i]).children := by simp [childrenAt, hx]
      have hst := hi.step h
      rw [hch] at hst
      obtain ⟨W, h1, h2, h3⟩ := ih _ _ hst (by simp; omega)
      have hidx := h.idx i _ hx
      refine ⟨A[i] :: W, ?_, ?_, ?_⟩
      · simp only [walkLoop, hx, h1]
      · simpa [hidx] using h2
      · intro x hx'
        rcases List.mem_cons.1 hx' with rfl | hx'
        · rw [hidx]; exact hx
        · exact h3 x hx'

theorem walkLoop_level {A : List Node} (h : Links A) : ∀ (q r : List Nat) (fuel : Nat) (W : List Node),
    walkLoop A fuel (q ++ r) = .ok W →
    ∃ W' fuel', W.map (·.idx) = q ++ W'.map (·.idx) ∧
      walkLoop A fuel' (r ++ q.flatMap (childrenAt A)) = .ok W' := by
  intro q
  induction q with
  | nil => intro r fuel W hw; exact ⟨W, fuel, rfl, by simpa using hw⟩
  | cons i q ih =>
    intro r fuel W hw
    cases fuel with
    | zero =>
      simp only [List.cons_append, walkLoop] at hw
      split at hw <;> cases hw
    | succ fuel =>
      simp only [List.cons_append, walkLoop] at hw
      cases hx : A[i]? with
      | none => rw [hx] at hw; simp at hw
      | some x =>
        rw [hx] at hw
        simp only at hw
        cases hw2 : walkLoop A fuel (q ++ r ++ x.children) with
        | error e => rw [hw2] at hw; simp at hw
        | ok W2 =>
          rw [hw2] at hw
          simp only [Except.ok.injEq] at hw
          rw [List.append_assoc] at hw2
          obtain ⟨W', fuel', h1, h2⟩ := ih _ _ _ hw2
          refine ⟨W', fuel', ?_, ?_⟩
          · rw [← hw]; simp [h.idx i x hx, h1]
          · have : childrenAt A i = x.children := by simp [childrenAt, hx]
            simpa [this] using h2

theorem level_ge {A : List Node} (h : Links A) : ∀ k, ∀ i ∈ level A k, k ≤ i ∧ i < A.length := by
  intro k
  induction k with
  | zero =>
    intro i hi
    simp [level] at hi
    have := h.nonempty
    have : 0 < A.length := List.length_pos_iff.2 this
    omega
  | succ k ih =>
    intro i hi
    obtain ⟨p, hp, hc⟩ := List.mem_flatMap.1 hi
    obtain ⟨h1, h2, _⟩ := mem_childrenAt h hc
    have := ih p hp
    omega

theorem walk_levels {A : List Node} (h : Links A) : ∀ (m k fuel : Nat) (W : List Node),
    walkLoop A fuel (level A k) = .ok W →
    ∃ W' fuel', W.map (·.idx) = (List.range' k m).flatMap (level A) ++ W'.map (·.idx) ∧
      walkLoop A fuel' (level A (k + m)) = .ok W' := by
  intro m
  induction m with
  | zero => intro k fuel W hw; exact ⟨W, fuel, rfl, hw⟩
  | succ m ih =>
    intro k fuel W hw
    obtain ⟨W', fuel', h1, h2⟩ := walkLoop_level h (level A k) [] fuel W (by simpa using hw)
    rw [List.nil_append] at h2
    obtain ⟨W'', fuel'', h3, h4⟩ := ih (k + 1) fuel' W' h2
    refine ⟨W'', fuel'', ?_, ?_⟩
    · rw [h1, h3, List.range'_succ, List.flatMap_cons, List.append_assoc]
    · rw [show k + (m + 1) = k + 1 + m by omega]; exact h4

theorem level_depth {A : List Node} (h : Links A) : ∀ k, ∀ i ∈ level A k, ∀ x, A[i]? = some x →
    x.trace.depth = k := by
  intro k
  induction k with
  | zero => intro i hi x hx; simp [level] at hi; subst hi; exact (h.root x hx).2
  | succ k ih =>
    intro i hi x hx
    obtain ⟨p, hp, hc⟩ := List.mem_flatMap.1 hi
    obtain ⟨_, hlt, y, hy, hpy⟩ := mem_childrenAt h hc
    obtain ⟨p', z, h3, _, h5, h6⟩ := h.parent i x hx (by omega)
    rw [hx] at hy; simp at hy; subst hy
    rw [hpy] at h3; simp at h3; subst h3
    rw [h6, ih p hp z h5]

/-- **C31.** For every recording (after any sequence of hook calls), the breadth-first walk ends
without panicking; it yields nodes of the arena, each node reachable from the root through children
exactly once and no others, level by level (all nodes of one depth before the next, the children of
an earlier node before those of a later one, siblings in call order). -/
theorem C31_breadth_first (cfg : Config) (es : List Event) (s : TI)
    (hr : TI.run cfg TI.new es = .ok s) :
    ∃ W, walkBF s.arena = .ok W ∧ (∀ x ∈ W, s.arena[x.idx]? = some x) ∧
      (W.map (·.idx)).Nodup ∧ (∀ i, i ∈ W.map (·.idx) ↔ Reach s.arena i) ∧
      W.map (·.idx) = (List.range s.arena.length).flatMap (level s.arena) ∧
      W.Pairwise (fun a b => a.trace.depth ≤ b.trace.depth) := by
  have h := C04_links cfg es s hr
  generalize s.arena = A at h
  have hpos : 0 < A.length := List.length_pos_iff.2 h.nonempty
  have hinit : WalkInv A [] [0] := by
    refine ⟨by simp, ?_, ?_, ?_, by simp, by simp⟩
    · intro c hc; simp at hc; omega
    · intro c hc; simp at hc; subst hc; exact Reach.root
    · intro c hc; simp at hc; exact Or.inl hc
  obtain ⟨W, h1, h2, h3⟩ := walkLoop_ok h A.length [] [0] hinit (by simp)
  rw [List.nil_append] at h2
  have hlev : W.map (·.idx) = (List.range A.length).flatMap (level A) := by
    obtain ⟨W', fuel', h4, h5⟩ := walk_levels h A.length 0 A.length W h1
    have : level A (0 + A.length) = [] := by
      apply List.eq_nil_iff_forall_not_mem.2
      intro i hi
      have := level_ge h _ i hi
      omega
    rw [this] at h5
    have : W' = [] := by cases fuel' <;> simp [walkLoop] at h5 <;> exact h5
    rw [h4, this, List.range_eq_range']; simp
  refine ⟨W, h1, h3, by simpa using h2.nodup, ?_, hlev, ?_⟩
  · intro i
    constructor
    · intro hi; exact h2.reach i (by simpa using hi)
    · intro hi
      have := h2.root
      have hcl := h2.closed
      simp only [List.append_nil] at this hcl
      induction hi with
      | root => exact this
      | child _ hc ih => exact hcl _ ih _ hc
  · have hp : ((List.range A.length).flatMap (level A)).Pairwise (fun i j => ∀ x y, A[i]? = some x →
        A[j]? = some y → x.trace.depth ≤ y.trace.depth) := by
      rw [List.pairwise_flatMap]
      constructor
      · intro k _
        rw [List.pairwise_iff_getElem]
        intro i j hi hj _ x y hx hy
        rw [level_depth h k _ (List.getElem_mem hi) x hx, level_depth h k _ (List.getElem_mem hj) y hy]
        exact Nat.le_refl _
      · refine List.Pairwise.imp ?_ List.pairwise_lt_range
        intro k l hkl i hi j hj x y hx hy
        rw [level_depth h k i hi x hx, level_depth h l j hj y hy]
        omega
    rw [← hlev, List.pairwise_map] at hp
    refine List.Pairwise.imp_of_mem ?_ hp
    intro a b ha hb hab
    exact hab a b (h3 a ha) (h3 b hb)

/-- The example: root, its three attached calls, then the library call (all configurations without
exclusion); with exclusion the precompile call (node 3) is not visited. -/
example : ∃ s W s' W', TI.run Config.all TI.new Example.tx.events = .ok s ∧ walkBF s.arena = .ok W ∧
    W.map (·.idx) = [0, 1, 3, 4, 2] ∧
    TI.run Config.defaultParity TI.new Example.tx.events = .ok s' ∧ walkBF s'.arena = .ok W' ∧
    W'.map (·.idx) = [0, 1, 4, 2] := by
  refine ⟨_, _, _, _, rfl, rfl, by decide, rfl, rfl, by decide⟩

end Verif.Props
