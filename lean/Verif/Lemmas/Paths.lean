import Verif.Lemmas.Parity
/-! Paths of shown frames: following, order, completeness. -/
namespace Verif.Par
open Spec Rec Parity

theorem follow_append (cfg : Config) (q : List Nat) : ∀ (p : List Nat) (f : FrameCtx),
    follow cfg f (p ++ q) = (follow cfg f p).bind (fun g => follow cfg g q) := by
  intro p
  induction p with
  | nil => intro f; rfl
  | cons i p ih =>
    intro f
    simp only [List.cons_append, follow]
    cases (shownCalls cfg f)[i]? with
    | none => rfl
    | some g => exact ih g

theorem follow_snoc (cfg : Config) (f : FrameCtx) (p : List Nat) (i : Nat) :
    follow cfg f (p ++ [i]) = (follow cfg f p).bind (fun g => (shownCalls cfg g)[i]?) := by
  rw [follow_append]
  cases follow cfg f p with
  | none => rfl
  | some g =>
    simp only [Option.bind_some, follow]
    cases (shownCalls cfg g)[i]? <;> rfl

/-- The path of every located frame leads to it. -/
theorem locate_follow (cfg : Config) (r : FrameCtx) (b : Body) :
    ∀ (d p : Nat) (v : U256) (n : Nat) (path : List Nat) (k : Nat) (f : FrameCtx) (pre : List FrameCtx),
    follow cfg r path = some f → shownCalls cfg f = pre ++ shownBelow cfg d p v n b → pre.length = k →
    ∀ e ∈ locate cfg d p v n path k b, follow cfg r e.1 = some e.2 := by
  induction b with
  | nil => intro d p v n path k f pre _ _ _ e he; simp [locate] at he
  | act a rest ih => intro d p v n path k f pre h1 h2 h3 e he; exact ih d p v n path k f pre h1 h2 h3 e he
  | sub h b o rest ihb ihr =>
    intro d p v n path k f pre h1 h2 h3 e he
    simp only [locate] at he
    simp only [shownBelow] at h2
    split at he
    · rename_i hx
      rw [if_pos hx, List.nil_append] at h2
      exact ihr d p v _ path k f pre h1 h2 h3 e he
    · rename_i hx
      rw [if_neg hx] at h2
      have hg : follow cfg r (path ++ [k]) = some ⟨n, some p, d, some v, h, b, o⟩ := by
        rw [follow_snoc, h1, Option.bind_some, h2, List.getElem?_append_right (by omega)]
        simp [h3]
      rcases List.mem_cons.1 he with rfl | he
      · exact hg
      · rcases List.mem_append.1 he with he | he
        · exact ihb (d + 1) n (valueInScope (some v) h) (n + 1) (path ++ [k]) 0 _ [] hg rfl rfl e he
        · exact ihr d p v _ path (k + 1) f (pre ++ [⟨n, some p, d, some v, h, b, o⟩]) h1
            (by rw [h2]; simp) (by simp [h3]) e he

theorem located_follow (cfg : Config) (t : Tx) : ∀ e ∈ located cfg t,
    follow cfg (rootOf t) e.1 = some e.2 := by
  intro e he
  rcases List.mem_cons.1 he with rfl | he
  · rfl
  · exact locate_follow cfg (rootOf t) t.body 1 0 _ 1 [] 0 (rootOf t) [] rfl rfl rfl e he

/-- The shown calls of a frame below are located. -/
theorem locate_direct (cfg : Config) (b : Body) :
    ∀ (d p : Nat) (v : U256) (n : Nat) (path : List Nat) (k i : Nat) (g : FrameCtx),
    (shownBelow cfg d p v n b)[i]? = some g → (path ++ [k + i], g) ∈ locate cfg d p v n path k b := by
  induction b with
  | nil => intro d p v n path k i g h; simp [shownBelow] at h
  | act a rest ih => intro d p v n path k i g h; exact ih d p v n path k i g h
  | sub h b o rest _ ihr =>
    intro d p v n path k i g hi
    simp only [shownBelow] at hi
    simp only [locate]
    split
    · rename_i hx
      rw [if_pos hx, List.nil_append] at hi
      exact ihr d p v _ path k i g hi
    · rename_i hx
      rw [if_neg hx] at hi
      cases i with
      | zero =>
        simp at hi
        rw [← hi]
        exact List.mem_cons_self
      | succ i =>
        rw [List.singleton_append, List.getElem?_cons_succ] at hi
        have := ihr d p v (n + 1 + b.size) path (k + 1) i g hi
        rw [show k + 1 + i = k + (i + 1) by omega] at this
        exact List.mem_cons_of_mem _ (List.mem_append_right _ this)

theorem locate_calls (cfg : Config) (b : Body) :
    ∀ (d p : Nat) (v : U256) (n : Nat) (path : List Nat) (k : Nat),
    ∀ e ∈ locate cfg d p v n path k b, ∀ i g, (shownCalls cfg e.2)[i]? = some g →
      (e.1 ++ [i], g) ∈ locate cfg d p v n path k b := by
  induction b with
  | nil => intro d p v n path k e he; simp [locate] at he
  | act a rest ih => intro d p v n path k e he; exact ih d p v n path k e he
  | sub h b o rest ihb ihr =>
    intro d p v n path k e he i g hi
    simp only [locate] at he ⊢
    split at he
    · rename_i hx
      rw [if_pos hx]
      exact ihr _ _ _ _ _ _ e he i g hi
    · rename_i hx
      rw [if_neg hx]
      rcases List.mem_cons.1 he with rfl | he
      · have := locate_direct cfg b (d + 1) n (valueInScope (some v) h) (n + 1) (path ++ [k]) 0 i g hi
        rw [Nat.zero_add] at this
        exact List.mem_cons_of_mem _ (List.mem_append_left _ this)
      · rcases List.mem_append.1 he with he | he
        · exact List.mem_cons_of_mem _ (List.mem_append_left _ (ihb _ _ _ _ _ _ e he i g hi))
        · exact List.mem_cons_of_mem _ (List.mem_append_right _ (ihr _ _ _ _ _ _ e he i g hi))

theorem located_calls (cfg : Config) (t : Tx) : ∀ e ∈ located cfg t, ∀ i g,
    (shownCalls cfg e.2)[i]? = some g → (e.1 ++ [i], g) ∈ located cfg t := by
  intro e he i g hi
  rcases List.mem_cons.1 he with rfl | he
  · have := locate_direct cfg t.body 1 0 (valueInScope none t.hdr) 1 [] 0 i g hi
    rw [Nat.zero_add] at this
    exact List.mem_cons_of_mem _ this
  · exact List.mem_cons_of_mem _ (locate_calls cfg _ _ _ _ _ _ _ e he i g hi)

/-- Every path that leads somewhere is located. -/
theorem located_complete (cfg : Config) (t : Tx) (path : List Nat) : ∀ f,
    follow cfg (rootOf t) path = some f → (path, f) ∈ located cfg t := by
  generalize hl : path.length = l
  induction l generalizing path with
  | zero =>
    intro f h
    have : path = [] := List.length_eq_zero_iff.1 hl
    subst this
    simp only [follow, Option.some.injEq] at h
    rw [← h]; exact List.mem_cons_self
  | succ l ih =>
    intro f h
    have hne : path ≠ [] := by intro h; simp [h] at hl
    have hsplit := (List.dropLast_concat_getLast hne).symm
    rw [hsplit, follow_snoc] at h
    cases hf : follow cfg (rootOf t) path.dropLast with
    | none => rw [hf] at h; simp at h
    | some g =>
      rw [hf, Option.bind_some] at h
      have := located_calls cfg t _ (ih path.dropLast (by simp [hl]) g hf) _ _ h
      rwa [← hsplit] at this

/-! ### Order -/

theorem lt_append_right (p : List Nat) (i : Nat) (q : List Nat) : p < p ++ i :: q := by
  induction p with
  | nil => exact List.Lex.nil
  | cons a p ih => exact List.Lex.cons ih

theorem append_lt_append (p : List Nat) {a b : List Nat} (h : a < b) : p ++ a < p ++ b := by
  induction p with
  | nil => exact h
  | cons c p ih => exact List.Lex.cons ih

theorem locate_sorted (cfg : Config) (b : Body) :
    ∀ (d p : Nat) (v : U256) (n : Nat) (path : List Nat) (k : Nat),
    (∀ e ∈ locate cfg d p v n path k b, ∃ j q, e.1 = path ++ j :: q ∧ k ≤ j) ∧
    (locate cfg d p v n path k b).Pairwise (fun a b => a.1 < b.1) := by
  induction b with
  | nil => intros; simp [locate]
  | act a rest ih => intro d p v n path k; exact ih d p v n path k
  | sub h b o rest ihb ihr =>
    intro d p v n path k
    simp only [locate]
    split
    · exact ihr _ _ _ _ _ _
    · obtain ⟨b1, b2⟩ := ihb (d + 1) n (valueInScope (some v) h) (n + 1) (path ++ [k]) 0
      obtain ⟨r1, r2⟩ := ihr d p v (n + 1 + b.size) path (k + 1)
      refine ⟨?_, ?_⟩
      · intro e he
        rcases List.mem_cons.1 he with rfl | he
        · exact ⟨k, [], rfl, Nat.le_refl _⟩
        · rcases List.mem_append.1 he with he | he
          · obtain ⟨j, q, h1, _⟩ := b1 e he
            exact ⟨k, j :: q, by rw [h1]; simp, Nat.le_refl _⟩
          · obtain ⟨j, q, h1, h2⟩ := r1 e he
            exact ⟨j, q, h1, by omega⟩
      · rw [List.pairwise_cons, List.pairwise_append]
        refine ⟨?_, b2, r2, ?_⟩
        · intro e he
          rcases List.mem_append.1 he with he | he
          · obtain ⟨j, q, h1, _⟩ := b1 e he
            rw [h1]; exact lt_append_right _ _ _
          · obtain ⟨j, q, h1, h2⟩ := r1 e he
            rw [h1]; exact append_lt_append _ (List.Lex.rel (by omega))
        · intro e he e' he'
          obtain ⟨j, q, h1, _⟩ := b1 e he
          obtain ⟨j', q', h1', h2'⟩ := r1 e' he'
          rw [h1, h1', List.append_assoc]
          exact append_lt_append _ (List.Lex.rel (by omega))

theorem located_sorted (cfg : Config) (t : Tx) :
    (located cfg t).Pairwise (fun a b => a.1 < b.1) := by
  obtain ⟨h1, h2⟩ := locate_sorted cfg t.body 1 0 (valueInScope none t.hdr) 1 [] 0
  rw [located, List.pairwise_cons]
  refine ⟨?_, h2⟩
  intro e he
  obtain ⟨j, q, h, _⟩ := h1 e he
  rw [h]; exact List.Lex.nil

/-- A smaller path is a proper prefix, or smaller whatever is appended. -/
theorem lt_cases : ∀ {a b : List Nat}, a < b →
    (∃ i q, b = a ++ i :: q) ∨ (∀ x y, a ++ x < b ++ y) := by
  intro a b h
  induction h with
  | nil => exact Or.inl ⟨_, _, rfl⟩
  | cons _ ih =>
    rcases ih with ⟨i, q, rfl⟩ | ih
    · exact Or.inl ⟨i, q, rfl⟩
    · exact Or.inr (fun x y => List.Lex.cons (ih x y))
  | rel h => exact Or.inr (fun x y => List.Lex.rel h)

theorem lt_irrefl' (a : List Nat) : ¬ a < a := List.lt_irrefl a

theorem nodup_subset_length {α : Type} [DecidableEq α] : ∀ {l1 l2 : List α}, l1.Nodup → l1 ⊆ l2 →
    l1.length ≤ l2.length := by
  intro l1
  induction l1 with
  | nil => intros; exact Nat.zero_le _
  | cons a l1 ih =>
    intro l2 hn hs
    rw [List.nodup_cons] at hn
    have ha : a ∈ l2 := hs List.mem_cons_self
    have := ih (l2 := l2.erase a) hn.2 (fun x hx => by
      refine (List.mem_erase_of_ne ?_).2 (hs (List.mem_cons_of_mem _ hx))
      intro h; rw [h] at hx; exact hn.1 hx)
    rw [List.length_erase_of_mem ha] at this
    have hp := List.length_pos_of_mem ha
    simp; omega

theorem nodup_length_eq {α : Type} [DecidableEq α] {l1 l2 : List α} (h1 : l1.Nodup) (h2 : l2.Nodup)
    (h : ∀ a, a ∈ l1 ↔ a ∈ l2) : l1.length = l2.length :=
  Nat.le_antisymm (nodup_subset_length h1 (fun _ ha => (h _).1 ha))
    (nodup_subset_length h2 (fun _ ha => (h _).2 ha))

end Verif.Par
