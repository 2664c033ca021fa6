import Verif.Model.JsJson
/-! The parser of JSON has enough fuel. -/
namespace Verif
open JsonParse

/-- The parser did not run out of fuel, and what it left is shorter than `n`. -/
def Shorter {α : Type} (n : Nat) (x : Except JsonErr (α × List Char)) : Prop :=
  x ≠ .error .diverge ∧ ∀ a r, x = .ok (a, r) → r.length < n

theorem Shorter.syntax {α : Type} (n : Nat) : Shorter (α := α) n (.error .syntax) :=
  ⟨by simp, by intro a r h; cases h⟩

theorem Shorter.ok {α : Type} {n : Nat} (a : α) {r : List Char} (h : r.length < n) :
    Shorter n (.ok (a, r)) :=
  ⟨by simp, by intro b r' h'; cases h'; exact h⟩

theorem Shorter.bind {α β : Type} {m n : Nat} {x : Except JsonErr (α × List Char)}
    {f : α × List Char → Except JsonErr (β × List Char)} (h : Shorter m x)
    (hf : ∀ a r, r.length < m → Shorter n (f (a, r))) : Shorter n (x >>= f) := by
  cases x with
  | error e =>
    cases e with
    | «syntax» => exact Shorter.syntax n
    | diverge => exact absurd rfl h.1
  | ok p => exact hf p.1 p.2 (h.2 _ _ rfl)

theorem string_shorter (s : List Char) : Shorter s.length (string s) := by
  fun_induction string s with
  | case1 => exact Shorter.syntax _
  | case2 r => exact Shorter.ok _ (by simp)
  | _ =>
    first
    | exact Shorter.syntax _
    | (rename_i ih
       refine ih.bind (fun a r h => Shorter.ok _ ?_)
       simp only [List.length_cons]
       omega)

theorem skipWs_length (s : List Char) : (skipWs s).length ≤ s.length := by
  unfold skipWs
  induction s with
  | nil => exact Nat.le_refl _
  | cons c s ih =>
    rw [List.dropWhile_cons]
    split
    · exact Nat.le_succ_of_le ih
    · exact Nat.le_refl _

theorem dropWhile_length (p : Char → Bool) (s : List Char) : (s.dropWhile p).length ≤ s.length := by
  induction s with
  | nil => exact Nat.le_refl _
  | cons c s ih =>
    rw [List.dropWhile_cons]
    split
    · exact Nat.le_succ_of_le ih
    · exact Nat.le_refl _

theorem readNumber_diverge (s : List Char) : readNumber s ≠ .error .diverge := by
  unfold readNumber
  split
  · simp
  · split
    · simp only; split <;> simp
    · simp only; split <;> simp

theorem value_shorter (fuel : Nat) :
    (∀ d s, 2 * s.length + 1 ≤ fuel → Shorter s.length (value fuel d s)) ∧
    (∀ d s, 2 * s.length + 2 ≤ fuel → Shorter s.length (items fuel d s)) ∧
    (∀ d s ms, 2 * s.length + 2 ≤ fuel → Shorter s.length (pairs fuel d s ms)) := by
  induction fuel with
  | zero =>
    refine ⟨fun d s h => by omega, fun d s h => by omega, fun d s ms h => by omega⟩
  | succ f ih =>
    obtain ⟨ihv, ihi, ihp⟩ := ih
    refine ⟨fun d s h => ?_, fun d s h => ?_, fun d s ms h => ?_⟩
    · have hl := skipWs_length s
      rw [value.eq_def]
      simp only
      split
      · rename_i r he; rw [he] at hl; exact Shorter.ok _ (by simp at hl; omega)
      · rename_i r he; rw [he] at hl; exact Shorter.ok _ (by simp at hl; omega)
      · rename_i r he; rw [he] at hl; exact Shorter.ok _ (by simp at hl; omega)
      · rename_i r he
        rw [he] at hl
        refine (string_shorter r).bind (fun a r' h' => Shorter.ok _ ?_)
        simp only [List.length_cons] at hl ⊢; omega
      · rename_i r he
        rw [he] at hl
        simp only [List.length_cons] at hl
        have hl2 := skipWs_length r
        split
        · exact Shorter.syntax _
        split
        · rename_i r' he'; rw [he'] at hl2; exact Shorter.ok _ (by simp at hl2; omega)
        · exact (ihi _ _ (by omega)).bind (fun a r' h' => Shorter.ok _ (by simp only; omega))
      · rename_i r he
        rw [he] at hl
        simp only [List.length_cons] at hl
        have hl2 := skipWs_length r
        split
        · exact Shorter.syntax _
        split
        · rename_i r' he'; rw [he'] at hl2; exact Shorter.ok _ (by simp at hl2; omega)
        · exact (ihp _ _ _ (by omega)).bind (fun a r' h' => Shorter.ok _ (by simp only; omega))
      · rename_i c r _ _ _ _ _ _ he
        rw [he] at hl
        simp only [List.length_cons] at hl
        split
        · rename_i hc
          have hd := readNumber_diverge ((c :: r).takeWhile isNumChar)
          cases hn : readNumber ((c :: r).takeWhile isNumChar) with
          | error e =>
            cases e with
            | «syntax» => exact Shorter.syntax _
            | diverge => exact absurd hn hd
          | ok n =>
            refine Shorter.ok _ ?_
            rw [List.dropWhile_cons_of_pos (by
              rcases hc with hc | hc
              · subst hc; decide
              · simp [isNumChar, hc])]
            have := dropWhile_length isNumChar r
            omega
        · exact Shorter.syntax _
      · exact Shorter.syntax _
    · rw [items]
      refine (ihv d s (by omega)).bind (fun a r h' => ?_)
      have hl := skipWs_length r
      simp only
      split
      · rename_i r' he
        rw [he] at hl
        simp only [List.length_cons] at hl
        exact (ihi d r' (by omega)).bind (fun a r' h' => Shorter.ok _ (by simp only; omega))
      · rename_i r' he
        rw [he] at hl
        simp only [List.length_cons] at hl
        exact Shorter.ok _ (by omega)
      · exact Shorter.syntax _
    · rw [pairs.eq_def]
      simp only
      have hl := skipWs_length s
      split
      · rename_i r he
        rw [he] at hl
        simp only [List.length_cons] at hl
        refine (string_shorter r).bind (fun k r1 h1 => ?_)
        have hl1 := skipWs_length r1
        simp only
        split
        · rename_i r2 he2
          rw [he2] at hl1
          simp only [List.length_cons] at hl1
          refine (ihv d r2 (by omega)).bind (fun v r3 h3 => ?_)
          have hl3 := skipWs_length r3
          simp only
          split
          · rename_i r4 he4
            rw [he4] at hl3
            simp only [List.length_cons] at hl3
            obtain ⟨q1, q2⟩ := ihp d r4 (JsonParse.insert ms k v) (by omega)
            exact ⟨q1, fun a r h => by have := q2 a r h; omega⟩
          · rename_i r4 he4
            rw [he4] at hl3
            simp only [List.length_cons] at hl3
            exact Shorter.ok _ (by omega)
          · exact Shorter.syntax _
        · exact Shorter.syntax _
      · exact Shorter.syntax _

/-- Parsing never runs out of fuel. -/
theorem fromStr_fuel (s : List Char) : fromStr s ≠ .error .diverge := by
  have h := (value_shorter (2 * s.length + 1)).1 128 s (Nat.le_refl _)
  unfold fromStr
  cases hv : value (2 * s.length + 1) 128 s with
  | error e =>
    cases e with
    | «syntax» => intro h; cases h
    | diverge => exact absurd hv h.1
  | ok p =>
    obtain ⟨v, r⟩ := p
    change (if (skipWs r).isEmpty = true then (.ok v : Except JsonErr Json) else .error .syntax) ≠ _
    split <;> simp

end Verif
