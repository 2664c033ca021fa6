import Verif.Props.JsGuards
/-!
# C48: what the methods of the memory and the stack do for every number
-/
namespace Verif.Props
open Spec

/-- Every number is taken for exactly one index. -/
theorem takenForIndex_unique (x : JsNum) : ∃ n, TakenForIndex x n ∧ ∀ k, TakenForIndex x k → k = n :=
  ⟨_, (asUsize_iff x _).mp rfl, fun _ h => ((asUsize_iff x _).mpr h).symm⟩

/-- **C48, for all numbers**, with `n`, `a`, `b` the indices the arguments are taken for:

* `peek` throws for negative numbers and gives the item at `n` otherwise (so the top for NaN);
* `getUint` overflows if `n + 32` does not fit in 64 bits; otherwise it throws for negative numbers and
  if the word does not lie in the memory, and gives the word else;
* `slice` throws if the end is below the start, the start negative or `b` inside the memory; otherwise it
  overflows if `b < a` (one of them is NaN), reads behind the memory if `b` lies behind it, and gives the
  bytes from `a` on else. -/
theorem C48_exact (s : List U256) (m : Bytes) (x y : JsNum) (a b : Nat) (hx : TakenForIndex x a)
    (hy : TakenForIndex y b) :
    (Below x (.fin 0) → jsStackPeek s.length (some s) x = none) ∧
    (¬ Below x (.fin 0) → jsStackPeek s.length (some s) x = s.reverse[a]?) ∧
    (2 ^ 64 ≤ a + 32 → jsMemoryGetUint (some m) x = .error .arith) ∧
    (a + 32 < 2 ^ 64 → Below x (.fin 0) ∨ m.length < a + 32 → jsMemoryGetUint (some m) x = .ok none) ∧
    (a + 32 < 2 ^ 64 → ¬ Below x (.fin 0) → a + 32 ≤ m.length →
      jsMemoryGetUint (some m) x = .ok (some ((m.drop a).take 32))) ∧
    (Below y x ∨ Below x (.fin 0) ∨ b < m.length → jsMemorySlice (some m) x y = .ok none) ∧
    (¬ Below y x → ¬ Below x (.fin 0) → m.length ≤ b →
      (b < a → jsMemorySlice (some m) x y = .error .arith) ∧
      (a ≤ b → m.length < b → jsMemorySlice (some m) x y = .error .index) ∧
      (a ≤ b → m.length = b → jsMemorySlice (some m) x y = .ok (some (m.drop a)))) := by
  have hu : JsNum.usizeMax = 2 ^ 64 - 1 := rfl
  have ha := (asUsize_iff x a).mpr hx
  have hb := (asUsize_iff y b).mpr hy
  have hl : memRefLen (some m) = m.length := rfl
  refine ⟨?_, ?_, ?_, ?_, ?_, ?_, ?_⟩
  · intro h
    rw [← isNeg_iff] at h
    simp [jsStackPeek, h]
  · intro h
    rw [← isNeg_iff, Bool.not_eq_true] at h
    simp only [jsStackPeek, ha, h, Bool.or_false, decide_eq_true_eq, stackRefPeek]
    split
    · rename_i hle
      exact (List.getElem?_eq_none (by rw [List.length_reverse]; exact hle)).symm
    · rfl
  · intro h
    rw [jsMemoryGetUint, ha, if_pos (by omega)]
  · intro h h1
    rw [jsMemoryGetUint, ha, if_neg (by omega), hl, if_pos]
    rw [← isNeg_iff] at h1
    simp only [Bool.or_eq_true, decide_eq_true_eq]
    exact h1.symm
  · intro h h1 h2
    rw [← isNeg_iff, Bool.not_eq_true] at h1
    rw [jsMemoryGetUint, ha, if_neg (by omega), hl, h1, if_neg (by simpa using h2), memRefSlice, memSlice,
      if_pos h2]
  · intro h
    rw [← lt_iff, ← isNeg_iff] at h
    rw [jsMemorySlice, hb, hl, if_pos]
    simp only [Bool.or_eq_true, decide_eq_true_eq]
    rcases h with h | h | h
    · exact .inl (.inl h)
    · exact .inl (.inr h)
    · exact .inr h
  · intro h1 h2 h3
    rw [← lt_iff, Bool.not_eq_true] at h1
    rw [← isNeg_iff, Bool.not_eq_true] at h2
    rw [jsMemorySlice, hb, ha, hl, h1, h2, if_neg (by simpa using h3)]
    refine ⟨fun h => if_pos h, fun h h4 => ?_, fun h h4 => ?_⟩
    · rw [if_neg (by omega), memRefSlice, memSlice, if_neg (by omega)]
    · rw [if_neg (by omega), memRefSlice, memSlice, if_pos (by omega)]
      show Except.ok (some ((m.drop a).take (b - a))) = _
      rw [List.take_of_length_le (by rw [List.length_drop]; omega)]

/-- Two numbers that meet the hypotheses in each way: a fraction, and a range that ends at infinity. -/
example : TakenForIndex (.fin (7 / 2)) 3 ∧ TakenForIndex (.inf false) (2 ^ 64 - 1) ∧
    ¬ Below (.fin (7 / 2)) (.fin 0) ∧ Below (.fin (7 / 2)) (.inf false) ∧ ¬ Below .nan (.fin 0) := by
  refine ⟨(asUsize_iff _ _).mp (by decide +kernel), (asUsize_iff _ _).mp rfl, ?_, ?_, ?_⟩
  · rw [← lt_iff]; decide +kernel
  · rw [← lt_iff]; decide
  · rw [← lt_iff]; decide

end Verif.Props
