import Verif.Spec.BigOperators
import Verif.Props.BigValue
import Verif.Props.BigCompare
/-! C133: big integers compared by the operators of JavaScript. -/
namespace Verif.Props
open BigJs Spec

/-- One side of an operator, calculated as in a tracer. -/
def runSide (fl : Rat → Rat) : Side → R Operand
  | .calculated e => do
    let b ← runExpr fl e
    .ok (.big b)
  | .number x => .ok (.num x)

/-- A double is nearest to itself only. -/
theorem nearest_self {x m : Rat} (h : NearestTo x m) (hm : IsDouble m) : x = m := by
  have := h.2 m hm
  unfold ratDist at this
  split at this <;> grind

/-- What is nearest keeps the order. -/
theorem nearest_mono {x y m n : Rat} (hx : NearestTo x m) (hy : NearestTo y n) (h : m < n) : x ≤ y := by
  have h1 := hx.2 y hy.1
  have h2 := hy.2 x hx.1
  unfold ratDist at h1 h2
  repeat' split at h1
  all_goals (repeat' split at h2) <;> grind

/-- The number a side is turned into: the nearest double, the same for equal integers. -/
def sideNumber (fl : Rat → Rat) : Side → Rat
  | .calculated e => match e.value actual with
    | some n => if n.natAbs < 2 ^ 53 then (n : Rat) else fl n
    | none => 0
  | .number x => x

theorem side_ok {fl : Rat → Rat} (hfl : Rounding fl) (s : Side) (h : s.Fits) :
    ∃ a m, runSide fl s = .ok a ∧ s.value = some m ∧ a.primitive fl = .ok (some (sideNumber fl s)) ∧
      NearestTo (sideNumber fl s) m ∧ (s.isObject = true ↔ ∃ b, a = .big b) := by
  have hself : ∀ y d : Rat, ratDist y y ≤ ratDist d y := by
    intro y d
    unfold ratDist
    split <;> split <;> grind
  cases s with
  | number x => exact ⟨_, x, rfl, rfl, rfl, ⟨h, fun d _ => hself x d⟩, by simp [Side.isObject]⟩
  | calculated e =>
    obtain ⟨n, he, hs⟩ := h
    have ho := runExpr_ok hfl e
    rw [he] at ho
    obtain ⟨b, h1, h2, h3⟩ := ho
    obtain ⟨b', x, k1, k2, k3, k4, -⟩ := C97_nearest fl hfl e n he hs
    rw [h1] at k1
    cases k1
    have hx : x = sideNumber fl (.calculated e) := by
      simp only [sideNumber, he]
      rcases valueOf_ok hfl h2 with ⟨j1, j2⟩ | ⟨j1, j2⟩
      · rw [h3] at j1 j2
        rw [k2] at j2
        rw [if_pos j1]
        simpa using j2
      · rw [h3] at j1 j2
        rw [if_neg (by omega)]
        have hlo : -((2 : Rat) ^ 1023) ≤ n := by
          have : ((-(2 ^ 1023) : Int) : Rat) ≤ n := by exact_mod_cast (show -(2 ^ 1023 : Int) ≤ n by omega)
          rwa [Rat.intCast_neg, cast_pow] at this
        have hhi : (n : Rat) ≤ (2 : Rat) ^ 1023 := by
          have : (n : Rat) ≤ ((2 ^ 1023 : Int) : Rat) := by exact_mod_cast (show n ≤ (2 ^ 1023 : Int) by omega)
          rwa [cast_pow] at this
        rw [toDouble, if_neg (by intro h; rcases h with h | h <;> grind), k2] at j2
        simpa using j2
    refine ⟨.big b, n, ?_, ?_, ?_, ?_, by simp [Side.isObject]⟩
    · simp only [runSide, h1]; rfl
    · simp only [Side.value, he]
    · rw [← hx]; exact k2
    · rw [← hx]; exact ⟨k3, k4⟩

/-- Equal integers are turned into equal numbers. -/
theorem sideNumber_eq {fl : Rat → Rat} (hfl : Rounding fl) {l r : Side} (hl : l.Fits) (hr : r.Fits)
    (h : l.value = r.value) : sideNumber fl l = sideNumber fl r := by
  obtain ⟨_, m, _, hm, _, nl, _⟩ := side_ok hfl l hl
  obtain ⟨_, n, _, hn, _, nr, _⟩ := side_ok hfl r hr
  rw [hm, hn] at h
  cases h
  cases l with
  | number x =>
    have : m = x := by simpa [Side.value] using hm.symm
    subst this
    exact (nearest_self nr hl).symm
  | calculated e =>
    cases r with
    | number y =>
      have : m = y := by simpa [Side.value] using hn.symm
      subst this
      exact nearest_self nl hr
    | calculated f =>
      obtain ⟨i, hi, _⟩ := hl
      obtain ⟨j, hj, _⟩ := hr
      simp only [Side.value, hi, Option.some.injEq] at hm
      simp only [Side.value, hj, Option.some.injEq] at hn
      have : i = j := Rat.intCast_inj.mp (hm.trans hn.symm)
      simp only [sideNumber, hi, hj, this]

/-- **C133, exactly.** The operators compare the doubles nearest to the integers (and numbers themselves), which are the
same for equal integers; but two big integers are never equal by `==`, as they are two objects. -/
theorem C133_exact (fl : Rat → Rat) (hfl : Rounding fl) (l r : Side) (hl : l.Fits) (hr : r.Fits) :
    ∃ a b m n x y, runSide fl l = .ok a ∧ runSide fl r = .ok b ∧ l.value = some m ∧ r.value = some n ∧
      NearestTo x m ∧ NearestTo y n ∧ (m = n → x = y) ∧
      (∀ op, ¬ (l.isObject = true ∧ r.isObject = true ∧ (op = .eq ∨ op = .ne)) →
        GivesAnswer (op.apply fl a b) (OperatorAsks op x y)) ∧
      (l.isObject = true → r.isObject = true →
        CompareOperator.eq.apply fl a b = .ok false ∧ CompareOperator.ne.apply fl a b = .ok true) := by
  obtain ⟨a, m, h1, h2, h3, h4, h5⟩ := side_ok hfl l hl
  obtain ⟨b, n, k1, k2, k3, k4, k5⟩ := side_ok hfl r hr
  refine ⟨a, b, m, n, _, _, h1, k1, h2, k2, h4, k4, fun h => sideNumber_eq hfl hl hr (by rw [h2, k2, h]), ?_, ?_⟩
  · intro op hop
    have hap : op.apply fl a b = .ok (op.onNumbers (sideNumber fl l) (sideNumber fl r)) := by
      have hgen : ∀ op', ¬ (l.isObject = true ∧ r.isObject = true ∧ (op' = .eq ∨ op' = .ne)) →
          CompareOperator.apply fl op' a b = (do
            let x ← a.primitive fl
            let y ← b.primitive fl
            match x, y with
            | some x, some y => .ok (op'.onNumbers x y)
            | _, _ => .ok (decide (op' = .ne))) := by
        intro op' h
        unfold CompareOperator.apply
        split
        · exact absurd ⟨h5.mpr ⟨_, rfl⟩, k5.mpr ⟨_, rfl⟩, Or.inl rfl⟩ h
        · exact absurd ⟨h5.mpr ⟨_, rfl⟩, k5.mpr ⟨_, rfl⟩, Or.inr rfl⟩ h
        · rfl
      rw [hgen op hop, h3, k3]
      rfl
    rw [hap]
    cases op <;> constructor <;> intro h <;> simp only [OperatorAsks, CompareOperator.onNumbers] at h ⊢ <;> congr 1 <;>
      simp <;> grind
  · intro ha hb
    obtain ⟨x, rfl⟩ := h5.mp ha
    obtain ⟨y, rfl⟩ := k5.mp hb
    exact ⟨rfl, rfl⟩

/-- **C133, when the answer is right.** The answer of an operator about two sides is right, except that `==` and `!=` of
two big integers answer as if they were different, and that different integers (or an integer and a number) that are
turned into the same double are taken for equal. -/
theorem C133_right_iff (fl : Rat → Rat) (hfl : Rounding fl) (l r : Side) (hl : l.Fits) (hr : r.Fits) :
    ∃ a b m n x y, runSide fl l = .ok a ∧ runSide fl r = .ok b ∧ l.value = some m ∧ r.value = some n ∧
      NearestTo x m ∧ NearestTo y n ∧
      ∀ op, GivesAnswer (op.apply fl a b) (OperatorAsks op m n) ↔
        if l.isObject = true ∧ r.isObject = true ∧ (op = .eq ∨ op = .ne) then m ≠ n
        else ¬ (Blurred op m n ∧ x = y) := by
  obtain ⟨a, b, m, n, x, y, h1, h2, h3, h4, h5, h6, h7, h8, h9⟩ := C133_exact fl hfl l r hl hr
  refine ⟨a, b, m, n, x, y, h1, h2, h3, h4, h5, h6, fun op => ?_⟩
  split
  · rename_i h
    obtain ⟨ha, hb⟩ := h9 h.1 h.2.1
    rcases h.2.2 with rfl | rfl
    · simp [GivesAnswer, OperatorAsks, ha]
    · simp [GivesAnswer, OperatorAsks, hb]
  · rename_i h
    have hg := h8 op h
    have hlt : m < n → x ≤ y := nearest_mono h5 h6
    have hgt : n < m → y ≤ x := nearest_mono h6 h5
    have hiff : GivesAnswer (op.apply fl a b) (OperatorAsks op m n) ↔ (OperatorAsks op m n ↔ OperatorAsks op x y) := by
      constructor
      · intro hm
        constructor
        · intro hp
          refine Classical.byContradiction fun hq => ?_
          have e1 := hm.1 hp
          have e2 := hg.2 hq
          rw [e1] at e2; simp at e2
        · intro hq
          refine Classical.byContradiction fun hp => ?_
          have e1 := hm.2 hp
          have e2 := hg.1 hq
          rw [e1] at e2; simp at e2
      · intro he
        exact ⟨fun hp => hg.1 (he.mp hp), fun hp => hg.2 fun hq => hp (he.mpr hq)⟩
    rw [hiff]
    cases op <;> simp only [OperatorAsks, Blurred] <;> grind

/-- **C133, in part.** If the integers are equal to doubles, as those up to `2^53` are, all operators are right, except
`==` and `!=` of two big integers. Whatever the integers, if `<`, `>` or `!=` (the latter with a number) holds, it
is right. Missing: see `C133_refuted`. -/
theorem C133_right_partial (fl : Rat → Rat) (hfl : Rounding fl) (l r : Side) (hl : l.Fits) (hr : r.Fits) :
    ∃ a b m n, runSide fl l = .ok a ∧ runSide fl r = .ok b ∧ l.value = some m ∧ r.value = some n ∧
      (IsDouble m → IsDouble n → ∀ op, ¬ (l.isObject = true ∧ r.isObject = true ∧ (op = .eq ∨ op = .ne)) →
        GivesAnswer (op.apply fl a b) (OperatorAsks op m n)) ∧
      (∀ op, op = .lt ∨ op = .gt ∨ op = .ne ∧ ¬ (l.isObject = true ∧ r.isObject = true) →
        op.apply fl a b = .ok true → OperatorAsks op m n) := by
  obtain ⟨a, b, m, n, x, y, h1, h2, h3, h4, h5, h6, h7, h8, h9⟩ := C133_exact fl hfl l r hl hr
  refine ⟨a, b, m, n, h1, h2, h3, h4, ?_, ?_⟩
  · intro hm hn op hop
    have := h8 op hop
    rwa [nearest_self h5 hm, nearest_self h6 hn] at this
  · intro op hop htrue
    have hne : ¬ (l.isObject = true ∧ r.isObject = true ∧ (op = .eq ∨ op = .ne)) := by
      rintro ⟨ha, hb, he⟩
      rcases hop with rfl | rfl | ⟨rfl, h⟩
      · simp at he
      · simp at he
      · exact h ⟨ha, hb⟩
    have hg : OperatorAsks op x y := by
      refine Classical.byContradiction fun hq => ?_
      have := (h8 op hne).2 hq
      rw [htrue] at this; simp at this
    have hlt : m < n → x ≤ y := nearest_mono h5 h6
    have hgt : n < m → y ≤ x := nearest_mono h6 h5
    rcases hop with rfl | rfl | ⟨rfl, _⟩ <;> simp only [OperatorAsks] at hg ⊢ <;> grind

/-- **C133, refuted.** `bigint("1152921504606847000") > bigint("1152921504606846976")` is false, it is equal to the
number `2**60`, and `bigint("5") == bigint("5")` is false. -/
theorem C133_refuted (fl : Rat → Rat) (hfl : Rounding fl) :
    (∃ a b, runSide fl (.calculated (.lit 1152921504606847000)) = .ok a ∧
      runSide fl (.calculated (.lit 1152921504606846976)) = .ok b ∧
      CompareOperator.gt.apply fl a b = .ok false ∧
      CompareOperator.eq.apply fl a (.num 1152921504606846976) = .ok true) ∧
    ∃ a b, runSide fl (.calculated (.lit 5)) = .ok a ∧ runSide fl (.calculated (.lit 5)) = .ok b ∧
      CompareOperator.eq.apply fl a b = .ok false := by
  have fit : ∀ n : Int, n.natAbs ≤ 2 ^ 1023 → (Side.calculated (.lit n)).Fits := fun n h => ⟨n, rfl, h⟩
  have hd : IsDouble 1152921504606846976 := by
    have := isDouble_mul (m := 1) (e := 60) (by decide) (by decide)
    rwa [show ((1 : Int) : Rat) * 2 ^ 60 = 1152921504606846976 by decide +kernel] at this
  obtain ⟨a, m, h1, h2, h3, h4, h5⟩ := side_ok hfl _ (fit 1152921504606847000 (by decide +kernel))
  obtain ⟨b, n, k1, k2, k3, k4, k5⟩ := side_ok hfl _ (fit 1152921504606846976 (by decide +kernel))
  have e1 : sideNumber fl (.calculated (.lit 1152921504606847000)) = 1152921504606846976 := by
    have := rounds_2_60 hfl
    simp only [sideNumber, Expr.value]
    rw [if_neg (by decide)]
    exact this
  have e2 : sideNumber fl (.calculated (.lit 1152921504606846976)) = 1152921504606846976 := by
    have hn : n = 1152921504606846976 := by simpa [Side.value, Expr.value] using k2.symm
    subst hn
    exact nearest_self k4 hd
  obtain ⟨a', rfl⟩ := h5.mp rfl
  obtain ⟨b', rfl⟩ := k5.mp rfl
  refine ⟨⟨_, _, h1, k1, ?_, ?_⟩, ?_⟩
  · simp only [CompareOperator.apply, h3, k3, e1, e2]
    rfl
  · simp only [CompareOperator.apply, e1, Operand.primitive] at h3 ⊢
    rw [h3]
    rfl
  · obtain ⟨a, b, m, n, x, y, h1, h2, -, -, -, -, -, -, h⟩ :=
      C133_exact fl hfl (.calculated (.lit 5)) (.calculated (.lit 5))
        (fit 5 (by decide +kernel)) (fit 5 (by decide +kernel))
    exact ⟨a, b, h1, h2, (h rfl rfl).1⟩

/-- The hypotheses hold of `bigint("1208925819614629174706176") > 0.5`, with `2^80` on the left, and both are doubles. -/
example : (Side.calculated (.lit (2 ^ 80))).Fits ∧ (Side.number (1 / 2)).Fits ∧
    IsDouble ((2 ^ 80 : Int) : Rat) ∧ IsDouble (1 / 2) := by
  have h : IsDouble (1 / 2) := ⟨1, 1073, by decide, by decide, by decide +kernel⟩
  refine ⟨⟨2 ^ 80, rfl, by decide +kernel⟩, h, ?_, h⟩
  have := isDouble_mul (m := 1) (e := 80) (by decide) (by decide)
  rwa [show ((1 : Int) : Rat) * 2 ^ 80 = ((2 ^ 80 : Int) : Rat) by decide +kernel] at this

end Verif.Props
