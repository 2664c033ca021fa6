import Verif.Lemmas.BigMath
import Verif.Props.BigInt
/-! C81: powers, shifts, bit operations and divisors of the big integers of JavaScript tracers. -/
namespace Verif.Props
open BigJs Spec

/-- A method without an argument. -/
def runUn : UnOp → Big → R Big
  | .negate, x => .ok x.negate
  | .abs, x => .ok x.abs
  | .square, x => x.square
  | .next, x => x.next
  | .prev, x => x.prev
  | .not, x => x.not

/-- A method or function of two big integers; `fl` rounds to doubles. -/
def runBin (fl : Rat → Rat) : BinOp → Big → Big → R Big
  | .add, x, y => x.add y
  | .subtract, x, y => x.subtract y
  | .multiply, x, y => x.multiply y
  | .divide, x, y => do
    let (q, _) ← x.divmod fl y
    .ok q
  | .mod, x, y => do
    let (_, r) ← x.divmod fl y
    .ok r
  | .pow, x, y => x.pow y
  | .shiftLeft, x, y => x.shiftLeft fl (.object y)
  | .shiftRight, x, y => x.shiftRight fl (.object y)
  | .and, x, y => x.and fl y
  | .or, x, y => x.or fl y
  | .xor, x, y => x.xor fl y
  | .gcd, x, y => gcd fl x y
  | .lcm, x, y => lcm fl x y
  | .max, x, y => .ok (bigMax x y)
  | .min, x, y => .ok (bigMin x y)

/-- The methods called as in an expression, on big integers made of decimal digits. -/
def runExpr (fl : Rat → Rat) : Expr → R Big
  | .lit n => (parseStringValue (intNumeral 10 n)).getD (.error .todo)
  | .un o a => do
    let x ← runExpr fl a
    runUn o x
  | .bin o a b => do
    let x ← runExpr fl a
    let y ← runExpr fl b
    runBin fl o x y
  | .shift left a n => do
    let x ← runExpr fl a
    if left then x.shiftLeft fl (.number n) else x.shiftRight fl (.number n)
  | .modPow a e m => do
    let x ← runExpr fl a
    let y ← runExpr fl e
    let z ← runExpr fl m
    x.modPow fl y z

/-- An integer, or an error that is thrown. -/
def Outcome (r : R Big) : Option Int → Prop
  | some n => ∃ b, r = .ok b ∧ b.Ok ∧ b.toInt = n
  | none => ∃ message, r = .error (.expect message)

theorem Outcome.of_gives {r : R Big} {message : String} {v : Option Int} (h : Gives r message v) : Outcome r v := by
  cases v with
  | none => exact ⟨message, h⟩
  | some n => exact h

theorem bitOf_bitByBit {f : Bool → Bool → Bool} (k : Nat) : ∀ {x y : Int} (i : Nat), x.natAbs + y.natAbs ≤ k →
    bitOf (bitByBit f x y) i = f (bitOf x i) (bitOf y i) := by
  have parity : ∀ (z : Int) (b : Bool), bitOf (2 * z + if b then 1 else 0) 0 = b := by
    intro z b
    cases b <;> simp [bitOf] <;> omega
  have tail : ∀ (z : Int) (b : Bool) (i : Nat), bitOf (2 * z + if b then 1 else 0) (i + 1) = bitOf z i := by
    intro z b i
    unfold bitOf
    rw [show (2 : Int) ^ (i + 1) = 2 * 2 ^ i by rw [Int.pow_succ, Int.mul_comm],
      ← Int.ediv_ediv_of_nonneg (by decide), show (2 * z + if b = true then 1 else 0) / 2 = z by
        cases b <;> simp <;> omega]
  have split2 : ∀ z : Int, z = 2 * (z / 2) + if decide (z % 2 = 1) then 1 else 0 := by
    intro z
    by_cases h : z % 2 = 1
    · simp [h]; omega
    · simp [h]; omega
  have ends : ∀ z : Int, (z = 0 ∨ z = -1) → ∀ i, bitOf z i = decide (z = -1) := by
    intro z hz i
    rcases hz with rfl | rfl
    · exact bitOf_zero i
    · exact bitOf_neg_one i
  induction k with
  | zero =>
    intro x y i hk
    rw [bitByBit, dif_pos (by omega), ends x (by omega), ends y (by omega)]
    cases f (decide (x = -1)) (decide (y = -1))
    · exact bitOf_zero i
    · exact bitOf_neg_one i
  | succ k ih =>
    intro x y i hk
    rw [bitByBit]
    by_cases h : (x = 0 ∨ x = -1) ∧ (y = 0 ∨ y = -1)
    · rw [dif_pos h, ends x h.1, ends y h.2]
      cases f (decide (x = -1)) (decide (y = -1))
      · exact bitOf_zero i
      · exact bitOf_neg_one i
    · rw [dif_neg h]
      cases i with
      | zero =>
        rw [parity]
        conv => rhs; rw [split2 x, split2 y]
        rw [parity, parity]
      | succ i =>
        rw [tail, ih i (by omega)]
        conv => rhs; rw [split2 x, split2 y]
        rw [tail, tail]

/-- The bits of a combination are the combinations of the bits. -/
theorem C81_bits (f : Bool → Bool → Bool) (x y : Int) (i : Nat) :
    bitOf (bitByBit f x y) i = f (bitOf x i) (bitOf y i) := bitOf_bitByBit _ i (Nat.le_refl _)

theorem bit_ok {fl : Rat → Rat} (hfl : Rounding fl) {fn : Nat → Nat → Nat} {f : Bool → Bool → Bool}
    (hf : ∀ a b i, (fn a b).testBit i = f (a.testBit i) (b.testBit i)) (f0 : f false false = false)
    {x y : Big} (hx : x.Ok) (hy : y.Ok) : ∃ r, bitwise fl fn x y = .ok r ∧ r.Ok ∧
      r.toInt = bitByBit f x.toInt y.toInt := by
  obtain ⟨r, h1, h2, h3⟩ := bitwise_ok hfl hf f0 hx hy
  exact ⟨r, h1, h2, bitOf_ext fun i => by rw [h3, C81_bits]⟩

theorem runUn_ok (o : UnOp) {x : Big} (hx : x.Ok) : Outcome (runUn o x) (some (unMeaning o x.toInt)) := by
  cases o with
  | negate => exact ⟨_, rfl, (negate_ok hx).1, (negate_ok hx).2⟩
  | abs => exact ⟨_, rfl, (abs_ok hx).1, (abs_ok hx).2⟩
  | square => exact square_ok hx
  | next => exact next_ok hx
  | prev => exact prev_ok hx
  | not => exact not_ok hx

theorem quotient_one {p : Int} (h : 2 ≤ p.natAbs) : quotient 1 p = 0 := by
  unfold quotient
  rw [show ((1 : Int).natAbs) = 1 from rfl, Nat.div_eq_of_lt (by omega)]
  simp

theorem powValue_actual (x n : Int) : powValue x n = actual.bin .pow x n := by
  have hM : (MAX_INT : Int) = 2 ^ 53 := rfl
  have hpow : ∀ k : Nat, x.natAbs = 0 ∨ x.natAbs = 1 ∨ 2 ≤ x.natAbs := fun _ => by omega
  simp only [actual]
  unfold powValue
  rw [hM]
  by_cases n0 : n = 0
  · subst n0
    rw [if_pos rfl, if_pos (by decide), if_neg (by omega)]
    simp
  · rw [if_neg n0]
    by_cases x0 : x = 0
    · subst x0
      rw [if_pos rfl]
      by_cases hn : 0 ≤ n
      · rw [if_pos hn, if_neg (by simp), Int.zero_pow (by omega)]
      · rw [if_neg hn, if_pos rfl]
    · rw [if_neg x0]
      by_cases x1 : x = 1
      · subst x1
        rw [if_pos rfl]
        by_cases hn : 0 ≤ n
        · rw [if_pos hn, if_neg (by simp), Int.one_pow]
        · rw [if_neg hn, if_neg x0, Int.one_pow]
          rfl
      · rw [if_neg x1]
        by_cases x2 : x = -1
        · subst x2
          rw [if_pos rfl]
          have hp : ∀ k : Nat, (-1 : Int) ^ k = if k % 2 = 0 then 1 else -1 := by
            intro k
            induction k with
            | zero => rfl
            | succ k ih =>
              rw [Int.pow_succ, ih]
              by_cases h : k % 2 = 0
              · rw [if_pos h, if_neg (by omega)]; rfl
              · rw [if_neg h, if_pos (by omega)]; rfl
          have hpar : (if n % 2 = 0 then (1 : Int) else -1) = if n.natAbs % 2 = 0 then 1 else -1 := by
            by_cases h : n % 2 = 0
            · rw [if_pos h, if_pos (by omega)]
            · rw [if_neg h, if_neg (by omega)]
          rw [hpar, hp]
          by_cases hn : 0 ≤ n
          · rw [if_pos hn, if_neg (show ¬ (2 ^ 53 ≤ n ∧ 2 ≤ (-1 : Int).natAbs) from fun h => absurd h.2 (by decide))]
          · rw [if_neg hn, if_neg x0]
            by_cases h : n.natAbs % 2 = 0
            · rw [if_pos h]; rfl
            · rw [if_neg h]; rfl
        · rw [if_neg x2]
          have habs : 2 ≤ x.natAbs := by omega
          by_cases hn : n < 0
          · rw [if_pos hn, if_neg (by omega), if_neg x0, quotient_one]
            rw [Int.natAbs_pow]
            have h1 : x.natAbs ^ 1 ≤ x.natAbs ^ n.natAbs := Nat.pow_le_pow_right (by omega) (by omega)
            rw [Nat.pow_one] at h1
            exact Nat.le_trans habs h1
          · rw [if_neg hn, if_pos (show 0 ≤ n by omega)]
            by_cases hb : 2 ^ 53 ≤ n
            · rw [if_pos hb, if_pos ⟨hb, habs⟩]
            · rw [if_neg hb, if_neg fun h => hb h.1, show n.toNat = n.natAbs by omega]

theorem runBin_ok {fl : Rat → Rat} (hfl : Rounding fl) (o : BinOp) {x y : Big} (hx : x.Ok) (hy : y.Ok) :
    Outcome (runBin fl o x y) (actual.bin o x.toInt y.toInt) := by
  cases o with
  | add => exact add_ok hx hy
  | subtract => exact subtract_ok hx hy
  | multiply => exact multiply_ok hx hy
  | divide =>
    simp only [runBin, actual, ideal]
    by_cases h0 : y.toInt = 0
    · rw [if_pos h0, divmod_zero fl x hy h0]
      exact ⟨_, rfl⟩
    · rw [if_neg h0]
      obtain ⟨q, r, j1, j2, j3, j4, j5⟩ := divmod_ok hfl hx hy h0
      rw [j1]
      exact ⟨q, rfl, j2, by rw [j4, tdiv_spec]; rfl⟩
  | mod =>
    simp only [runBin, actual, ideal]
    by_cases h0 : y.toInt = 0
    · rw [if_pos h0, divmod_zero fl x hy h0]
      exact ⟨_, rfl⟩
    · rw [if_neg h0]
      obtain ⟨q, r, j1, j2, j3, j4, j5⟩ := divmod_ok hfl hx hy h0
      rw [j1]
      exact ⟨r, rfl, j3, by rw [j5, tmod_spec]; rfl⟩
  | pow =>
    rw [← powValue_actual]
    exact .of_gives (pow_ok hx hy)
  | shiftLeft => exact ⟨_, (shift_object fl x hy).1⟩
  | shiftRight => exact ⟨_, (shift_object fl x hy).2⟩
  | and => exact bit_ok hfl (fun a b i => Nat.testBit_and a b i) rfl hx hy
  | or => exact bit_ok hfl (fun a b i => Nat.testBit_or a b i) rfl hx hy
  | xor => exact bit_ok hfl (fun a b i => Nat.testBit_xor a b i) rfl hx hy
  | gcd => exact gcd_ok hfl hx hy
  | lcm => exact .of_gives (lcm_ok hfl hx hy)
  | max =>
    refine ⟨_, rfl, (max_ok hx hy).1, ?_⟩
    rw [(max_ok hx hy).2]
    by_cases h : y.toInt ≤ x.toInt
    · rw [if_pos h]; omega
    · rw [if_neg h]; omega
  | min =>
    refine ⟨_, rfl, (min_ok hx hy).1, ?_⟩
    rw [(min_ok hx hy).2]
    by_cases h : x.toInt ≤ y.toInt
    · rw [if_pos h]; omega
    · rw [if_neg h]; omega

theorem shifted_eq (x n : Int) : shiftValue x n = shifted x n := by
  unfold shiftValue shifted
  split
  · rw [show (-n).toNat = n.natAbs by omega]
  · rw [show n.toNat = n.natAbs by omega]

theorem runExpr_ok {fl : Rat → Rat} (hfl : Rounding fl) (e : Expr) :
    Outcome (runExpr fl e) (e.value actual) := by
  induction e with
  | lit n =>
    obtain ⟨b, h1, h2, h3⟩ := parse_numeral n
    exact ⟨b, by rw [runExpr, h1]; rfl, h2, h3⟩
  | un o a ih =>
    rw [runExpr, Expr.value]
    cases hv : a.value actual with
    | none => rw [hv] at ih; obtain ⟨s, h⟩ := ih; rw [h]; exact ⟨s, rfl⟩
    | some n =>
      rw [hv] at ih
      obtain ⟨x, h1, h2, rfl⟩ := ih
      rw [h1]
      exact runUn_ok o h2
  | bin o a b iha ihb =>
    rw [runExpr, Expr.value]
    cases hv : a.value actual with
    | none => rw [hv] at iha; obtain ⟨s, h⟩ := iha; rw [h]; exact ⟨s, rfl⟩
    | some n =>
      rw [hv] at iha
      obtain ⟨x, h1, h2, rfl⟩ := iha
      rw [h1]
      cases hw : b.value actual with
      | none => rw [hw] at ihb; obtain ⟨s, h⟩ := ihb; rw [h]; exact ⟨s, rfl⟩
      | some m =>
        rw [hw] at ihb
        obtain ⟨y, k1, k2, rfl⟩ := ihb
        rw [k1]
        exact runBin_ok hfl o h2 k2
  | shift left a n ih =>
    rw [runExpr, Expr.value]
    cases hv : a.value actual with
    | none => rw [hv] at ih; obtain ⟨s, h⟩ := ih; rw [h]; exact ⟨s, rfl⟩
    | some v =>
      rw [hv] at ih
      obtain ⟨x, h1, h2, rfl⟩ := ih
      rw [h1]
      simp only [bind, Except.bind, Option.bind, actual]
      by_cases hn : 10000000 < n.natAbs
      · rw [if_pos hn]
        obtain ⟨s1, s2⟩ := shift_too_large fl x hn
        cases left
        · exact ⟨_, s2⟩
        · exact ⟨_, s1⟩
      · rw [if_neg hn]
        cases left
        · obtain ⟨r, r1, r2, r3⟩ := shiftRight_ok hfl h2 (n := n) (by omega)
          exact ⟨r, r1, r2, by rw [r3, shifted_eq]; rfl⟩
        · obtain ⟨r, r1, r2, r3⟩ := shiftLeft_ok hfl h2 (n := n) (by omega)
          exact ⟨r, r1, r2, by rw [r3, shifted_eq]; rfl⟩
  | modPow a e m iha ihe ihm =>
    rw [runExpr, Expr.value]
    cases hv : a.value actual with
    | none => rw [hv] at iha; obtain ⟨s, h⟩ := iha; rw [h]; exact ⟨s, rfl⟩
    | some v =>
      rw [hv] at iha
      obtain ⟨x, h1, h2, rfl⟩ := iha
      rw [h1]
      cases hw : e.value actual with
      | none => rw [hw] at ihe; obtain ⟨s, h⟩ := ihe; rw [h]; exact ⟨s, rfl⟩
      | some w =>
        rw [hw] at ihe
        obtain ⟨y, k1, k2, rfl⟩ := ihe
        rw [k1]
        cases hu : m.value actual with
        | none => rw [hu] at ihm; obtain ⟨s, h⟩ := ihm; rw [h]; exact ⟨s, rfl⟩
        | some u =>
          rw [hu] at ihm
          obtain ⟨z, l1, l2, rfl⟩ := ihm
          rw [l1]
          have h := Outcome.of_gives (modPow_ok hfl h2 k2 l2)
          have he : modPowValue x.toInt y.toInt z.toInt = actual.modPow x.toInt y.toInt z.toInt := by
            simp only [modPowValue, actual]
            by_cases z0 : z.toInt = 0
            · rw [if_pos z0, if_pos z0]
            · rw [if_neg z0, if_neg z0]
              by_cases y0 : 0 < y.toInt
              · rw [if_pos y0, if_neg (by omega), tmod_spec, show y.toInt.toNat = y.toInt.natAbs by omega]
                rfl
              · rw [if_neg y0, if_pos (by omega)]
          rw [he] at h
          exact h

/-- **C81, exactly.** Every expression of `negate`, `abs`, `square`, `next`, `prev`, `not`, `add`,
`subtract`, `multiply`, `divide`, `mod`, `pow`, `shiftLeft`, `shiftRight`, `and`, `or`, `xor`, `gcd`, `lcm`,
`max`, `min` and `modPow` gives the big integer that is written as the integer `actual` says, or throws
where `actual` says so, whatever the sizes and signs and however numbers are rounded to doubles. -/
theorem C81_exact (fl : Rat → Rat) (hfl : Rounding fl) (e : Expr) :
    match e.value actual with
    | some n => ∃ b, runExpr fl e = .ok b ∧ b.toText = .ok (intNumeral 10 n)
    | none => ∃ message, runExpr fl e = .error (.expect message) := by
  have h := runExpr_ok hfl e
  cases hv : e.value actual with
  | none => rw [hv] at h; exact h
  | some n =>
    rw [hv] at h
    obtain ⟨b, h1, h2, h3⟩ := h
    exact ⟨b, h1, by rw [toText_ok h2, h3]⟩

theorem plain_value {e : Expr} (h : Plain e) : e.value actual = e.value ideal := by
  induction e with
  | lit n => rfl
  | un o a ih => rw [Expr.value, ih h, Expr.value]; rfl
  | bin o a b iha ihb =>
    obtain ⟨ha, hb, hc⟩ := h
    rw [Expr.value, iha ha, ihb hb, Expr.value]
    cases hx : a.value ideal with
    | none => rfl
    | some x =>
      cases hy : b.value ideal with
      | none => rfl
      | some y =>
        have := hc x y hx hy
        simp only [bind, Option.bind]
        cases o with
        | pow =>
          simp only [] at this
          simp only [actual, ideal]
          by_cases hn : 0 ≤ y
          · rw [if_pos hn, if_pos hn, if_neg (by omega)]
          · rw [if_neg hn, if_neg hn, if_neg (by omega), if_neg (by omega)]
        | shiftLeft => exact this.elim
        | shiftRight => exact this.elim
        | lcm =>
          simp only [] at this
          simp only [actual, ideal]
          rw [if_neg (by omega)]
        | _ => rfl
  | shift left a n ih =>
    obtain ⟨ha, hn⟩ := h
    rw [Expr.value, ih ha, Expr.value]
    cases a.value ideal with
    | none => rfl
    | some x => exact if_neg (by omega)
  | modPow a e m iha ihe ihm =>
    obtain ⟨ha, he, hm, hc⟩ := h
    rw [Expr.value, iha ha, ihe he, ihm hm, Expr.value]
    cases hx : a.value ideal with
    | none => rfl
    | some x =>
      cases hy : e.value ideal with
      | none => rfl
      | some y =>
        cases hz : m.value ideal with
        | none => rfl
        | some z =>
          have := hc y z hy hz
          simp only [bind, Option.bind, actual, ideal]
          by_cases z0 : z = 0
          · rw [if_pos z0, if_pos (.inl z0)]
          · rw [if_neg z0, if_neg (show ¬ (z = 0 ∨ y < 0) by omega)]
            by_cases y0 : y ≤ 0
            · rw [if_pos y0]
              have : y = 0 := by omega
              subst this
              simp only [Int.natAbs_zero, Int.pow_zero, remainder]
              rw [show ((1 : Int).natAbs) = 1 from rfl, Nat.mod_eq_of_lt (by omega)]
              rfl
            · rw [if_neg y0]

/-- **C81, what holds.** Apart from the cases `Plain` excludes, expressions give what arithmetic says. -/
theorem C81_arith_partial (fl : Rat → Rat) (hfl : Rounding fl) (e : Expr) (h : Plain e) :
    match e.value ideal with
    | some n => ∃ b, runExpr fl e = .ok b ∧ b.toText = .ok (intNumeral 10 n)
    | none => ∃ message, runExpr fl e = .error (.expect message) := by
  have := C81_exact fl hfl e
  rw [plain_value h] at this
  exact this

/-- **C81, what fails.** Whatever the rounding: one shifted by the big integer three throws instead of
giving eight; the least common multiple of zero and zero throws instead of being zero; a negative power of
zero is zero instead of throwing; one to the power zero modulo one is one instead of zero; and two to the
power minus one modulo seven is one instead of throwing. -/
theorem C81_refuted (fl : Rat → Rat) (hfl : Rounding fl) :
    ((Expr.bin .shiftLeft (.lit 1) (.lit 3)).value ideal = some 8 ∧
      ∃ s, runExpr fl (.bin .shiftLeft (.lit 1) (.lit 3)) = .error (.expect s)) ∧
    ((Expr.bin .lcm (.lit 0) (.lit 0)).value ideal = some 0 ∧
      ∃ s, runExpr fl (.bin .lcm (.lit 0) (.lit 0)) = .error (.expect s)) ∧
    ((Expr.bin .pow (.lit 0) (.lit (-1))).value ideal = none ∧
      ∃ b, runExpr fl (.bin .pow (.lit 0) (.lit (-1))) = .ok b ∧ b.toText = .ok ['0']) ∧
    ((Expr.modPow (.lit 1) (.lit 0) (.lit 1)).value ideal = some 0 ∧
      ∃ b, runExpr fl (.modPow (.lit 1) (.lit 0) (.lit 1)) = .ok b ∧ b.toText = .ok ['1']) ∧
    ((Expr.modPow (.lit 2) (.lit (-1)) (.lit 7)).value ideal = none ∧
      ∃ b, runExpr fl (.modPow (.lit 2) (.lit (-1)) (.lit 7)) = .ok b ∧ b.toText = .ok ['1']) := by
  refine ⟨⟨by decide +kernel, ?_⟩, ⟨by decide +kernel, ?_⟩, ⟨by decide +kernel, ?_⟩, ⟨by decide +kernel, ?_⟩,
    by decide +kernel, ?_⟩
  · exact C81_exact fl hfl (.bin .shiftLeft (.lit 1) (.lit 3))
  · exact C81_exact fl hfl (.bin .lcm (.lit 0) (.lit 0))
  · have := C81_exact fl hfl (.bin .pow (.lit 0) (.lit (-1)))
    rw [show (Expr.bin .pow (.lit 0) (.lit (-1))).value actual = some 0 by decide +kernel] at this
    obtain ⟨b, b1, b2⟩ := this
    exact ⟨b, b1, by rw [b2]; exact congrArg _ (by decide +kernel)⟩
  · have := C81_exact fl hfl (.modPow (.lit 1) (.lit 0) (.lit 1))
    rw [show (Expr.modPow (.lit 1) (.lit 0) (.lit 1)).value actual = some 1 by decide +kernel] at this
    obtain ⟨b, b1, b2⟩ := this
    exact ⟨b, b1, by rw [b2]; exact congrArg _ (by decide +kernel)⟩
  · have := C81_exact fl hfl (.modPow (.lit 2) (.lit (-1)) (.lit 7))
    rw [show (Expr.modPow (.lit 2) (.lit (-1)) (.lit 7)).value actual = some 1 by decide +kernel] at this
    obtain ⟨b, b1, b2⟩ := this
    exact ⟨b, b1, by rw [b2]; exact congrArg _ (by decide +kernel)⟩

/-- **C81.** No shift by a big integer is possible, whatever it is. -/
theorem C81_shift_by_big (fl : Rat → Rat) (hfl : Rounding fl) (a b : Expr) (left : Bool) :
    ∃ message, runExpr fl (.bin (if left then .shiftLeft else .shiftRight) a b) = .error (.expect message) := by
  have h : ∀ o : BinOp, (o = .shiftLeft ∨ o = .shiftRight) → (Expr.bin o a b).value actual = none := by
    intro o ho
    rw [Expr.value]
    cases a.value actual with
    | none => rfl
    | some x =>
      cases b.value actual with
      | none => rfl
      | some y => rcases ho with rfl | rfl <;> rfl
  cases left
  · have := C81_exact fl hfl (.bin .shiftRight a b)
    rw [h _ (.inr rfl)] at this
    exact this
  · have := C81_exact fl hfl (.bin .shiftLeft a b)
    rw [h _ (.inl rfl)] at this
    exact this

/-- The address bits of a stack word: a number of 256 bits combined with the number of 160 ones, what is
left of its opposite above 160 bits, and a power that is not small. -/
def BigMathExample.word : Int := 0x112233445566778899aabbccddeeff00112233445566778899aabbccddeeff01

example : Plain (.bin .xor (.bin .and (.lit BigMathExample.word)
      (.un .prev (.bin .pow (.lit 2) (.lit 160)))) (.shift false (.un .negate (.lit BigMathExample.word)) 160)) ∧
    (Expr.bin .and (.lit BigMathExample.word) (.un .prev (.bin .pow (.lit 2) (.lit 160)))).value ideal =
      some 0xddeeff00112233445566778899aabbccddeeff01 ∧
    (Expr.shift false (.un .negate (.lit BigMathExample.word)) 160).value ideal =
      some (-0x112233445566778899aabbcd) := by
  refine ⟨?_, by decide +kernel, by decide +kernel⟩
  simp only [Plain, Expr.value]
  refine ⟨⟨trivial, ⟨trivial, trivial, ?_⟩, fun _ _ _ _ => trivial⟩, ⟨trivial, by decide⟩, fun _ _ _ _ => trivial⟩
  intro x y hx hy
  cases hx
  cases hy
  exact ⟨.inl (by decide), .inl (by decide)⟩

example : ((runExpr id (.bin .and (.lit BigMathExample.word) (.un .prev (.bin .pow (.lit 2) (.lit 160))))).bind
    Big.toText).toOption = some "1267016751365005875864473878970375038652499558145".toList := by decide +kernel

example : Plain (.bin .gcd (.bin .lcm (.lit 12) (.lit (-18))) (.modPow (.lit (-7)) (.lit 100) (.lit 1000))) ∧
    (Expr.bin .gcd (.bin .lcm (.lit 12) (.lit (-18))) (.modPow (.lit (-7)) (.lit 5) (.lit 1000))).value ideal =
      some 3 := by
  refine ⟨?_, by decide +kernel⟩
  simp only [Plain, Expr.value]
  refine ⟨⟨trivial, trivial, ?_⟩, ⟨trivial, trivial, trivial, ?_⟩, fun _ _ _ _ => trivial⟩
  · intro x y hx hy; cases hx; exact .inl (by decide)
  · intro x y hx hy; cases hx; exact .inl (by decide)

/-- **C81.** The inverse modulo a positive number: it exists exactly for numbers without a common divisor,
the product with it leaves one, and it lies between zero and the modulus, with the sign of the number. -/
theorem C81_inverse_partial (fl : Rat → Rat) (hfl : Rounding fl) (a b : Expr) (x n : Int)
    (ha : a.value actual = some x) (hb : b.value actual = some n) (hn : 0 < n) :
    ∃ ba bb, runExpr fl a = .ok ba ∧ runExpr fl b = .ok bb ∧
      ((∀ d : Nat, d ∣ x.natAbs → d ∣ n.natAbs → d = 1) →
        ∃ r v, ba.modInv fl bb = .ok r ∧ r.toText = .ok (intNumeral 10 v) ∧ n ∣ v * x - 1 ∧
          (0 ≤ x → 0 ≤ v ∧ v ≤ n) ∧ (x < 0 → -n ≤ v ∧ v ≤ 0)) ∧
      ((∃ d : Nat, d ∣ x.natAbs ∧ d ∣ n.natAbs ∧ d ≠ 1) →
        ba.modInv fl bb = .error (.expect "are not co-prime")) := by
  have h := runExpr_ok hfl a
  have k := runExpr_ok hfl b
  rw [ha] at h
  rw [hb] at k
  obtain ⟨ba, h1, h2, rfl⟩ := h
  obtain ⟨bb, k1, k2, rfl⟩ := k
  have := modInv_ok hfl h2 k2 hn
  refine ⟨ba, bb, h1, k1, fun hc => ?_, fun ⟨d, d1, d2, d3⟩ => ?_⟩
  · rw [if_pos (show Int.gcd ba.toInt bb.toInt = 1 from hc _ (Nat.gcd_dvd_left ..) (Nat.gcd_dvd_right ..))] at this
    obtain ⟨r, r1, r2, r3, r4, r5⟩ := this
    exact ⟨r, r.toInt, r1, toText_ok r2, r3, r4, r5⟩
  · rw [if_neg fun hg => d3 (Nat.dvd_one.mp (by rw [← hg]; exact Nat.dvd_gcd d1 d2))] at this
    exact this

/-- **C81, what fails for inverses.** Three has an inverse modulo minus seven (minus two), but the library
says that they have a common divisor. -/
theorem C81_inverse_refuted (fl : Rat → Rat) : (-7 : Int) ∣ (-2) * 3 - 1 ∧
    (Big.ofSmall 3).modInv fl (Big.ofSmall (-7)) = .error (.expect "are not co-prime") :=
  ⟨by decide, by rfl⟩

/-- The inverse of three modulo the number of elements of the field of the curve. -/
example : (parseStringValue
      "115792089237316195423570985008687907853269984665640564039457584007908834671663".toList).bind
    (fun r => (r.bind fun n => ((Big.ofSmall 3).modInv id n).bind Big.toText).toOption) =
    some "77194726158210796949047323339125271902179989777093709359638389338605889781109".toList := by decide +kernel

/-- **C81.** The predicates: parity, signs, units, divisibility. Nothing is divisible by zero. -/
theorem C81_predicates (fl : Rat → Rat) (hfl : Rounding fl) (a b : Expr) (x n : Int)
    (ha : a.value actual = some x) (hb : b.value actual = some n) :
    ∃ ba bb, runExpr fl a = .ok ba ∧ runExpr fl b = .ok bb ∧
      ba.isEven = decide (x % 2 = 0) ∧ ba.isOdd = decide (x % 2 = 1) ∧ ba.isPositive = decide (0 < x) ∧
      ba.isNegative = decide (x < 0) ∧ ba.isZero = decide (x = 0) ∧ ba.isUnit = decide (x = 1 ∨ x = -1) ∧
      ba.equals bb = decide (x = n) ∧ ba.greater bb = decide (n < x) ∧ ba.lesser bb = decide (x < n) ∧
      ba.isDivisibleBy fl bb = .ok (decide (n ≠ 0 ∧ x % n = 0)) := by
  have h := runExpr_ok hfl a
  have k := runExpr_ok hfl b
  rw [ha] at h
  rw [hb] at k
  obtain ⟨ba, h1, h2, rfl⟩ := h
  obtain ⟨bb, k1, k2, rfl⟩ := k
  refine ⟨ba, bb, h1, k1, isEven_eq h2, isOdd_eq h2, isPositive_eq h2, isNegative_eq h2, isZero_eq h2, ?_,
    equals_eq h2 k2, greater_eq h2 k2, lesser_eq h2 k2, ?_⟩
  · rw [isUnit_eq h2]
    apply decide_eq_decide.mpr
    omega
  · rw [isDivisibleBy_ok hfl h2 k2]
    congr 1
    apply decide_eq_decide.mpr
    rw [Int.dvd_iff_emod_eq_zero]

end Verif.Props
