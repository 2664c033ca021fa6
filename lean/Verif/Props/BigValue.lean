import Verif.Props.BigNumber
import Verif.Props.BigMath
/-! C97: big integers as numbers. -/
namespace Verif.Props
open BigJs Spec

/-- The number of a well-formed big integer. -/
theorem valueOf_ok {fl : Rat → Rat} (hfl : Rounding fl) {b : Big} (h : b.Ok) :
    (b.toInt.natAbs < 2 ^ 53 ∧ b.valueOf fl = .ok (some (b.toInt : Rat))) ∨
    (2 ^ 53 ≤ b.toInt.natAbs ∧ b.valueOf fl = .ok (some (toDouble fl b.toInt))) := by
  have hM : (MAX_INT : Int) = 9007199254740992 := rfl
  cases hb : b with
  | small v s =>
    subst hb
    obtain ⟨h1, h2, _⟩ := h
    left
    exact ⟨by show v.natAbs < _; omega, rfl⟩
  | big a s =>
    rw [← hb]
    right
    have ht := toText_ok h
    obtain ⟨l, hv, hl, hval, _⟩ := numeral_literal b.toInt
    refine ⟨?_, ?_⟩
    · subst hb
      have h3 : MAX_INT ≤ val a := h.2.2
      show 2 ^ 53 ≤ (if s = true then -(val a : Int) else val a).natAbs
      split <;> omega
    · have : b.valueOf fl = (b.toText >>= fun text => .ok (stringToNumber fl text)) := by
        subst hb; rfl
      rw [this, ht, ← hl]
      show Except.ok (stringToNumber fl l.text) = _
      rw [stringToNumber_literal fl l hv, hval]

/-- **C97.** The number of a big integer is a double, and none is nearer to the integer; it is the integer
itself if there is a double that is equal to it. -/
theorem C97_nearest (fl : Rat → Rat) (hfl : Rounding fl) (e : Expr) (n : Int) (he : e.value actual = some n)
    (hs : n.natAbs ≤ 2 ^ 1023) :
    ∃ b x, runExpr fl e = .ok b ∧ b.valueOf fl = .ok (some x) ∧ IsDouble x ∧
      (∀ d, IsDouble d → ratDist x n ≤ ratDist d n) ∧ (IsDouble n → x = n) := by
  have ho := runExpr_ok hfl e
  rw [he] at ho
  obtain ⟨b, h1, h2, h3⟩ := ho
  have hz : ∀ x y : Rat, ratDist x y ≤ ratDist y y → x = y := by
    intro x y h
    unfold ratDist at h
    split at h <;> grind
  have hself : ∀ y d : Rat, ratDist y y ≤ ratDist d y := by
    intro y d
    unfold ratDist
    split <;> split <;> grind
  rcases valueOf_ok hfl h2 with ⟨k1, k2⟩ | ⟨k1, k2⟩
  · rw [h3] at k1 k2
    refine ⟨b, _, h1, k2, ?_, fun d _ => hself _ d, fun _ => rfl⟩
    have := isDouble_mul (m := n) (e := 0) k1 (by decide)
    simpa using this
  · rw [h3] at k1 k2
    have hlo : -((2 : Rat) ^ 1023) ≤ n := by
      have : ((-(2 ^ 1023) : Int) : Rat) ≤ n := by exact_mod_cast (show -(2 ^ 1023 : Int) ≤ n by omega)
      rwa [Rat.intCast_neg, cast_pow] at this
    have hhi : (n : Rat) ≤ (2 : Rat) ^ 1023 := by
      have : (n : Rat) ≤ ((2 ^ 1023 : Int) : Rat) := by exact_mod_cast (show n ≤ (2 ^ 1023 : Int) by omega)
      rwa [cast_pow] at this
    rw [toDouble, if_neg (by intro h; rcases h with h | h <;> grind)] at k2
    obtain ⟨f1, f2⟩ := hfl n hlo hhi
    exact ⟨b, _, h1, k2, f1, f2, fun hd => hz _ _ (f2 _ hd)⟩

/-- **C97.** A number that is an integer comes back from the big integer made of it, even where that is
another integer (`C84_refuted`), if rounding treats both signs alike. -/
theorem C97_back (fl : Rat → Rat) (hfl : Rounding fl) (hsym : ∀ x, fl (-x) = -fl x) (x : Rat) (hd : IsDouble x)
    (text : List Char) (ht : x ≠ 0 → IsText fl x text) (n : Int) (hn : x = n) (hs : n.natAbs ≤ 2 ^ 1023) :
    ∃ b, parseNumber fl x text = .ok b ∧ b.valueOf fl = .ok (some x) := by
  have hs' : (if x < 0 then -x else x) ≤ 2 ^ 1023 := by
    rw [hn, abs_cast n]
    have := natCast_le hs
    rwa [Rat.natCast_pow] at this
  by_cases hx0 : x = 0
  · subst hx0
    exact ⟨.ofSmall 0, rfl, rfl⟩
  replace ht := ht hx0
  obtain ⟨z, ⟨b, h1, h2, h3, _⟩, h4, h5, _, hz⟩ := C84_back_partial fl hfl x hd text ht hs' n hn
  refine ⟨b, h1, ?_⟩
  rcases valueOf_ok hfl h2 with ⟨k1, k2⟩ | ⟨k1, k2⟩
  · rw [k2, h3]
    rw [h3] at k1
    refine congrArg (fun y => Except.ok (some y)) ?_
    rw [← Rat.intCast_natCast, fl_int hfl (m := (z.natAbs : Int)) (by omega) (by omega)] at h4
    split at h4
    · rename_i hx
      have := h5.mpr hx
      rw [show z = -(z.natAbs : Int) by omega, Rat.intCast_neg, h4, Rat.neg_neg]
    · rename_i hx
      have := mt h5.mp hx
      rw [show z = (z.natAbs : Int) by omega, h4]
  · rw [k2, h3]
    refine congrArg (fun y => Except.ok (some y)) ?_
    have hlo : -((2 : Rat) ^ 1023) ≤ z := by
      have : ((-(2 ^ 1023) : Int) : Rat) ≤ z := by exact_mod_cast (show -(2 ^ 1023 : Int) ≤ z by omega)
      rwa [Rat.intCast_neg, cast_pow] at this
    have hhi : (z : Rat) ≤ (2 : Rat) ^ 1023 := by
      have : (z : Rat) ≤ ((2 ^ 1023 : Int) : Rat) := by exact_mod_cast (show z ≤ (2 ^ 1023 : Int) by omega)
      rwa [cast_pow] at this
    rw [toDouble, if_neg (by intro h; rcases h with h | h <;> grind)]
    split at h4
    · rename_i hx
      have := h5.mpr hx
      rw [show z = -(z.natAbs : Int) by omega, Rat.intCast_neg, hsym]
      rw [Rat.intCast_natCast, h4, Rat.neg_neg]
    · rename_i hx
      have := mt h5.mp hx
      rw [show z = (z.natAbs : Int) by omega, Rat.intCast_natCast, h4]

/-- Such a rounding and such a text exist, for a number that is not the integer made of it. -/
example : ∃ fl, Rounding fl ∧ (∀ x, fl (-x) = -fl x) ∧ IsDouble (2 ^ 60) ∧ ∃ text, IsText fl (2 ^ 60) text := by
  obtain ⟨fl, hfl⟩ := rounding_exists
  have h0 : ∀ {f}, Rounding f → f 0 = 0 := fun hf => by
    have := fl_int hf (m := 0) (by decide) (by decide)
    exact this
  have hdn : ∀ {x : Rat}, IsDouble x → IsDouble (-x) := by
    rintro x ⟨m, e, h1, h2, h3⟩
    refine ⟨-m, e, by omega, h2, ?_⟩
    rw [h3, Rat.intCast_neg]
    grind
  have hd : IsDouble ((2 ^ 60 : Int).natAbs : Nat) := by
    have := isDouble_mul (m := 1) (e := 60) (by decide) (by decide)
    rwa [show ((1 : Int) : Rat) * 2 ^ 60 = (((2 ^ 60 : Int).natAbs : Nat) : Rat) by decide +kernel] at this
  have hval : (((2 ^ 60 : Int).natAbs : Nat) : Rat) = 2 ^ 60 := by decide +kernel
  have hfl' : Rounding fun x => if x < 0 then -fl (-x) else fl x := by
    intro x h1 h2
    by_cases hx : x < 0
    · obtain ⟨k1, k2⟩ := hfl (-x) (by grind) (by grind)
      simp only [hx, if_true]
      refine ⟨hdn k1, fun d hd => ?_⟩
      have := k2 (-d) (hdn hd)
      unfold ratDist at this ⊢
      split at this <;> split at this <;> split <;> split <;> grind
    · simp only [hx, if_false]
      exact hfl x h1 h2
  refine ⟨_, hfl', fun x => ?_, hval ▸ hd, ?_⟩
  · by_cases hx : x = 0
    · subst hx
      simp [h0 hfl]
    · by_cases hn : x < 0
      · have : ¬ (-x < 0) := by grind
        simp only [hn, this, if_true, if_false]
        grind
      · have : -x < 0 := by grind
        simp only [hn, this, if_true, if_false, Rat.neg_neg]
  · have := C84_text_exists _ hfl' (2 ^ 60) (by decide) hd (by decide +kernel)
    rwa [show (((2 ^ 60 : Int)) : Rat) = 2 ^ 60 by decide +kernel] at this

/-- An integer that is no double, and one that is. -/
example : (Expr.un .next (.shift true (.lit 1) 60)).value actual = some (2 ^ 60 + 1) ∧
    ((2 : Int) ^ 60 + 1).natAbs ≤ 2 ^ 1023 ∧ (Expr.lit (-5)).value actual = some (-5) := by
  refine ⟨by rfl, by decide +kernel, rfl⟩

end Verif.Props
