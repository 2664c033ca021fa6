import Verif.Spec.ReadBack
import Verif.Lemmas.Writer
import Verif.Props.Memory
/-! Helper lemmas: the pieces of a printed trace can be told apart. -/
namespace Verif
open Spec
namespace ReadBack

/-! ### Lists -/

/-- Two texts that are cut at the first place where `P` fails are cut alike. -/
theorem span_eq {P : Char → Bool} : ∀ {p q a b : List Char}, (∀ x ∈ p, P x = true) → (∀ x ∈ q, P x = true) →
    (∀ x, a.head? = some x → P x = false) → (∀ x, b.head? = some x → P x = false) →
    p ++ a = q ++ b → p = q ∧ a = b
  | [], [], _, _, _, _, _, _, h => ⟨rfl, h⟩
  | [], y :: q, a, b, _, hq, ha, _, h => by
    simp only [List.nil_append, List.cons_append] at h
    have h1 := ha y (by rw [h]; rfl)
    rw [hq y (by simp)] at h1; cases h1
  | y :: p, [], a, b, hp, _, _, hb, h => by
    simp only [List.nil_append, List.cons_append] at h
    have h1 := hb y (by rw [← h]; rfl)
    rw [hp y (by simp)] at h1; cases h1
  | x :: p, y :: q, a, b, hp, hq, ha, hb, h => by
    simp only [List.cons_append, List.cons.injEq] at h
    obtain ⟨h1, h2⟩ := h
    obtain ⟨e1, e2⟩ := span_eq (fun z hz => hp z (by simp [hz])) (fun z hz => hq z (by simp [hz])) ha hb h2
    exact ⟨by rw [h1, e1], e2⟩

/-- Lines without line breaks can be cut out of the text. -/
theorem lines_eq : ∀ {k l : List (List Char)}, (∀ x ∈ k, '\n' ∉ x) → (∀ x ∈ l, '\n' ∉ x) →
    k.flatMap (· ++ ['\n']) = l.flatMap (· ++ ['\n']) → k = l
  | [], [], _, _, _ => rfl
  | [], y :: l, _, _, h => by simp at h
  | x :: k, [], _, _, h => by simp at h
  | x :: k, y :: l, hk, hl, h => by
    simp only [List.flatMap_cons, List.append_assoc, List.cons_append, List.nil_append] at h
    have := span_eq (P := fun c => c ≠ '\n') (p := x) (q := y)
      (fun z hz => by have := hk x (by simp); simp only [ne_eq, decide_not, Bool.not_eq_true', decide_eq_false_iff_not]
                      rintro rfl; exact this hz)
      (fun z hz => by have := hl y (by simp); simp only [ne_eq, decide_not, Bool.not_eq_true', decide_eq_false_iff_not]
                      rintro rfl; exact this hz)
      (by simp) (by simp) h
    obtain ⟨e1, e2⟩ := this
    simp only [List.cons.injEq, true_and] at e2
    rw [e1, lines_eq (fun z hz => hk z (by simp [hz])) (fun z hz => hl z (by simp [hz])) e2]

/-! ### Numbers -/

theorem digits_inj {a b : Nat} (h : Nat.toDigits 10 a = Nat.toDigits 10 b) : a = b := by
  rw [← Nat.ofDigitChars_ten_toDigits (n := a), h, Nat.ofDigitChars_ten_toDigits]

theorem digits_digit (a : Nat) : ∀ x ∈ Nat.toDigits 10 a, x.isDigit = true :=
  fun _ hx => Nat.isDigit_of_mem_toDigits (by decide) (by decide) hx

/-- A number to the base `b` is determined by its digits. -/
theorem places_inj {b : Nat} (hb : 0 < b) : ∀ (k : Nat) {m n : Nat}, m < b ^ k → n < b ^ k →
    (∀ i, i < k → m / b ^ i % b = n / b ^ i % b) → m = n := by
  intro k m n hm hn h
  have : ∀ j, j ≤ k → m % b ^ j = n % b ^ j := by
    intro j
    induction j with
    | zero => intro _; simp [Nat.mod_one]
    | succ j ih =>
      intro hj
      rw [Nat.mod_pow_succ, Nat.mod_pow_succ, ih (by omega), h j (by omega)]
  have := this k (Nat.le_refl _)
  rwa [Nat.mod_eq_of_lt hm, Nat.mod_eq_of_lt hn] at this

theorem digit_inj {a b : Nat} (ha : a < 16) (hb : b < 16) (h : digit a = digit b) : a = b := by
  have : ∀ (x y : Fin 16), digit x.val = digit y.val → x = y := by decide
  have := this ⟨a, ha⟩ ⟨b, hb⟩ h
  simpa using this

theorem wordDigits_inj {a b : U256} (h : wordDigits a = wordDigits b) : a = b := by
  apply BitVec.eq_of_toNat_eq
  refine places_inj (b := 16) (by decide) 64 (Nat.lt_of_lt_of_le a.isLt (by decide))
    (Nat.lt_of_lt_of_le b.isLt (by decide)) ?_
  intro i hi
  have := congrArg (fun l => l[63 - i]?) h
  simp only [wordDigits, List.getElem?_map, List.getElem?_range (show 63 - i < 64 by omega), Option.map_some,
    Option.some.injEq] at this
  have h63 : 63 - (63 - i) = i := by omega
  rw [h63] at this
  exact digit_inj (Nat.mod_lt _ (by decide)) (Nat.mod_lt _ (by decide)) this

theorem wordDigits_hex (a : U256) : ∀ c ∈ wordDigits a, c ≠ '\n' := by
  intro c hc
  simp only [wordDigits, List.mem_map] at hc
  obtain ⟨i, _, rfl⟩ := hc
  have : ∀ x : Fin 16, digit x.val ≠ '\n' := by decide
  exact this ⟨_, Nat.mod_lt _ (by decide)⟩

/-! ### Bytes -/

theorem hexEncode_inj {a b : Bytes} (h : hexEncode a = hexEncode b) : a = b := by
  have h1 := Props.hexDecode_hexEncode a
  rw [h, Props.hexDecode_hexEncode] at h1
  exact (Option.some.inj h1).symm

/-- The characters of hexadecimal texts. -/
def isHex (c : Char) : Bool := c.isDigit || ('a' ≤ c && c ≤ 'f')

theorem hexEncode_isHex (a : Bytes) : ∀ c ∈ hexEncode a, isHex c = true := by
  intro c hc
  simp only [hexEncode, List.mem_flatMap] at hc
  obtain ⟨b, _, hc⟩ := hc
  have : ∀ x : Fin 16, isHex (hexDigit x.val) = true := by decide
  have hb := b.toNat_lt
  simp only [List.mem_cons, List.not_mem_nil, or_false] at hc
  rcases hc with rfl | rfl
  · exact this ⟨b.toNat / 16, by omega⟩
  · exact this ⟨b.toNat % 16, by omega⟩

theorem addressBytes_inj {a b : Address} (h : addressBytes a = addressBytes b) : a = b := by
  apply BitVec.eq_of_toNat_eq
  refine places_inj (b := 256) (by decide) 20 (Nat.lt_of_lt_of_le a.isLt (by decide))
    (Nat.lt_of_lt_of_le b.isLt (by decide)) ?_
  intro i hi
  have := congrArg (fun l => l[19 - i]?) h
  simp only [addressBytes, List.getElem?_map, List.getElem?_range (show 19 - i < 20 by omega), Option.map_some,
    Option.some.injEq] at this
  have h19 : 19 - (19 - i) = i := by omega
  rw [h19] at this
  have := congrArg UInt8.toNat this
  simpa [UInt8.toNat_ofNat'] using this

/-- What is needed of the text of an address. -/
structure AddrText (f : Address → List Char) : Prop where
  inj : ∀ a b, f a = f b → a = b
  len : ∀ a, (f a).length = 42
  start : ∀ a, ∃ r, f a = '0' :: r
  line : ∀ a, '\n' ∉ f a

theorem addrText {f : Address → String} (h : AddressText f) : AddrText fun a => (f a).toList where
  inj a b hab := by
    obtain ⟨d, h1, h2⟩ := h a
    obtain ⟨e, h3, h4⟩ := h b
    simp only [h1, h3, List.cons.injEq, true_and] at hab
    rw [hab, h4] at h2
    exact (addressBytes_inj (hexEncode_inj h2)).symm
  len a := by
    obtain ⟨d, h1, h2⟩ := h a
    have := congrArg List.length h2
    simp only [List.length_map, Props.hexEncode_length] at this
    simp [h1, this, addressBytes]
  start a := by
    obtain ⟨d, h1, h2⟩ := h a
    exact ⟨_, h1⟩
  line a := by
    obtain ⟨d, h1, h2⟩ := h a
    simp only [h1, List.mem_cons, not_or]
    refine ⟨by decide, by decide, fun hm => ?_⟩
    have : Char.toLower '\n' ∈ hexEncode (addressBytes a) := by rw [← h2]; exact List.mem_map_of_mem hm
    have := hexEncode_isHex _ _ this
    revert this; decide

end ReadBack
end Verif
