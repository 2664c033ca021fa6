import Verif.Props.Standalone
import Verif.Spec.JsValues
import Verif.Lemmas.Stored
/-!
# C37: the keys of the four-byte statistics, as text
-/
namespace Verif.Props
open Spec

/-- The digits of a byte are those the formatter writes, if they are no capitals. -/
theorem hex_byte (z : UInt8) {a b : Char} {x y : Nat} (ha : IsHexDigit a x) (hb : IsHexDigit b y)
    (hz : z.toNat = 16 * x + y) (la : a.isUpper = false) (lb : b.isUpper = false) :
    a = Nat.digitChar (z.toNat / 16) ∧ b = Nat.digitChar (z.toNat % 16) := by
  have h1 : ∀ {c : Char} {n : Nat}, IsHexDigit c n → c.isUpper = false → c = Nat.digitChar n ∧ n < 16 := by
    intro c n h hl
    unfold IsHexDigit at h
    simp only [List.mem_cons, Prod.mk.injEq, List.not_mem_nil, or_false] at h
    rcases h with ⟨rfl, rfl⟩ | ⟨rfl, rfl⟩ | ⟨rfl, rfl⟩ | ⟨rfl, rfl⟩ | ⟨rfl, rfl⟩ | ⟨rfl, rfl⟩ | ⟨rfl, rfl⟩ | ⟨rfl, rfl⟩ |
      ⟨rfl, rfl⟩ | ⟨rfl, rfl⟩ | ⟨rfl, rfl⟩ | ⟨rfl, rfl⟩ | ⟨rfl, rfl⟩ | ⟨rfl, rfl⟩ | ⟨rfl, rfl⟩ | ⟨rfl, rfl⟩ | ⟨rfl, rfl⟩ |
      ⟨rfl, rfl⟩ | ⟨rfl, rfl⟩ | ⟨rfl, rfl⟩ | ⟨rfl, rfl⟩ | ⟨rfl, rfl⟩
    all_goals first | exact ⟨by decide, by decide⟩ | exact absurd hl (by decide)
  obtain ⟨a1, a2⟩ := h1 ha la
  obtain ⟨b1, b2⟩ := h1 hb lb
  rw [a1, b1]
  exact ⟨by congr 1; omega, by congr 1; omega⟩

/-- The formatter writes the hexadecimal digits of the bytes, without capitals. -/
theorem hexChars_iff (h : List Char) (b : Bytes) :
    h = hexChars b ↔ HexDenotes h b ∧ ∀ c ∈ h, c.isUpper = false := by
  constructor
  · rintro rfl
    have hd : ∀ n : Fin 16, IsHexDigit (Nat.digitChar n.val) n.val ∧ (Nat.digitChar n.val).isUpper = false := by decide
    induction b with
    | nil => exact ⟨.nil, by simp [hexChars]⟩
    | cons z bs ih =>
      have hz := z.toNat_lt
      obtain ⟨p1, p2⟩ := hd ⟨z.toNat / 16, by omega⟩
      obtain ⟨q1, q2⟩ := hd ⟨z.toNat % 16, by omega⟩
      refine ⟨.pair p1 q1 (by simp only; omega) ih.1, ?_⟩
      intro c hc
      simp only [hexChars, List.flatMap_cons, List.cons_append, List.nil_append, List.mem_cons] at hc
      rcases hc with rfl | rfl | hc
      · exact p2
      · exact q2
      · exact ih.2 c hc
  · rintro ⟨hd, hl⟩
    induction hd with
    | nil => rfl
    | @pair a b' x y z s bs ha hb hz _ ih =>
      obtain ⟨e1, e2⟩ := hex_byte z ha hb hz (hl _ (by simp)) (hl _ (by simp))
      rw [ih (fun c hc => hl c (by simp [hc])), e1, e2]
      rfl

/-- **C37, keys as text.** Whatever the order in which the table is read, the frame has an entry exactly for every
pair that was counted: its key is `0x`, the selector in hexadecimal without capitals, `-` and the size in
decimal. -/
theorem C37_key_text (es : List Event) (s : FourByte) (hs : runHooks fourByteHook [] es = .ok s)
    (h : ∀ sel size, callsWith sel size es < 2 ^ 64)
    (entries : List ((Bytes × Nat) × Nat)) (hperm : entries.Perm s) (key : List Char) (n : Nat) :
    AMap.get? (fourByteFrame entries) key = some n ↔
      ∃ sel size hex, HexDenotes hex sel ∧ (∀ c ∈ hex, c.isUpper = false) ∧
        key = "0x".toList ++ hex ++ "-".toList ++ numeral 10 size ∧ callsWith sel size es = n ∧ n ≠ 0 := by
  rw [C37_frame es s hs h entries hperm key n]
  constructor
  · rintro ⟨sel, size, rfl, h1, h2⟩
    refine ⟨sel, size, hexChars sel, ((hexChars_iff _ _).1 rfl).1, ((hexChars_iff _ _).1 rfl).2, ?_, h1, h2⟩
    simp [fourByteKey, Stored.toDigits_numeral]
  · rintro ⟨sel, size, hex, p1, p2, rfl, h1, h2⟩
    refine ⟨sel, size, ?_, h1, h2⟩
    rw [(hexChars_iff _ _).2 ⟨p1, p2⟩]
    simp [fourByteKey, Stored.toDigits_numeral]

/-- A call with the selector `27dc297e` and two more bytes is counted under `0x27dc297e-2`. -/
example : AMap.get? (fourByteFrame [(([0x27, 0xdc, 0x29, 0x7e], 2), 1)]) "0x27dc297e-2".toList = some 1 ∧
    HexDenotes "27dc297e".toList [0x27, 0xdc, 0x29, 0x7e] ∧ numeral 10 2 = ['2'] :=
  ⟨by decide, ((hexChars_iff _ _).1 (by decide)).1, by simp [numeral, digit]⟩

end Verif.Props
