import Verif.Lemmas.ReadBackText
/-! Helper lemmas: what is seen of a trace is determined by its lines. -/
namespace Verif
open Spec
namespace ReadBack

/-! ### The texts of what is seen -/

/-- Function and arguments as shown. -/
def nameOf (input : Bytes) : List Char × List Char :=
  match input with
  | a :: b :: c :: d :: rest => (hexEncode [a, b, c, d], hexEncode rest)
  | short => ("fallback".toList, hexEncode short)

def valueChars (v : U256) : List Char :=
  if v = 0 then [] else "{value: ".toList ++ (Nat.toDigits 10 v.toNat ++ ['}'])

def suffixChars (k : CallKind) : List Char :=
  match kindSuffix k with
  | some s => s.toList
  | none => []

/-- What a creation is shown with, behind the arrow. -/
def newRest : List Char := " new <unknown>@".toList

/-- The part of the header behind the gas. -/
def whatChars (f : Address → List Char) : Seen → List Char
  | .created a _ => '→' :: (newRest ++ f a)
  | .called k a v input _ => f a ++ (':' :: ':' :: ((nameOf input).1 ++ (valueChars v ++
      ('(' :: ((nameOf input).2 ++ (')' :: suffixChars k))))))

def headChars (f : Address → List Char) (s : SeenFrame) : List Char :=
  '[' :: (Nat.toDigits 10 s.gasUsed ++ (']' :: ' ' :: whatChars f s.what))

def outChars : Seen → List Char
  | .created _ n => Nat.toDigits 10 n ++ " bytes of code".toList
  | .called _ _ _ _ out => if out = [] then [] else '0' :: 'x' :: hexEncode out

def footChars (s : SeenFrame) : List Char :=
  '←' :: ' ' :: '[' :: (s.status.debug.toList ++ (']' :: ' ' :: outChars s.what))

/-- The frame could have been shown: calls are not creations. -/
def Sane (s : SeenFrame) : Prop :=
  match s.what with
  | .called k _ _ _ _ => k ≠ .Create ∧ k ≠ .Create2
  | _ => True

/-- Two headers look alike: everything but the results is the same. -/
def HeadEq : Seen → Seen → Prop
  | .created a _, .created b _ => a = b
  | .called k a v i _, .called k' a' v' i' _ => k = k' ∧ a = a' ∧ v = v' ∧ i = i'
  | _, _ => False

theorem nameOf_fst (i : Bytes) : ∀ c ∈ (nameOf i).1, decide (c ≠ '{' ∧ c ≠ '(') = true := by
  have hx : ∀ c, isHex c = true → decide (c ≠ '{' ∧ c ≠ '(') = true := by
    intro c hc
    rw [decide_eq_true_eq]
    constructor <;> rintro rfl <;> revert hc <;> decide
  intro c hc
  unfold nameOf at hc
  split at hc
  · exact hx c (hexEncode_isHex _ c hc)
  · have h : ∀ c ∈ "fallback".toList, decide (c ≠ '{' ∧ c ≠ '(') = true := by decide
    exact h c hc

theorem nameOf_snd (i : Bytes) : ∀ c ∈ (nameOf i).2, isHex c = true := by
  intro c hc
  unfold nameOf at hc
  split at hc <;> exact hexEncode_isHex _ c hc

theorem nameOf_inj {i j : Bytes} (h1 : (nameOf i).1 = (nameOf j).1) (h2 : (nameOf i).2 = (nameOf j).2) : i = j := by
  have hne : ∀ a : Bytes, hexEncode a ≠ "fallback".toList := by
    intro a h
    have := hexEncode_isHex a 'l' (by rw [h]; decide)
    revert this; decide
  unfold nameOf at h1 h2
  split at h1
  · rename_i a b c d r
    split at h1
    · rename_i a' b' c' d' r'
      simp only at h2
      have := hexEncode_inj h1
      simp only [List.cons.injEq, and_true] at this
      obtain ⟨rfl, rfl, rfl, rfl⟩ := this
      rw [hexEncode_inj h2]
    · exact absurd h1 (hne _)
  · split at h1
    · exact absurd h1.symm (hne _)
    · rename_i ha _ hb
      split at h2
      · exact absurd rfl (ha _ _ _ _ _)
      · exact hexEncode_inj h2

theorem suffix_inj {k l : CallKind} (hk : k ≠ .Create ∧ k ≠ .Create2) (hl : l ≠ .Create ∧ l ≠ .Create2)
    (h : suffixChars k = suffixChars l) : k = l := by
  cases k <;> cases l <;> revert h <;> revert hk hl <;> decide

theorem value_inj {v w : U256} {a b : List Char} (h : valueChars v ++ '(' :: a = valueChars w ++ '(' :: b) :
    v = w ∧ a = b := by
  unfold valueChars at h
  split at h
  · rename_i hv
    split at h
    · rename_i hw
      simp only [List.nil_append, List.cons.injEq, true_and] at h
      exact ⟨by rw [hv, hw], h⟩
    · rw [show "{value: ".toList = '{' :: "value: ".toList from rfl] at h
      simp at h
  · split at h
    · rw [show "{value: ".toList = '{' :: "value: ".toList from rfl] at h
      simp at h
    · simp only [List.append_assoc, List.append_cancel_left_eq] at h
      obtain ⟨h1, h2⟩ := span_eq (digits_digit _) (digits_digit _) (by simp) (by simp) h
      simp only [List.cons_append, List.nil_append, List.cons.injEq, true_and] at h2
      exact ⟨BitVec.eq_of_toNat_eq (digits_inj h1), h2⟩

theorem value_head (v : U256) (r : List Char) :
    ∀ x, (valueChars v ++ '(' :: r).head? = some x → decide (x ≠ '{' ∧ x ≠ '(') = false := by
  intro x hx
  unfold valueChars at hx
  split at hx
  · simp only [List.nil_append, List.head?_cons, Option.some.injEq] at hx; subst hx; decide
  · rw [show "{value: ".toList = '{' :: "value: ".toList from rfl] at hx
    simp only [List.cons_append, List.head?_cons, Option.some.injEq] at hx; subst hx; decide

theorem what_inj {f : Address → List Char} (hf : AddrText f) {s t : Seen}
    (hs : match s with | .called k _ _ _ _ => k ≠ .Create ∧ k ≠ .Create2 | _ => True)
    (ht : match t with | .called k _ _ _ _ => k ≠ .Create ∧ k ≠ .Create2 | _ => True)
    (h : whatChars f s = whatChars f t) : HeadEq s t := by
  have hbad : ∀ (a b : Address) (r : List Char), '→' :: (newRest ++ f a) ≠ f b ++ r := by
    intro a b r h
    obtain ⟨q, hq⟩ := hf.start b
    rw [hq, List.cons_append, List.cons.injEq] at h
    exact absurd h.1 (by decide)
  cases s with
  | created a n =>
    cases t with
    | created b m =>
      rw [whatChars, whatChars, List.cons.injEq, List.append_cancel_left_eq] at h
      exact hf.inj a b h.2
    | called k b v i o => rw [whatChars, whatChars] at h; exact (hbad _ _ _ h).elim
  | called k a v i o =>
    cases t with
    | created b m => rw [whatChars, whatChars] at h; exact (hbad _ _ _ h.symm).elim
    | called k' b v' i' o' =>
      rw [whatChars, whatChars] at h
      obtain ⟨h1, h2⟩ := List.append_inj h (by rw [hf.len, hf.len])
      simp only [List.cons.injEq, true_and] at h2
      obtain ⟨h3, h4⟩ := span_eq (nameOf_fst i) (nameOf_fst i') (value_head _ _) (value_head _ _) h2
      obtain ⟨h5, h6⟩ := value_inj h4
      obtain ⟨h7, h8⟩ := span_eq (nameOf_snd i) (nameOf_snd i') (by simp; decide) (by simp; decide) h6
      simp only [List.cons.injEq, true_and] at h8
      exact ⟨suffix_inj hs ht h8, hf.inj a b h1, h5, nameOf_inj h3 h7⟩

theorem debug_inj {a b : InstructionResult} (h : a.debug = b.debug) : a = b := by
  cases a <;> cases b <;> first | rfl | (exfalso; revert h; decide)

theorem debug_chars (a : InstructionResult) : ∀ c ∈ a.debug.toList, decide (c ≠ ']' ∧ c ≠ '\n') = true := by
  cases a <;> decide

theorem frame_inj {f : Address → List Char} (hf : AddrText f) {s t : SeenFrame} (hs : Sane s) (ht : Sane t)
    (h1 : headChars f s = headChars f t) (h2 : footChars s = footChars t) : s = t := by
  simp only [headChars, List.cons.injEq, true_and] at h1
  obtain ⟨e1, e2⟩ := span_eq (digits_digit _) (digits_digit _) (by simp) (by simp) h1
  simp only [List.cons.injEq, true_and] at e2
  have e3 := what_inj hf hs ht e2
  simp only [footChars, List.cons.injEq, true_and] at h2
  obtain ⟨e4, e5⟩ := span_eq (debug_chars _) (debug_chars _) (by simp) (by simp) h2
  simp only [List.cons.injEq, true_and] at e5
  have e6 := debug_inj (String.toList_inj.1 e4)
  obtain ⟨g, r, w⟩ := s
  obtain ⟨g', r', w'⟩ := t
  simp only at e1 e3 e5 e6
  have : w = w' := by
    cases w with
    | created a n =>
      cases w' with
      | created b m =>
        simp only [HeadEq] at e3
        simp only [outChars, List.append_cancel_right_eq] at e5
        rw [e3, digits_inj e5]
      | called => exact e3.elim
    | called k a v i o =>
      cases w' with
      | created b m => exact e3.elim
      | called k' a' v' i' o' =>
        obtain ⟨rfl, rfl, rfl, rfl⟩ := e3
        simp only [outChars] at e5
        split at e5
        · split at e5
          · rename_i h h'; rw [h, h']
          · simp at e5
        · split at e5
          · simp at e5
          · simp only [List.cons.injEq, true_and] at e5
            rw [hexEncode_inj e5]
  rw [digits_inj e1, e6, this]

end ReadBack
end Verif
