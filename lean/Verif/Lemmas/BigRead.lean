import Verif.Model.BigRead
import Verif.Spec.BigRead
import Verif.Lemmas.BigIntText
import Verif.Lemmas.BigMath
/-! Lemmas on reading big integers to a base. -/
namespace Verif.BigJs
open Spec

/-- A statement about all characters holds if it holds for the ASCII characters and for all others. -/
theorem ascii_or {P : Char → Prop} (h1 : ∀ k : Fin 128, P (Char.ofNat k.val)) (h2 : ∀ c, 128 ≤ c.toNat → P c)
    (c : Char) : P c := by
  by_cases h : c.toNat < 128
  · have := h1 ⟨c.toNat, h⟩
    rwa [Char.ofNat_toNat] at this
  · exact h2 c (by omega)

theorem le_char {a b : Char} : a ≤ b ↔ a.toNat ≤ b.toNat := by
  rw [Char.le_def, UInt32.le_iff_toNat_le]
  rfl

theorem digitValue_none {c : Char} (hc : 128 ≤ c.toNat) : digitValue c = none := by
  rw [digitValue, if_neg, if_neg, if_neg]
  · rw [le_char, le_char, show ('Z' : Char).toNat = 90 from rfl]; omega
  · rw [le_char, le_char, show ('z' : Char).toNat = 122 from rfl]; omega
  · rw [le_char, le_char, show ('9' : Char).toNat = 57 from rfl]; omega

theorem ofDigit_eq (c : Char) : ofDigit c = digitValue c := by
  refine ascii_or (P := fun c => ofDigit c = digitValue c) (by decide +kernel) (fun c hc => ?_) c
  have h1 : ofDigit c = none := by
    rw [ofDigit, List.find?_eq_none]
    intro d hd
    have hd' : d < 36 := List.mem_range.mp hd
    have small : ∀ d : Fin 36, (digit d.val).toNat < 128 ∧ (digit d.val).toUpper.toNat < 128 := by decide
    obtain ⟨s1, s2⟩ := small ⟨d, hd'⟩
    intro hx
    simp only [Bool.or_eq_true, decide_eq_true_eq] at hx
    rcases hx with hx | hx
    · rw [← hx] at hc; simp only at s1; omega
    · rw [← hx] at hc; simp only at s2; omega
  rw [h1, digitValue_none hc]

/-- What the loops see of a digit. -/
def Seen (c : Char) (d : Nat) : Prop := d < 36 ∧ isSpace c = false ∧ c ≠ '-' ∧ c ≠ '+' ∧
    lower c ≠ '-' ∧ ((isDecimal (lower c) = true ∧ (lower c).toNat - 48 = d ∧ 48 ≤ (lower c).toNat) ∨
      (isDecimal (lower c) = false ∧ isLetter (lower c) = true ∧ (lower c).toNat - 87 = d ∧ 87 ≤ (lower c).toNat))

instance (c : Char) (d : Nat) : Decidable (Seen c d) := by unfold Seen; infer_instance

theorem digit_seen (c : Char) (d : Nat) (h : digitValue c = some d) : Seen c d := by
  have key : (digitValue c).all (fun d => decide (Seen c d)) = true := by
    refine ascii_or (P := fun c => (digitValue c).all (fun d => decide (Seen c d)) = true) (by decide +kernel)
      (fun c hc => ?_) c
    rw [digitValue_none hc]
    rfl
  rw [h] at key
  exact of_decide_eq_true key

/-- The digits of a text, one by one. -/
inductive DigitsAre (base : Nat) : List Char → List Nat → Prop
  | nil : DigitsAre base [] []
  | cons {c d cs ds} : digitValue c = some d → d < base → DigitsAre base cs ds → DigitsAre base (c :: cs) (d :: ds)

theorem digitsOf_nil (base : Nat) : digitsOf base [] = some [] := rfl

theorem digitsOf_cons (base : Nat) (c : Char) (cs : List Char) : digitsOf base (c :: cs) =
    ((digitValue c).filter (· < base)).bind fun d => (digitsOf base cs).map (d :: ·) := by
  rw [digitsOf, List.mapM_cons, ofDigit_eq]
  cases (digitValue c).filter (· < base) with
  | none => rfl
  | some d =>
    show (digitsOf base cs).bind (fun l => some (d :: l)) = _
    cases digitsOf base cs <;> rfl

theorem digitsOf_iff {base : Nat} {cs : List Char} {l : List Nat} : digitsOf base cs = some l ↔ DigitsAre base cs l := by
  induction cs generalizing l with
  | nil =>
    rw [digitsOf_nil]
    constructor
    · intro h; cases h; exact .nil
    · intro h; cases h; rfl
  | cons c cs ih =>
    rw [digitsOf_cons]
    constructor
    · intro h
      cases hc : digitValue c with
      | none => rw [hc] at h; cases h
      | some d =>
        rw [hc] at h
        by_cases hd : d < base
        · simp only [Option.filter, hd, decide_true, if_true, Option.bind_some] at h
          cases hl : digitsOf base cs with
          | none => rw [hl] at h; cases h
          | some l' =>
            rw [hl] at h
            cases h
            exact .cons hc hd (ih.mp hl)
        · simp [Option.filter, hd] at h
    · intro h
      cases h with
      | cons hc hd hl =>
        rw [hc, ih.mpr hl]
        simp [Option.filter, hd]

theorem foldl_positional (base : Nat) (l : List Nat) (n : Nat) :
    l.foldl (fun n d => base * n + d) n = n * base ^ l.length + positional base l := by
  induction l generalizing n with
  | nil => simp [positional]
  | cons d l ih =>
    rw [List.foldl_cons, ih, positional, List.length_cons, Nat.pow_succ]
    grind

theorem positional_lt {base : Nat} {l : List Nat} (h : ∀ d ∈ l, d < base) : positional base l < base ^ l.length := by
  induction l with
  | nil => simp [positional]
  | cons d l ih =>
    have h1 : d + 1 ≤ base := h d (by simp)
    have h2 := ih (fun d hd => h d (by simp [hd]))
    rw [positional, List.length_cons, Nat.pow_succ]
    have h3 : (d + 1) * base ^ l.length ≤ base * base ^ l.length := Nat.mul_le_mul_right _ h1
    rw [Nat.add_mul, Nat.one_mul] at h3
    rw [Nat.mul_comm (base ^ l.length)]
    omega

theorem DigitsAre.lt {base cs l} (h : DigitsAre base cs l) : ∀ d ∈ l, d < base := by
  induction h with
  | nil => simp
  | cons _ hd _ ih =>
    intro d hd'
    rcases List.mem_cons.mp hd' with rfl | hd'
    · exact hd
    · exact ih _ hd'

theorem DigitsAre.length {base cs l} (h : DigitsAre base cs l) : l.length = cs.length := by
  induction h with
  | nil => rfl
  | cons _ _ _ ih => rw [List.length_cons, List.length_cons, ih]

theorem DigitsAre.check {base cs l} (h : DigitsAre base cs l) : checkDigits base cs = .ok () := by
  induction h with
  | nil => rfl
  | cons hc hd _ ih =>
    obtain ⟨h1, _, _, _, h2, h3⟩ := digit_seen _ _ hc
    rw [checkDigits, if_neg h2]
    rcases h3 with ⟨h3, h4, _⟩ | ⟨h3, h4, h5, _⟩
    · rw [if_pos h3, if_neg (by omega)]; exact ih
    · rw [if_neg (by simp [h3]), if_pos h4, if_neg (by omega)]; exact ih

theorem DigitsAre.leading {base cs l} (h : DigitsAre base cs l) : leadingDigits base cs = l := by
  induction h with
  | nil => rfl
  | cons hc hd _ ih => rw [leadingDigits, hc]; simp only; rw [if_pos hd, ih]

theorem DigitsAre.collect {base cs l} (h : DigitsAre base cs l) : ∀ {fuel : Nat}, cs.length ≤ fuel →
    collectDigits fuel cs = some (.ok (l.map fun d : Nat => Big.ofSmall (d : Int))) := by
  induction h with
  | nil => intro fuel _; cases fuel <;> rfl
  | @cons c d cs ds hc hd _ ih =>
    intro fuel hf
    obtain ⟨h1, _, _, _, h2, h3⟩ := digit_seen _ _ hc
    cases fuel with
    | zero => simp at hf
    | succ fuel =>
      rw [collectDigits, ih (by simpa using hf)]
      rcases h3 with ⟨h3, h4, h6⟩ | ⟨h3, h4, h5, h6⟩
      · rw [if_pos h3]
        have : ((lower c).toNat : Int) - 48 = d := by omega
        rw [this]
        rfl
      · rw [if_neg (by simp [h3]), if_pos h4]
        have : ((lower c).toNat : Int) - 87 = d := by omega
        rw [this]
        rfl

theorem fromArrayLoop_ok {base : Nat} (hb : base ≤ 36) (l : List Nat) (hl : ∀ d ∈ l, d < base) :
    ∀ {val pow : Big}, val.Ok → pow.Ok → ∃ r, fromArrayLoop (.ofSmall base) (l.map fun d : Nat => Big.ofSmall (d : Int)) val pow = .ok r ∧
      r.Ok ∧ r.toInt = val.toInt + pow.toInt * positional base l.reverse := by
  have hM : (MAX_INT : Int) = 9007199254740992 := rfl
  induction l with
  | nil => intro val pow hv hp; exact ⟨val, rfl, hv, by simp [positional]⟩
  | cons d l ih =>
    intro val pow hv hp
    have hd := hl d (by simp)
    obtain ⟨p, p1, p2, p3⟩ := multiply_ok (ofSmall_ok (v := (d : Int)) (by omega) (by omega)) hp
    obtain ⟨v, v1, v2, v3⟩ := add_ok hv p2
    obtain ⟨q, q1, q2, q3⟩ := multiply_ok hp (ofSmall_ok (v := (base : Int)) (by omega) (by omega))
    obtain ⟨r, r1, r2, r3⟩ := ih (fun d hd => hl d (by simp [hd])) v2 q2
    refine ⟨r, ?_, r2, ?_⟩
    · rw [List.map_cons, fromArrayLoop, p1]
      show (do let val ← val.add p; let pow ← pow.multiply (.ofSmall base); fromArrayLoop _ _ val pow) = _
      rw [v1]
      show (do let pow ← pow.multiply (.ofSmall base); fromArrayLoop _ _ v pow) = _
      rw [q1]
      exact r1
    · have happ : ∀ (a : List Nat) (d : Nat), positional base (a ++ [d]) = base * positional base a + d := by
        intro a d
        have h1 := foldl_positional base (a ++ [d]) 0
        have h2 := foldl_positional base a 0
        rw [List.foldl_append] at h1
        simp only [List.foldl_cons, List.foldl_nil, Nat.zero_mul, Nat.zero_add] at h1 h2
        rw [← h1, h2]
      rw [r3, v3, p3, q3, List.reverse_cons, happ]
      simp only [Big.ofSmall, Big.toInt]
      push_cast
      grind

/-- The first loop on a text without digits that are too large. -/
def Fits (base : Nat) (c : Char) : Prop := ∀ d, digitValue (lookalike c) = some d → d < base

instance (base : Nat) (c : Char) : Decidable (Fits base c) :=
  match h : digitValue (lookalike c) with
  | none => .isTrue (fun d hd => by rw [h] at hd; cases hd)
  | some d => if hd : d < base then .isTrue (fun d' hd' => by rw [h] at hd'; cases hd'; exact hd)
    else .isFalse (fun hf => hd (hf d h))

/-- How the loops see any character. -/
def SeenAs (c : Char) : Prop :=
  match digitValue (lookalike c) with
  | some d => lower c ≠ '-' ∧ ((isDecimal (lower c) = true ∧ (lower c).toNat - 48 = d ∧ 48 ≤ (lower c).toNat) ∨
      (isDecimal (lower c) = false ∧ isLetter (lower c) = true ∧ (lower c).toNat - 87 = d ∧ 87 ≤ (lower c).toNat))
  | none => isDecimal (lower c) = false ∧ isLetter (lower c) = false ∧ lower c = c

instance (c : Char) : Decidable (SeenAs c) := by unfold SeenAs; split <;> infer_instance

theorem seenAs (c : Char) : SeenAs c := by
  refine ascii_or (P := SeenAs) (by decide +kernel) (fun c hc => ?_) c
  by_cases h1 : c = Char.ofNat 0x212A
  · subst h1; decide +kernel
  · by_cases h2 : c = Char.ofNat 0x130
    · subst h2; decide +kernel
    · have hl : lookalike c = c := by rw [lookalike, if_neg h1, if_neg h2]
      have hlow : lower c = c := by
        rw [lower, if_neg, if_neg h1, if_neg h2]
        rw [le_char, le_char, show ('Z' : Char).toNat = 90 from rfl]; omega
      rw [SeenAs, hl, digitValue_none hc]
      simp only
      rw [hlow]
      refine ⟨?_, ?_, rfl⟩
      · rw [isDecimal]
        have : ¬ c ≤ '9' := by rw [le_char, show ('9' : Char).toNat = 57 from rfl]; omega
        simp [this]
      · rw [isLetter]
        have : ¬ c ≤ 'z' := by rw [le_char, show ('z' : Char).toNat = 122 from rfl]; omega
        simp [this]

theorem checkDigits_eq (base : Nat) (text : List Char) : checkDigits base text =
    if ∀ c ∈ text, Fits base c then .ok () else .error (.expect "is not a valid digit") := by
  induction text with
  | nil => rfl
  | cons c cs ih =>
    have hs := seenAs c
    rw [checkDigits]
    simp only [List.forall_mem_cons]
    unfold SeenAs at hs
    cases hd : digitValue (lookalike c) with
    | none =>
      rw [hd] at hs
      simp only at hs
      obtain ⟨h1, h2, h3⟩ := hs
      have hf : Fits base c := fun d hd' => by rw [hd] at hd'; cases hd'
      simp only [hf, true_and, h1, h2, Bool.false_eq_true, if_false]
      rw [ih]
      split <;> rfl
    | some d =>
      rw [hd] at hs
      simp only at hs
      obtain ⟨h0, h⟩ := hs
      rw [if_neg h0]
      by_cases hlt : d < base
      · have hf : Fits base c := fun d' hd' => by rw [hd] at hd'; cases hd'; exact hlt
        simp only [hf, true_and]
        rcases h with ⟨h3, h4, _⟩ | ⟨h3, h4, h5, _⟩
        · rw [if_pos h3, if_neg (by omega)]; exact ih
        · rw [if_neg (by simp [h3]), if_pos h4, if_neg (by omega)]; exact ih
      · have hf : ¬ Fits base c := fun hf => hlt (hf d hd)
        simp only [hf, false_and, if_false]
        rcases h with ⟨h3, h4, _⟩ | ⟨h3, h4, h5, _⟩
        · rw [if_pos h3, if_pos (by omega)]
        · rw [if_neg (by simp [h3]), if_pos h4, if_pos (by omega)]

/-- The second loop on a text without angle brackets. -/
theorem collectDigits_eq (base : Nat) : ∀ (fuel : Nat) (text : List Char), text.length ≤ fuel →
    (∀ c ∈ text, Fits base c) → '<' ∉ text →
    match digitsOf base (text.map lookalike) with
    | some l => collectDigits fuel text = some (.ok (l.map fun d : Nat => Big.ofSmall (d : Int)))
    | none => collectDigits fuel text = some (.error (.expect "is not a valid character")) := by
  intro fuel text
  induction text generalizing fuel with
  | nil => intro _ _ _; cases fuel <;> rfl
  | cons c cs ih =>
    intro hlen hfit hbr
    cases fuel with
    | zero => simp at hlen
    | succ fuel =>
      have ih := ih fuel (by simpa using hlen) (fun c hc => hfit c (by simp [hc])) (fun h => hbr (by simp [h]))
      have hs := seenAs c
      unfold SeenAs at hs
      have hcbr : c ≠ '<' := fun h => hbr (by simp [h])
      rw [List.map_cons, digitsOf_cons, collectDigits]
      cases hd : digitValue (lookalike c) with
      | none =>
        rw [hd] at hs
        simp only at hs
        obtain ⟨h1, h2, h3⟩ := hs
        simp only [Option.filter, Option.bind_none]
        rw [if_neg (by simp [h1]), if_neg (by simp [h2]), if_neg (by rw [h3]; exact hcbr)]
      | some d =>
        have hlt : d < base := hfit c (by simp) d hd
        rw [hd] at hs
        simp only at hs
        obtain ⟨h0, h⟩ := hs
        simp only [Option.filter, hlt, decide_true, if_true, Option.bind_some]
        have hgen : ∀ x : Big, x = Big.ofSmall (d : Int) →
            match (digitsOf base (cs.map lookalike)).map (d :: ·) with
            | some l => (collectDigits fuel cs).map (fun r => r.map (x :: ·)) =
                some (.ok (l.map fun d : Nat => Big.ofSmall (d : Int)))
            | none => (collectDigits fuel cs).map (fun r => r.map (x :: ·)) =
                some (.error (.expect "is not a valid character")) := by
          intro x hx
          subst hx
          cases hl : digitsOf base (cs.map lookalike) with
          | none => rw [hl] at ih; simp only at ih; rw [ih]; rfl
          | some l => rw [hl] at ih; simp only at ih; rw [ih]; rfl
        rcases h with ⟨h3, h4, h6⟩ | ⟨h3, h4, h5, h6⟩
        · rw [if_pos h3]
          exact hgen _ (congrArg _ (by omega))
        · rw [if_neg (by simp [h3]), if_pos h4]
          exact hgen _ (congrArg _ (by omega))

end Verif.BigJs

namespace Verif.BigJs
open Spec

theorem isSpace_eq (c : Char) : isSpace c = blanks.contains c.toNat := by
  rw [isSpace, blanks, Bool.eq_iff_iff]
  simp only [Bool.or_eq_true, Bool.and_eq_true, decide_eq_true_eq, List.contains_iff_mem, List.mem_cons,
    List.not_mem_nil, or_false]
  omega

theorem leading_eq (base : Nat) (s : List Char) :
    digitsOf base (s.takeWhile fun c => (digitsOf base [c]).isSome) = some (leadingDigits base s) := by
  induction s with
  | nil => rfl
  | cons c s ih =>
    rw [List.takeWhile_cons, digitsOf_cons, digitsOf_nil, leadingDigits]
    cases hd : digitValue c with
    | none => rfl
    | some d =>
      by_cases hlt : d < base
      · simp only [Option.filter, hlt, decide_true, if_true, Option.bind_some, Option.map_some, Option.isSome_some]
        rw [digitsOf_cons, ih, hd]
        simp [Option.filter, hlt]
      · simp [Option.filter, hlt, digitsOf_nil]

/-- The number of the digits at the start. -/
def startNat (base : Nat) (s : List Char) : Option Nat :=
  let ds := s.takeWhile fun c => (digitsOf base [c]).isSome
  if ds = [] then none else (digitsOf base ds).map (positional base)

theorem startNat_eq (base : Nat) (s : List Char) : startNat base s =
    match leadingDigits base s with
    | [] => none
    | d :: ds => some (positional base (d :: ds)) := by
  rw [startNat]
  have h := leading_eq base s
  have hlen := (digitsOf_iff.mp h).length
  cases hl : leadingDigits base s with
  | nil =>
    rw [hl] at hlen
    rw [if_pos (List.eq_nil_of_length_eq_zero hlen.symm)]
  | cons d ds =>
    rw [hl] at hlen h
    rw [if_neg (by intro h0; rw [h0] at hlen; simp at hlen), h]
    rfl

theorem parseInt_eq (base : Nat) (text : List Char) : parseInt base text = startNumber base text := by
  have hsp : isSpace = fun c => blanks.contains c.toNat := funext isSpace_eq
  have key : ∀ s neg, (match leadingDigits base s with
      | [] => none
      | ds => some (if neg then -((ds.foldl (fun n d => base * n + d) 0 : Nat) : Int)
          else ((ds.foldl (fun n d => base * n + d) 0 : Nat) : Int))) =
      (startNat base s).map fun n : Nat => if neg = true then -(n : Int) else n := by
    intro s neg
    rw [startNat_eq]
    cases leadingDigits base s with
    | nil => rfl
    | cons d ds =>
      simp only [Option.map_some]
      rw [foldl_positional, Nat.zero_mul, Nat.zero_add]
  rw [parseInt, startNumber, hsp]
  simp only
  generalize text.dropWhile (fun c => blanks.contains c.toNat) = s
  have fin : ∀ s' (neg : Prop) [Decidable neg], (match leadingDigits base s' with
      | [] => none
      | ds => some (if neg then -((ds.foldl (fun n d => base * n + d) 0 : Nat) : Int)
          else ((ds.foldl (fun n d => base * n + d) 0 : Nat) : Int))) =
      (startNat base s').map fun n : Nat => if neg then -(n : Int) else n := by
    intro s' neg _
    have := key s' (decide neg)
    simpa using this
  refine (fin _ _).trans ?_
  cases s with
  | nil => simp; rfl
  | cons c s =>
    by_cases h1 : c = '-'
    · subst h1; simp; rfl
    · by_cases h2 : c = '+'
      · subst h2; simp; rfl
      · have : (c :: s).head? = some c := rfl
        rw [this]
        simp only [Option.some.injEq, h1, h2, or_self, if_false]
        split
        · rename_i h; cases h; exact absurd rfl h1
        · rename_i h; cases h; exact absurd rfl h2
        · rfl

theorem parseBaseFromArray_ok {base : Nat} (hb : base ≤ 36) (l : List Nat) (hl : ∀ d ∈ l, d < base) (neg : Bool) :
    ∃ r, parseBaseFromArray (l.map fun d : Nat => Big.ofSmall (d : Int)) (.ofSmall base) neg = .ok r ∧ r.Ok ∧
      r.toInt = if neg then -(positional base l : Int) else positional base l := by
  obtain ⟨r, h1, h2, h3⟩ := fromArrayLoop_ok hb l.reverse (fun d hd => hl d (by simpa using hd))
    (val := .ofSmall 0) (pow := .ofSmall 1) (ofSmall_ok (by decide) (by decide)) (ofSmall_ok (by decide) (by decide))
  rw [List.reverse_reverse] at h3
  have hv : r.toInt = positional base l := by
    rw [h3]; simp [Big.ofSmall, Big.toInt]
  rw [parseBaseFromArray, ← List.map_reverse, h1]
  cases neg with
  | false => exact ⟨r, rfl, h2, by simp [hv]⟩
  | true =>
    obtain ⟨n1, n2⟩ := negate_ok h2
    exact ⟨r.negate, rfl, n1, by rw [n2, hv]; rfl⟩

theorem digitsNumber_positional {ds : List Char} {l : List Nat} (h : DigitsAre 10 ds l) :
    AllDigits ds ∧ digitsNumber ds = positional 10 l := by
  induction h with
  | nil => exact ⟨by intro c hc; simp at hc, rfl⟩
  | @cons c d cs ds hc hd hds ih =>
    have hdec : '0' ≤ c ∧ c ≤ '9' ∧ c.toNat - 48 = d := by
      rw [digitValue] at hc
      split at hc
      · rename_i h; cases hc; exact ⟨h.1, h.2, rfl⟩
      · split at hc
        · rename_i h
          rw [le_char, le_char, show ('a' : Char).toNat = 97 from rfl] at h
          cases hc; omega
        · split at hc
          · rename_i h
            rw [le_char, le_char, show ('A' : Char).toNat = 65 from rfl] at h
            cases hc; omega
          · cases hc
    refine ⟨?_, ?_⟩
    · intro c' hc'
      rcases List.mem_cons.mp hc' with rfl | hc'
      · exact ⟨hdec.1, hdec.2.1⟩
      · exact ih.1 c' hc'
    · have hr := digit_range ⟨hdec.1, hdec.2.1⟩
      rw [show c :: cs = [c] ++ cs from rfl, digitsNumber_append, ih.2, positional, hds.length]
      have : digitsNumber [c] = d := by
        simp only [digitsNumber, List.foldl_cons, List.foldl_nil]
        omega
      rw [this]
      push_cast
      rfl

end Verif.BigJs
