import Verif.Lemmas.JsJsonTree
import Verif.Lemmas.JsJsonFuel
import Verif.Props.BigInt
/-! C79: the JSON a JavaScript tracer's result is given as. -/
namespace Verif.Props
open Spec

/-- **C79**, exactly. What `json_result` gives for the value the tracer's function `result` returned, if the
tracer did not replace the global `JSON`: an error for `undefined`, for a value with half a surrogate pair
in a string or key that is shown, and for one whose arrays and objects are nested more than 127 deep; boa's
own conversion if a native big integer is somewhere in the value; and the JSON of the value in all other
cases. -/
theorem C79_exact {text : Rat → List Char} {num : Rat → JsonNum} (hn : NumberText text num)
    (toJson : JsTree → Option Json) {t : JsTree} (hw : WellMade t) :
    (HasBigint t → jsonResult text toJson .builtin (some t) =
      match toJson t with
      | none => .error .js
      | some j => .ok j) ∧
    (¬ HasBigint t → t ≠ .undefined → Unicode t → depth t ≤ 127 →
      jsonResult text toJson .builtin (some t) = .ok (json num t)) ∧
    (¬ HasBigint t → t = .undefined ∨ ¬ Unicode t ∨ 127 < depth t →
      jsonResult text toJson .builtin (some t) = .error (.parse .syntax)) := by
  have hnone := stringify_none text t hw
  refine ⟨fun h => ?_, fun h hu h1 h2 => ?_, fun h hu => ?_⟩
  · simp only [jsonResult, toSerdeValue, jsonStringify, hnone.mpr h, Option.map_none]
    cases toJson t <;> rfl
  · cases hs : JsonText.stringify text t with
    | none => exact absurd (hnone.mp hs) h
    | some o =>
      cases o with
      | none => exact absurd (stringify_undefined hs) hu
      | some s =>
        have := (fromStr_text hn hw hs).1 ⟨h1, by omega⟩
        simp only [jsonResult, toSerdeValue, jsonStringify, hs, Option.map_some, Option.getD_some,
          toStdString_map, this]
  · cases hs : JsonText.stringify text t with
    | none => exact absurd (hnone.mp hs) h
    | some o =>
      cases o with
      | none =>
        simp only [jsonResult, toSerdeValue, jsonStringify, hs, Option.map_some, Option.getD_none,
          toStdString_map]
        rfl
      | some s =>
        have := (fromStr_text hn hw hs).2 (by
          rintro ⟨h1, h2⟩
          rcases hu with hu | hu | hu
          · subst hu; simp [JsonText.stringify] at hs
          · exact hu h1
          · omega)
        simp only [jsonResult, toSerdeValue, jsonStringify, hs, Option.map_some, Option.getD_some,
          toStdString_map, this]

/-- **C79** (partial). `json_result` gives the JSON of the value, whatever numbers, strings, arrays and
objects it is made of: numbers as numbers, big integers as their decimal digits, every character of the
strings and keys as it is, members without a value left out. Missing: values nested more than 127 deep,
strings with half a surrogate pair, `undefined` (`C79_refuted`), native big integers, a replaced `JSON`. -/
theorem C79_result_partial {text : Rat → List Char} {num : Rat → JsonNum} (hn : NumberText text num)
    (toJson : JsTree → Option Json) {t : JsTree} (hw : WellMade t) (hb : ¬ HasBigint t)
    (hu : t ≠ .undefined) (hc : Unicode t) (hd : depth t ≤ 127) :
    jsonResult text toJson .builtin (some t) = .ok (json num t) :=
  (C79_exact hn toJson hw).2.1 hb hu hc hd

/-- Integers up to 2^53 in the result are that integer in the JSON. -/
theorem C79_integers {text : Rat → List Char} {num : Rat → JsonNum} (hn : NumberText text num) (n : Int)
    (h : n.natAbs ≤ 2 ^ 53) : json num (.num (.fin n)) = .num (.int n) := by
  have h1 := (numText_ok hn n).1
  rw [hn.1 n h, readNumber_int (by omega) (by omega)] at h1
  rw [json, ← Except.ok.inj h1]

/-- The big integer a tracer computed is the string of the decimal digits of the integer its computation
denotes. -/
theorem C79_bigint {fl : Rat → Rat} (hfl : Rounding fl) {e : Arith} {n : Int} (he : e.value = some n)
    {text : Rat → List Char} {num : Rat → JsonNum} (hn : NumberText text num)
    (toJson : JsTree → Option Json) : ∃ b, evalBig fl e = .ok b ∧
      jsonResult text toJson .builtin (some (.big b)) = .ok (.str (intNumeral 10 n)) := by
  have h := evalBig_ok hfl e
  rw [he] at h
  obtain ⟨b, h1, h2, h3⟩ := h
  refine ⟨b, h1, ?_⟩
  have := C79_result_partial hn toJson (t := .big b) h2 (by simp [HasBigint]) (by simp) True.intro
    (by simp [depth])
  rw [this, json, h3]

/-- Whatever the tracer made of the global `JSON`, the conversion ends. -/
theorem C79_ends (text : Rat → List Char) (toJson : JsTree → Option Json) (g : JsonGlobal)
    (t : Option JsTree) : jsonResult text toJson g t ≠ .error (.parse .diverge) := by
  cases t with
  | none => simp [jsonResult]
  | some t =>
    unfold jsonResult toSerdeValue
    simp only
    split
    · split
      · simp
      · split
        · rename_i s _ e he
          intro h
          cases h
          exact fromStr_fuel _ he
        · simp
    · split <;> simp

/-- A tracer that replaced `JSON.stringify` by a function that returns the JSON text of another value gets
the JSON of that value. -/
theorem C79_replaced {text : Rat → List Char} {num : Rat → JsonNum} (hn : NumberText text num)
    (toJson : JsTree → Option Json) {f : JsTree → Option (List JsChar)} {t u : JsTree} {s : List Char}
    (hw : WellMade u) (hs : JsonText.stringify text u = some (some s)) (hf : f t = some (s.map .ch))
    (hc : Unicode u) (hd : depth u ≤ 127) :
    jsonResult text toJson (.replaced f) (some t) = .ok (json num u) := by
  have := (fromStr_text hn hw hs).1 ⟨hc, by omega⟩
  simp only [jsonResult, toSerdeValue, jsonStringify, hf, toStdString_map, this]

/-- Arrays in arrays, `n` deep. -/
def nested : Nat → JsTree
  | 0 => .null
  | n + 1 => .arr (.cons (nested n) .nil)

theorem nested_ok (n : Nat) : WellMade (nested n) ∧ ¬ HasBigint (nested n) ∧ Unicode (nested n) ∧
    depth (nested n) = n ∧ nested n ≠ .undefined := by
  induction n with
  | zero => simp [nested, WellMade, HasBigint, Unicode, depth]
  | succ n ih =>
    obtain ⟨h1, h2, h3, h4, h5⟩ := ih
    simp [nested, WellMade, HasBigint, Unicode, depth, WellMadeElems, HasBigintElems, UnicodeElems,
      depthElems, h1, h2, h3, h4]

/-- **C79 does not hold.** An array nested 128 deep, a string with half a surrogate pair and `undefined` are
errors, though the first two are values that JSON has, and `JSON.stringify` writes them. -/
theorem C79_refuted {text : Rat → List Char} {num : Rat → JsonNum} (hn : NumberText text num)
    (toJson : JsTree → Option Json) :
    (∀ n, 128 ≤ n → jsonResult text toJson .builtin (some (nested n)) = .error (.parse .syntax)) ∧
    (∀ n, n ≤ 127 → jsonResult text toJson .builtin (some (nested n)) = .ok (json num (nested n))) ∧
    jsonResult text toJson .builtin (some (.str [.ch 'a', .lone 0xd83d])) = .error (.parse .syntax) ∧
    jsonResult text toJson .builtin (some .undefined) = .error (.parse .syntax) := by
  refine ⟨fun n h => ?_, fun n h => ?_, ?_, ?_⟩
  · obtain ⟨h1, h2, h3, h4, h5⟩ := nested_ok n
    exact (C79_exact hn toJson h1).2.2 h2 (Or.inr (Or.inr (by omega)))
  · obtain ⟨h1, h2, h3, h4, h5⟩ := nested_ok n
    exact (C79_exact hn toJson h1).2.1 h2 h5 h3 (by omega)
  · refine (C79_exact hn toJson (t := .str [.ch 'a', .lone 0xd83d]) ?_).2.2 (by simp [HasBigint])
      (Or.inr (Or.inl ?_))
    · exact ⟨by decide, by decide, by simp, True.intro⟩
    · intro h
      exact h 0xd83d (by simp)
  · exact (C79_exact hn toJson (t := .undefined) True.intro).2.2 (by simp [HasBigint]) (Or.inl rfl)

/-! ### An example -/

/-- Texts for numbers: integers as they are, all others alike. -/
def sampleText (q : Rat) : List Char :=
  if q.den = 1 ∧ -(2 ^ 63) ≤ q.num ∧ q.num < 2 ^ 64 then intNumeral 10 q.num else "1.5e-7".toList

/-- What they denote. -/
def sampleNum (q : Rat) : JsonNum :=
  if q.den = 1 ∧ -(2 ^ 63) ≤ q.num ∧ q.num < 2 ^ 64 then .int q.num else .float "1.5e-7".toList

theorem sample_ok : NumberText sampleText sampleNum := by
  constructor
  · intro n h
    have : (n : Rat).den = 1 ∧ -(2 ^ 63) ≤ (n : Rat).num ∧ (n : Rat).num < 2 ^ 64 := by
      rw [Rat.den_intCast, Rat.num_intCast]
      omega
    rw [sampleText, if_pos this, Rat.num_intCast]
  · intro q
    unfold sampleText sampleNum
    split
    · rename_i h
      exact Or.inl ⟨q.num, h.2.1, h.2.2, rfl, rfl⟩
    · refine Or.inr ⟨⟨false, 1, ['5'], '-', ['7'], ?_, ?_, ?_, Or.inr rfl, Or.inl (by simp)⟩, rfl⟩
      · rw [numeral]
        rfl
      · intro c hc
        rw [List.mem_singleton] at hc
        subst hc; decide
      · intro c hc
        rw [List.mem_singleton] at hc
        subst hc; decide

/-- A result with members of all kinds: `{"to\n": [0.5, undefined, true], "s": undefined, "n": big}`. -/
def sampleTree : JsTree :=
  .obj (.cons [.ch 't', .ch 'o', .ch '\n']
    (.arr (.cons (.num (.fin (1 / 2))) (.cons .undefined (.cons (.bool true) .nil))))
    (.cons [.ch 's'] .undefined (.cons [.ch 'n'] (.big (.ofSmall (-12))) .nil)))

example : jsonResult sampleText (fun _ => none) .builtin (some sampleTree) =
    .ok (.obj [(['t', 'o', '\n'], .arr [.num (.float "1.5e-7".toList), .null, .bool true]),
      (['n'], .str ['-', '1', '2'])]) := by
  rw [C79_result_partial sample_ok]
  · have h1 : sampleNum (1 / 2) = .float "1.5e-7".toList := by
      rw [sampleNum, if_neg (by decide +kernel)]
    have h2 : intNumeral 10 (-12) = ['-', '1', '2'] := by decide +kernel
    simp [sampleTree, json, jsonElems, jsonMembers, isDefined, chars, h1, BigJs.toInt_ofSmall, h2]
  · simp [sampleTree, WellMade, WellMadeMembers, WellMadeElems, keys, PairedStr]
    exact BigJs.ofSmall_ok (v := -12) (by decide) (by decide)
  · simp [sampleTree, HasBigint, HasBigintMembers, HasBigintElems]
  · simp [sampleTree]
  · simp [sampleTree, Unicode, UnicodeMembers, UnicodeElems, UnicodeStr, isDefined]
  · simp [sampleTree, depth, depthMembers, depthElems]

end Verif.Props
