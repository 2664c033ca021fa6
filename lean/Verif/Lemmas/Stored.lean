import Verif.Model.Stored
import Verif.Lemmas.JsJsonTree
import Verif.Spec.Stored
/-! Lemmas about recordings as JSON. -/
namespace Verif.Stored
open Spec JsonParse
open BigJs (numeral_lt numeral_ge)

/-! ### Text -/

/-- Values that are written as texts that are read back: integers of 64 bits, no floats, different keys;
nested at most `d` deep. -/
inductive Fine : Nat → Json → Prop where
  | null (d : Nat) : Fine d .null
  | bool (d : Nat) (b : Bool) : Fine d (.bool b)
  | str (d : Nat) (s : List Char) : Fine d (.str s)
  | int (d : Nat) {n : Nat} (h : n < 2 ^ 64) : Fine d (.num (.int n))
  | arr {d : Nat} {xs : List Json} (h : ∀ x ∈ xs, Fine d x) : Fine (d + 1) (.arr xs)
  | obj {d : Nat} {ms : List (List Char × Json)} (hk : (ms.map (·.1)).Nodup) (h : ∀ m ∈ ms, Fine d m.2) :
    Fine (d + 1) (.obj ms)

theorem Fine.mono {d e : Nat} {j : Json} (h : Fine d j) (hde : d ≤ e) : Fine e j := by
  induction h generalizing e with
  | null => exact .null _
  | bool => exact .bool _ _
  | str => exact .str _ _
  | int d h => exact .int _ h
  | arr h ih =>
    obtain ⟨e, rfl⟩ : ∃ e', e = e' + 1 := ⟨e - 1, by omega⟩
    exact .arr fun x hx => ih x hx (by omega)
  | obj hk h ih =>
    obtain ⟨e, rfl⟩ : ∃ e', e = e' + 1 := ⟨e - 1, by omega⟩
    exact .obj hk fun x hx => ih x hx (by omega)

theorem toDigits_numeral (n : Nat) : Nat.toDigits 10 n = numeral 10 n := by
  induction n using Nat.strongRecOn with
  | ind n ih =>
    have hd : ∀ k : Fin 10, Nat.digitChar k.val = digit k.val := by decide
    rw [Nat.toDigits_eq_if (by decide)]
    by_cases h : n < 10
    · rw [if_pos h, numeral_lt h, hd ⟨n, h⟩]
    · rw [if_neg h, numeral_ge (by decide) (by omega), ih (n / 10) (by omega)]
      rw [hd ⟨n % 10, by omega⟩]

/-- The text of a value is read as it. -/
def Reads (d : Nat) (j : Json) : Prop :=
  Starts (JsonWrite.value j) ∧ ∀ fuel depth rest, 2 * (JsonWrite.value j).length ≤ fuel → d < depth →
    Stops rest → JsonParse.value fuel depth (JsonWrite.value j ++ rest) = .ok (j, rest)

theorem string_reads (s r : List Char) :
    JsonParse.string ((s.map JsChar.ch).flatMap JsonText.escape ++ '"' :: r) = .ok (s, r) := by
  have h := (string_escape (paired_map s) r).1 (unicode_map s)
  rw [chars_map] at h
  exact h

theorem string_text (s r : List Char) :
    JsonWrite.string s ++ r = '"' :: ((s.map JsChar.ch).flatMap JsonText.escape ++ '"' :: r) := by
  simp [JsonWrite.string, JsonText.quote]

theorem reads_int {n : Nat} (h : n < 2 ^ 64) (d : Nat) : Reads d (.num (.int n)) := by
  have ht : JsonWrite.value (.num (.int n)) = numeral 10 n := by
    rw [JsonWrite.value, JsonWrite.number, if_neg (by omega), toDigits_numeral]; rfl
  obtain ⟨c, t, hct, -⟩ := numeral_head n
  have hdig := numeral_digits n
  have hc : isDigit c = true := hdig c (by rw [hct]; exact List.mem_cons_self)
  have hnum : readNumber (numeral 10 n) = .ok (.int n) := by
    have := readNumber_int (n := (n : Int)) (by omega) (by omega)
    rwa [intNumeral, if_neg (by omega)] at this
  refine ⟨?_, ?_⟩
  · rw [ht, hct]
    refine ⟨c, t, rfl, ?_, ?_, ?_⟩
    · cases hw : JsonParse.isWs c with
      | false => rfl
      | true =>
        simp only [JsonParse.isWs, Bool.or_eq_true, beq_iff_eq] at hw
        rcases hw with ((hw | hw) | hw) | hw <;> subst hw <;> exact absurd hc (by decide)
    · intro hw; subst hw; exact absurd hc (by decide)
    · intro hw; subst hw; exact absurd hc (by decide)
  · intro fuel depth rest hf hd hr
    rw [ht] at hf ⊢
    have hall : ∀ x ∈ numeral 10 n, isNumChar x = true := fun x hx => numChar_digit (hdig x hx)
    have h1 := takeWhile_all hall rest
    have h2 := dropWhile_all hall rest
    rw [takeWhile_stops hr, List.append_nil] at h1
    rw [dropWhile_stops hr] at h2
    rw [hct] at hf h1 h2 hnum ⊢
    obtain ⟨f, rfl⟩ : ∃ f, fuel = f + 1 := ⟨fuel - 1, by simp only [List.length_cons] at hf; omega⟩
    rw [List.cons_append] at h1 h2 ⊢
    rw [value_num (Or.inr hc), h1, h2, hnum]
    rfl

theorem items_starts {d : Nat} {xs : List Json} (h : ∀ x ∈ xs, Reads d x) (hx : xs ≠ []) :
    Starts (JsonWrite.items xs) := by
  cases xs with
  | nil => exact absurd rfl hx
  | cons x xs =>
    have hs := (h x List.mem_cons_self).1
    cases xs with
    | nil => rw [JsonWrite.items]; exact hs
    | cons y ys => rw [JsonWrite.items]; exact starts_append hs _

theorem items_reads {d : Nat} {xs : List Json} (h : ∀ x ∈ xs, Reads d x) (hx : xs ≠ []) (fuel depth : Nat)
    (rest : List Char) (hf : 2 * (JsonWrite.items xs).length + 1 ≤ fuel) (hd : d < depth) :
    JsonParse.items fuel depth (JsonWrite.items xs ++ ']' :: rest) = .ok (xs, rest) := by
  induction xs generalizing fuel with
  | nil => exact absurd rfl hx
  | cons x xs ih =>
    obtain ⟨f, rfl⟩ : ∃ f, fuel = f + 1 := ⟨fuel - 1, by omega⟩
    obtain ⟨hs, hv⟩ := h x List.mem_cons_self
    cases xs with
    | nil =>
      rw [JsonWrite.items] at hf ⊢
      rw [JsonParse.items, hv f depth _ (by omega) hd (stops_cons (by decide) _)]
      rfl
    | cons y ys =>
      rw [JsonWrite.items] at hf ⊢
      simp only [List.length_append, List.length_cons] at hf
      rw [List.append_assoc, List.cons_append, JsonParse.items,
        hv f depth _ (by omega) hd (stops_cons (by decide) _)]
      have := ih (fun z hz => h z (List.mem_cons_of_mem _ hz)) (by simp) f (by omega)
      simp only [bind, Except.bind]
      rw [skipWs_cons (by decide)]
      simp only [this]

theorem pairs_starts (ms : List (List Char × Json)) (hx : ms ≠ []) : Starts (JsonWrite.pairs ms) := by
  cases ms with
  | nil => exact absurd rfl hx
  | cons m ms =>
    obtain ⟨k, v⟩ := m
    cases ms with
    | nil => rw [JsonWrite.pairs]; exact starts_append (starts_quote _) _
    | cons y ys => rw [JsonWrite.pairs]; exact starts_append (starts_quote _) _

theorem pairs_reads {d : Nat} {ms : List (List Char × Json)} (h : ∀ m ∈ ms, Reads d m.2) (hx : ms ≠ [])
    (hk : (ms.map (·.1)).Nodup) (acc : List (List Char × Json))
    (ha : ∀ m ∈ ms, m.1 ∉ acc.map (·.1)) (fuel depth : Nat)
    (rest : List Char) (hf : 2 * (JsonWrite.pairs ms).length + 1 ≤ fuel) (hd : d < depth) :
    JsonParse.pairs fuel depth (JsonWrite.pairs ms ++ '}' :: rest) acc = .ok (acc ++ ms, rest) := by
  induction ms generalizing fuel acc with
  | nil => exact absurd rfl hx
  | cons m ms ih =>
    obtain ⟨f, rfl⟩ : ∃ f, fuel = f + 1 := ⟨fuel - 1, by omega⟩
    obtain ⟨hs, hv⟩ := h m List.mem_cons_self
    have hm := ha m List.mem_cons_self
    obtain ⟨k, v⟩ := m
    simp only at hv hs hm
    have hins := insert_new hm v
    cases ms with
    | nil =>
      rw [JsonWrite.pairs] at hf ⊢
      simp only [List.length_append, List.length_cons] at hf
      rw [List.append_assoc, string_text, List.cons_append, JsonParse.pairs, skipWs_cons (by decide)]
      simp only [string_reads, bind, Except.bind]
      rw [skipWs_cons (by decide)]
      simp only
      rw [hv f depth _ (by omega) hd (stops_cons (by decide) _)]
      simp only
      rw [skipWs_cons (by decide)]
      simp only [hins]
    | cons y ys =>
      rw [JsonWrite.pairs] at hf ⊢
      simp only [List.length_append, List.length_cons] at hf
      rw [List.append_assoc, string_text, List.cons_append, JsonParse.pairs, skipWs_cons (by decide)]
      simp only [string_reads, bind, Except.bind]
      rw [skipWs_cons (by decide)]
      simp only [List.append_assoc, List.cons_append]
      rw [hv f depth _ (by omega) hd (stops_cons (by decide) _)]
      simp only
      rw [skipWs_cons (by decide)]
      simp only [hins]
      rw [List.map_cons, List.nodup_cons] at hk
      have := ih (fun z hz => h z (List.mem_cons_of_mem _ hz)) (by simp) hk.2 (acc ++ [(k, v)])
        (by
          intro z hz
          have hz1 := ha z (List.mem_cons_of_mem _ hz)
          simp only [List.map_append, List.map_cons, List.map_nil, List.mem_append, List.mem_cons,
            List.not_mem_nil, or_false, not_or]
          refine ⟨hz1, ?_⟩
          intro hzk
          exact hk.1 (List.mem_map.mpr ⟨z, hz, hzk⟩)) f (by omega)
      rw [this]
      simp

theorem fine_reads {d : Nat} {j : Json} (h : Fine d j) : Reads d j := by
  induction h with
  | null d =>
    refine ⟨⟨'n', _, rfl, by decide, by decide, by decide⟩, fun fuel depth rest hf hd hr => ?_⟩
    obtain ⟨f, rfl⟩ : ∃ f, fuel = f + 1 := ⟨fuel - 1, by simp only [JsonWrite.value, List.length_cons] at hf; omega⟩
    exact value_null f depth rest
  | bool d b =>
    cases b with
    | true =>
      refine ⟨⟨'t', _, rfl, by decide, by decide, by decide⟩, fun fuel depth rest hf hd hr => ?_⟩
      obtain ⟨f, rfl⟩ : ∃ f, fuel = f + 1 := ⟨fuel - 1, by simp only [JsonWrite.value, List.length_cons] at hf; omega⟩
      exact value_true f depth rest
    | false =>
      refine ⟨⟨'f', _, rfl, by decide, by decide, by decide⟩, fun fuel depth rest hf hd hr => ?_⟩
      obtain ⟨f, rfl⟩ : ∃ f, fuel = f + 1 := ⟨fuel - 1, by simp only [JsonWrite.value, List.length_cons] at hf; omega⟩
      exact value_false f depth rest
  | str d s =>
    rw [Reads, JsonWrite.value]
    refine ⟨starts_quote _, fun fuel depth rest hf hd hr => ?_⟩
    obtain ⟨f, rfl⟩ : ∃ f, fuel = f + 1 :=
      ⟨fuel - 1, by simp only [JsonWrite.string, JsonText.quote, List.length_cons] at hf; omega⟩
    rw [string_text, value_quote, string_reads]
    rfl
  | int d h => exact reads_int h d
  | @arr d xs h ih =>
    rw [Reads, JsonWrite.value]
    refine ⟨⟨'[', _, rfl, by decide, by decide, by decide⟩, fun fuel depth rest hf hd hr => ?_⟩
    simp only [List.length_append, List.length_cons] at hf
    obtain ⟨f, rfl⟩ : ∃ f, fuel = f + 1 := ⟨fuel - 1, by omega⟩
    rw [List.cons_append, value_arr, if_neg (by omega), List.append_assoc, List.cons_append, List.nil_append]
    by_cases hx : xs = []
    · subst hx
      rw [JsonWrite.items, List.nil_append, skipWs_cons (by decide)]
      rfl
    · have hs := items_starts ih hx
      rw [skipWs_start hs]
      split
      · rename_i heq; exact absurd heq (not_bracket hs _ _)
      · rw [items_reads ih hx f (depth - 1) rest (by omega) (by omega)]
        rfl
  | @obj d ms hk h ih =>
    rw [Reads, JsonWrite.value]
    refine ⟨⟨'{', _, rfl, by decide, by decide, by decide⟩, fun fuel depth rest hf hd hr => ?_⟩
    simp only [List.length_append, List.length_cons] at hf
    obtain ⟨f, rfl⟩ : ∃ f, fuel = f + 1 := ⟨fuel - 1, by omega⟩
    rw [List.cons_append, value_obj, if_neg (by omega), List.append_assoc, List.cons_append, List.nil_append]
    by_cases hx : ms = []
    · subst hx
      rw [JsonWrite.pairs, List.nil_append, skipWs_cons (by decide)]
      rfl
    · have hs := pairs_starts ms hx
      rw [skipWs_start hs]
      split
      · rename_i heq; exact absurd heq (not_brace hs _ _)
      · rw [pairs_reads ih hx hk [] (by simp) f (depth - 1) rest (by omega) (by omega)]
        rfl

theorem fromStr_value {d : Nat} {j : Json} (h : Fine d j) (hd : d < 128) :
    JsonParse.fromStr (JsonWrite.value j) = .ok j := by
  have hv := (fine_reads h).2 (2 * (JsonWrite.value j).length + 1) 128 [] (by omega) hd stops_nil
  rw [List.append_nil] at hv
  rw [JsonParse.fromStr, hv]
  rfl


/-! ### Objects -/

theorem lookup_obj (fs : List (String × Json)) (k : String) :
    field (obj fs) k = fs.lookup k := by
  rw [obj, field]
  induction fs with
  | nil => rfl
  | cons f fs ih =>
    obtain ⟨k', v⟩ := f
    rw [List.map_cons, List.lookup_cons, List.lookup_cons, ih]
    by_cases h : k = k'
    · subst h; simp
    · have h' : k.toList ≠ k'.toList := fun he => h (String.toList_injective he)
      rw [beq_eq_false_iff_ne.mpr h, beq_eq_false_iff_ne.mpr h']

theorem req_obj {α : Type} (fs : List (String × Json)) (k : String) (f : Json → Except ReadErr α) :
    req (obj fs) k f = match fs.lookup k with
      | some v => f v
      | none => .error .data := by
  rw [req, lookup_obj]
  cases fs.lookup k <;> rfl

/-- A value of type `Option`. -/
def decOpt {α : Type} (f : Json → Except ReadErr α) (v : Json) : Except ReadErr (Option α) :=
  match v with
  | .null => .ok none
  | v => do
    let a ← f v
    .ok (some a)

theorem opt_obj {α : Type} (fs : List (String × Json)) (k : String) (f : Json → Except ReadErr α) :
    opt (obj fs) k f = match fs.lookup k with
      | some v => decOpt f v
      | none => .ok none := by
  rw [opt, lookup_obj]
  cases fs.lookup k with
  | none => rfl
  | some v => cases v <;> rfl

theorem decOpt_map {α β : Type} {f : Json → Except ReadErr α} {e : β → Json} {o : Option β} {g : β → α}
    (h : ∀ b, o = some b → e b ≠ .null ∧ f (e b) = .ok (g b)) : decOpt f (encOpt e o) = .ok (o.map g) := by
  cases o with
  | none => rfl
  | some b =>
    obtain ⟨h1, h2⟩ := h b rfl
    simp only [encOpt]
    cases hj : e b with
    | null => exact absurd hj h1
    | _ => rw [hj] at h2; simp only [decOpt, h2]; rfl

theorem decOpt_id {α : Type} {f : Json → Except ReadErr α} {e : α → Json} (o : Option α)
    (h : ∀ a, o = some a → e a ≠ .null ∧ f (e a) = .ok a) : decOpt f (encOpt e o) = .ok o := by
  rw [decOpt_map (g := id) h]
  simp

theorem decItems_map {α β : Type} {f : Json → Except ReadErr α} {e : β → Json} {g : β → α} {xs : List β}
    (h : ∀ b ∈ xs, f (e b) = .ok (g b)) : decItems f (xs.map e) = .ok (xs.map g) := by
  induction xs with
  | nil => rfl
  | cons b xs ih =>
    rw [List.map_cons, decItems, h b List.mem_cons_self, ih (fun c hc => h c (List.mem_cons_of_mem _ hc))]
    rfl

theorem decList_map {α β : Type} {f : Json → Except ReadErr α} {e : β → Json} {g : β → α} {xs : List β}
    (h : ∀ b ∈ xs, f (e b) = .ok (g b)) : decList f (encList e xs) = .ok (xs.map g) := decItems_map h

theorem fine_obj {d : Nat} {fs : List (String × Json)} (hk : (fs.map (·.1)).Nodup)
    (h : ∀ f ∈ fs, Fine d f.2) : Fine (d + 1) (obj fs) := by
  refine .obj ?_ ?_
  · rw [List.map_map]
    have : ((fun m : List Char × Json => m.1) ∘ fun f : String × Json => (f.1.toList, f.2)) =
        String.toList ∘ (·.1) := rfl
    rw [this, ← List.map_map]
    exact List.Pairwise.map _ (fun a b hab he => hab (String.toList_injective he)) hk
  · intro m hm
    obtain ⟨f, hf, rfl⟩ := List.mem_map.mp hm
    exact h f hf

theorem fine_opt {d : Nat} {α : Type} {e : α → Json} {o : Option α} (h : ∀ a, o = some a → Fine d (e a)) :
    Fine d (encOpt e o) := by
  cases o with
  | none => exact .null _
  | some a => exact h a rfl

theorem fine_list {d : Nat} {α : Type} {e : α → Json} {xs : List α} (h : ∀ a ∈ xs, Fine d (e a)) :
    Fine (d + 1) (encList e xs) := by
  refine .arr ?_
  intro x hx
  obtain ⟨a, ha, rfl⟩ := List.mem_map.mp hx
  exact h a ha

/-! ### Values -/

theorem dec_nat {n bound : Nat} (h : n < bound) : decNat bound (encNat n) = .ok n := by
  exact if_pos h

theorem dec_u64 {n : Nat} (h : n < 2 ^ 64) : decU64 (encNat n) = .ok n := dec_nat h

theorem dec_string (s : String) : decString (encString s) = .ok s := by
  rw [encString, decString]
  simp

theorem hexPairs_hexEncode (bs : Bytes) : hexPairs (hexEncode bs) = some bs := by
  have hd : ∀ n, n < 16 → hexVal (hexDigit n) = some n := by decide
  induction bs with
  | nil => rfl
  | cons b bs ih =>
    have hb := b.toNat_lt
    have hcons : hexEncode (b :: bs) =
        hexDigit (b.toNat / 16) :: hexDigit (b.toNat % 16) :: hexEncode bs := by
      simp [hexEncode]
    rw [hcons, hexPairs, hd _ (by omega), hd _ (by omega), ih]
    simp [show 16 * (b.toNat / 16) + b.toNat % 16 = b.toNat by omega]

theorem dec_bytes (b : Bytes) : decBytes (encBytes b) = .ok b := by
  rw [encBytes, decBytes, hexDecode]
  simp only [hexPairs_hexEncode]

theorem beBytes_len (n x : Nat) : (beBytes n x).length = n := by
  induction n generalizing x with
  | zero => rfl
  | succ n ih => rw [beBytes, List.length_append, ih]; rfl

theorem foldl_beBytes (n x : Nat) :
    (beBytes n x).foldl (fun a y => a * 256 + y.toNat) 0 = x % 256 ^ n := by
  induction n generalizing x with
  | zero => simp [beBytes, Nat.mod_one]
  | succ n ih =>
    rw [beBytes, List.foldl_append, ih, Nat.pow_succ, Nat.mul_comm (256 ^ n) 256, Nat.mod_mul]
    have : (UInt8.ofNat (x % 256)).toNat = x % 256 := by
      rw [UInt8.toNat_ofNat']
      omega
    simp only [List.foldl_cons, List.foldl_nil, this]
    omega

theorem dec_fixed {len n : Nat} (h : n < 256 ^ len) : decFixed len (encFixed len n) = .ok n := by
  rw [encFixed, decFixed, dec_bytes]
  simp only [bind, Except.bind, beBytes_len, if_true, foldl_beBytes, Nat.mod_eq_of_lt h]

theorem dec_address (a : Address) : decAddress (encAddress a) = .ok a := by
  have h : a.toNat < 256 ^ 20 := by have := a.isLt; omega
  rw [encAddress, decAddress, dec_fixed h]
  simp [bind, Except.bind]

theorem dec_hash (a : U256) : decHash (encHash a) = .ok a := by
  have h : a.toNat < 256 ^ 32 := by have := a.isLt; omega
  rw [encHash, decHash, dec_fixed h]
  simp [bind, Except.bind]

theorem hexNumber_append {s : List Char} {acc n : Nat} (h : hexNumber acc s = some n) (t : List Char) :
    hexNumber acc (s ++ t) = hexNumber n t := by
  induction s generalizing acc with
  | nil =>
    rw [hexNumber] at h
    obtain rfl := Option.some.inj h
    rfl
  | cons c s ih =>
    rw [List.cons_append, hexNumber]
    rw [hexNumber] at h
    cases hv : hexVal c with
    | none => rw [hv] at h; cases h
    | some d => rw [hv] at h; exact ih h

theorem hexNumber_toDigits (n : Nat) : hexNumber 0 (Nat.toDigits 16 n) = some n := by
  induction n using Nat.strongRecOn with
  | ind n ih =>
    have hd : ∀ k : Fin 16, hexVal (Nat.digitChar k.val) = some k.val := by decide
    rw [Nat.toDigits_eq_if (by decide)]
    by_cases h : n < 16
    · rw [if_pos h, hexNumber, hd ⟨n, h⟩]
      simp [hexNumber]
    · rw [if_neg h, hexNumber_append (ih (n / 16) (by omega)), hexNumber, hd ⟨n % 16, by omega⟩]
      simp only [hexNumber, Option.some.injEq]
      omega

theorem dec_word (w : U256) : decWord (encWord w) = .ok w := by
  rw [encWord, decWord]
  simp only [hexNumber_toDigits, w.isLt, if_true]
  simp

theorem dec_kind (k : CallKind) : decKind (encKind k) = .ok k := by
  cases k <;> · rw [encKind, decKind, dec_string]; simp [bind, Except.bind]

theorem dec_status (r : InstructionResult) : decStatus (encStatus r) = .ok r := by
  rw [encStatus, decStatus, dec_string]
  cases r <;> rfl

theorem dec_reason (r : StorageChangeReason) : decReason (encReason r) = .ok r := by
  cases r <;> · rw [encReason, decReason, dec_string]; simp [bind, Except.bind]

theorem word_ne (w : U256) : encWord w ≠ .null := by simp [encWord]
theorem string_ne (s : String) : encString s ≠ .null := by simp [encString]
theorem list_ne {α : Type} (e : α → Json) (xs : List α) : encList e xs ≠ .null := by simp [encList]

theorem dec_strings (xs : List String) : decList decString (encList encString xs) = .ok xs := by
  rw [decList_map (g := id) (fun b _ => dec_string b), List.map_id]

theorem dec_words (xs : List U256) : decList decWord (encList encWord xs) = .ok xs := by
  rw [decList_map (g := id) (fun b _ => dec_word b), List.map_id]

theorem dec_optWord (o : Option U256) : decOpt decWord (encOpt encWord o) = .ok o :=
  decOpt_id o fun a _ => ⟨word_ne a, dec_word a⟩

theorem dec_optWords (o : Option (List U256)) :
    decOpt (decList decWord) (encOpt (encList encWord) o) = .ok o :=
  decOpt_id o fun a _ => ⟨list_ne _ a, dec_words a⟩

theorem dec_optString (o : Option String) : decOpt decString (encOpt encString o) = .ok o :=
  decOpt_id o fun a _ => ⟨string_ne a, dec_string a⟩

theorem dec_optStrings (o : Option (List String)) :
    decOpt (decList decString) (encOpt (encList encString) o) = .ok o :=
  decOpt_id o fun a _ => ⟨list_ne _ a, dec_strings a⟩

theorem dec_optBytes (o : Option Bytes) : decOpt decBytes (encOpt encBytes o) = .ok o :=
  decOpt_id o fun a _ => ⟨by simp [encBytes], dec_bytes a⟩

theorem dec_optAddress (o : Option Address) : decOpt decAddress (encOpt encAddress o) = .ok o :=
  decOpt_id o fun a _ => ⟨by simp [encAddress, encFixed, encBytes], dec_address a⟩

theorem dec_optBool (o : Option Bool) : decOpt decBool (encOpt .bool o) = .ok o :=
  decOpt_id o fun a _ => ⟨by simp, rfl⟩

theorem dec_optNat {o : Option Nat} (h : ∀ i, o = some i → i < 2 ^ 64) :
    decOpt decU64 (encOpt encNat o) = .ok o :=
  decOpt_id o fun a ha => ⟨by simp [encNat], dec_u64 (h a ha)⟩

/-! ### Recordings -/

theorem dec_change (c : StorageChange) : decChange (encChange c) = .ok c := by
  rw [encChange, decChange]
  simp [req_obj, opt_obj, List.lookup, dec_word, dec_reason, dec_optWord, bind, Except.bind]

theorem dec_internal (c : DecodedInternalCall) : decInternal (encInternal c) = .ok c := by
  rw [encInternal, decInternal]
  simp [req_obj, opt_obj, List.lookup, dec_string, dec_optStrings, bind, Except.bind]

theorem dec_decodedStep {d : DecodedTraceStep} (h : ∀ c i, d = .internalCall c i → i < 2 ^ 64) :
    decDecodedStep (encDecodedStep d) = .ok d := by
  cases d with
  | internalCall c i =>
    have hi := h c i rfl
    simp [encDecodedStep, obj, decDecodedStep, dec_internal, dec_u64 hi, bind, Except.bind]
  | line s =>
    have hne : "Line".toList ≠ "InternalCall".toList := by decide
    simp [encDecodedStep, obj, decDecodedStep, dec_string, bind, Except.bind]

theorem dec_op (known : UInt8 → Bool) (hi : known Op.INVALID = true) (op : OpCode) :
    decOp known (encOp op) = .ok (replaceOp known op) := by
  have hb := op.toNat_lt
  have ho : UInt8.ofNat op.toNat = op := by simp
  rw [encOp, decOp, serializeOp, dec_nat hb]
  simp only [bind, Except.bind, ho, deserializeOp, replaceOp]
  cases known op with
  | true => rfl
  | false => simp [hi]; rfl

theorem dec_step {known : UInt8 → Bool} (hi : known Op.INVALID = true) {s : CallTraceStep} (h : StepFits s) :
    decStep known (encStep s) = .ok { s with op := replaceOp known s.op } := by
  obtain ⟨h1, h2, h3, h4, h5, h6, h7⟩ := h
  have hc : decOpt decChange (encOpt encChange s.storageChange) = .ok s.storageChange :=
    decOpt_id _ fun a _ => ⟨by simp [encChange, obj], dec_change a⟩
  have hd : decOpt decDecodedStep (encOpt encDecodedStep s.decoded) = .ok s.decoded :=
    decOpt_id _ fun a ha => ⟨by cases a <;> simp [encDecodedStep, obj],
      dec_decodedStep (fun c i hci => h7 c i (by rw [ha, hci]))⟩
  rw [encStep, decStep]
  simp [req_obj, opt_obj, List.lookup, dec_op known hi, dec_u64 h1, dec_u64 h2, dec_u64 h3, dec_u64 h4,
    dec_u64 h5, dec_u64 h6, dec_address, dec_optWords, dec_optBytes, dec_bytes, hc, hd, dec_status, bind,
    Except.bind]

theorem dec_callData (c : DecodedCallData) : decCallData (encCallData c) = .ok c := by
  rw [encCallData, decCallData]
  simp [req_obj, List.lookup, dec_string, dec_strings, bind, Except.bind]

theorem dec_decodedTrace (d : DecodedCallTrace) : decDecodedTrace (encDecodedTrace d) = .ok d := by
  have hc : decOpt decCallData (encOpt encCallData d.callData) = .ok d.callData :=
    decOpt_id _ fun a _ => ⟨by simp [encCallData, obj], dec_callData a⟩
  have ho : ∀ fs, ∃ ms, obj fs = .obj ms := fun fs => ⟨_, rfl⟩
  rw [encDecodedTrace]
  obtain ⟨ms, hms⟩ := ho [("label", encOpt encString d.label), ("return_data", encOpt encString d.returnData),
    ("call_data", encOpt encCallData d.callData)]
  rw [hms, decDecodedTrace, ← hms]
  simp [opt_obj, List.lookup, dec_optString, hc, bind, Except.bind]

theorem dec_trace {known : UInt8 → Bool} (hi : known Op.INVALID = true) {t : CallTrace}
    (h1 : t.depth < 2 ^ 64) (h2 : t.gasUsed < 2 ^ 64) (h3 : t.gasLimit < 2 ^ 64)
    (h4 : ∀ s ∈ t.steps, StepFits s) :
    decTrace known (encTrace t) =
      .ok { t with steps := t.steps.map fun s => { s with op := replaceOp known s.op } } := by
  have hs : decList (decStep known) (encList encStep t.steps) = _ :=
    decList_map (g := fun s => { s with op := replaceOp known s.op }) fun s hs => dec_step hi (h4 s hs)
  have hb : decBool (.bool t.success) = .ok t.success := rfl
  rw [encTrace, decTrace]
  simp [req_obj, opt_obj, List.lookup, dec_u64 h1, dec_u64 h2, dec_u64 h3, hb, dec_address, dec_optBool,
    dec_optAddress, dec_optWord, dec_kind, dec_word, dec_bytes, dec_status, hs, dec_decodedTrace, bind,
    Except.bind]

theorem dec_pair (p : String × String) : decPair (encPair p) = .ok p := by
  simp [encPair, decPair, dec_string, bind, Except.bind]

theorem dec_decodedLog (d : DecodedCallLog) : decDecodedLog (encDecodedLog d) = .ok d := by
  have hp : decOpt (decList decPair) (encOpt (encList encPair) d.params) = .ok d.params :=
    decOpt_id _ fun a _ => ⟨list_ne _ a, by
      rw [decList_map (g := id) (fun b _ => dec_pair b), List.map_id]⟩
  have ho : ∀ fs, ∃ ms, obj fs = .obj ms := fun fs => ⟨_, rfl⟩
  rw [encDecodedLog]
  obtain ⟨ms, hms⟩ := ho [("name", encOpt encString d.name), ("params", encOpt (encList encPair) d.params)]
  rw [hms, decDecodedLog, ← hms]
  simp [opt_obj, List.lookup, dec_optString, hp, bind, Except.bind]

theorem dec_logData (l : LogData) : decLogData (encLogData l) = .ok l := by
  have ht : decList decHash (encList encHash l.topics) = .ok l.topics := by
    rw [decList_map (g := id) (fun b _ => dec_hash b), List.map_id]
  rw [encLogData, decLogData]
  simp [req_obj, List.lookup, ht, dec_bytes, bind, Except.bind]

theorem dec_log (l : CallLog) : decLog (encLog l) = .ok l := by
  rw [encLog, decLog]
  simp [req_obj, List.lookup, dec_logData, dec_decodedLog, bind, Except.bind]

theorem dec_order {o : TraceMemberOrder} (h : orderIndex o < 2 ^ 64) : decOrder (encOrder o) = .ok o := by
  cases o with
  | log i =>
    have hi : i < 2 ^ 64 := h
    simp [encOrder, obj, decOrder, dec_u64 hi, bind, Except.bind]
  | call i =>
    have hi : i < 2 ^ 64 := h
    simp [encOrder, obj, decOrder, dec_u64 hi, bind, Except.bind]
  | step i =>
    have hi : i < 2 ^ 64 := h
    simp [encOrder, obj, decOrder, dec_u64 hi, bind, Except.bind]

theorem dec_node {known : UInt8 → Bool} (hi : known Op.INVALID = true) {n : Node} (h : NodeFits n) :
    decNode known (encNode n) = .ok (replaceOps known n) := by
  obtain ⟨h1, h2, h3, h4, h5, h6, h7, h8⟩ := h
  have hc : decList decU64 (encList encNat n.children) = .ok n.children := by
    rw [decList_map (e := encNat) (g := id) (fun b hb => dec_u64 (h2 b hb)), List.map_id]
  have hl : decList decLog (encList encLog n.logs) = .ok n.logs := by
    rw [decList_map (g := id) (fun b _ => dec_log b), List.map_id]
  have ho : decList decOrder (encList encOrder n.ordering) = .ok n.ordering := by
    rw [decList_map (e := encOrder) (g := id) (fun b hb => dec_order (h8 b hb)), List.map_id]
  rw [encNode, decNode]
  simp [req_obj, opt_obj, List.lookup, dec_optNat h1, hc, dec_u64 h3, dec_trace hi h4 h5 h6 h7, hl, ho,
    replaceOps, bind, Except.bind]

theorem dec_arena {known : UInt8 → Bool} (hi : known Op.INVALID = true) {ns : List Node} (h : Fits ns) :
    decArena known (encArena ns) = .ok (ns.map (replaceOps known)) := by
  rw [encArena, decArena]
  simp only [req_obj, List.lookup, beq_self_eq_true]
  exact decList_map fun n hn => dec_node hi (h n hn)

/-! ### Depth -/

theorem fine_nat {n : Nat} (h : n < 2 ^ 64) (d : Nat) : Fine d (encNat n) := .int d h
theorem fine_word (w : U256) (d : Nat) : Fine d (encWord w) := .str _ _
theorem fine_string (s : String) (d : Nat) : Fine d (encString s) := .str _ _
theorem fine_bytes (b : Bytes) (d : Nat) : Fine d (encBytes b) := .str _ _
theorem fine_address (a : Address) (d : Nat) : Fine d (encAddress a) := .str _ _
theorem fine_hash (a : U256) (d : Nat) : Fine d (encHash a) := .str _ _
theorem fine_kind (k : CallKind) (d : Nat) : Fine d (encKind k) := .str _ _
theorem fine_status (r : InstructionResult) (d : Nat) : Fine d (encStatus r) := .str _ _
theorem fine_reason (r : StorageChangeReason) (d : Nat) : Fine d (encReason r) := by
  cases r <;> exact .str _ _

theorem fine_change (c : StorageChange) (d : Nat) : Fine (d + 1) (encChange c) := by
  refine fine_obj (by simp) ?_
  simp only [List.forall_mem_cons, List.not_mem_nil, false_implies, implies_true, and_true]
  exact ⟨fine_word _ _, fine_word _ _, fine_opt fun a _ => fine_word _ _, fine_reason _ _⟩

theorem fine_strings (xs : List String) (d : Nat) : Fine (d + 1) (encList encString xs) :=
  fine_list fun s _ => fine_string s d

theorem fine_words (xs : List U256) (d : Nat) : Fine (d + 1) (encList encWord xs) :=
  fine_list fun s _ => fine_word s d

theorem fine_internal (c : DecodedInternalCall) (d : Nat) : Fine (d + 2) (encInternal c) := by
  refine fine_obj (by simp) ?_
  simp only [List.forall_mem_cons, List.not_mem_nil, false_implies, implies_true, and_true]
  exact ⟨fine_string _ _, fine_opt fun a _ => fine_strings _ _, fine_opt fun a _ => fine_strings _ _⟩

theorem fine_decodedStep {s : DecodedTraceStep} (h : ∀ c i, s = .internalCall c i → i < 2 ^ 64) (d : Nat) :
    Fine (d + 4) (encDecodedStep s) := by
  cases s with
  | internalCall c i =>
    refine fine_obj (by simp) ?_
    simp only [List.forall_mem_cons, List.not_mem_nil, false_implies, implies_true, and_true]
    refine .arr ?_
    simp only [List.forall_mem_cons, List.not_mem_nil, false_implies, implies_true, and_true]
    exact ⟨fine_internal _ _, fine_nat (h c i rfl) _⟩
  | line s =>
    refine fine_obj (by simp) ?_
    simp only [List.forall_mem_cons, List.not_mem_nil, false_implies, implies_true, and_true]
    exact fine_string _ _

theorem fine_step {s : CallTraceStep} (h : StepFits s) : Fine 5 (encStep s) := by
  obtain ⟨h1, h2, h3, h4, h5, h6, h7⟩ := h
  have ho : s.op.toNat < 2 ^ 64 := by have := s.op.toNat_lt; omega
  refine fine_obj (by simp) ?_
  simp only [List.forall_mem_cons, List.not_mem_nil, false_implies, implies_true, and_true]
  exact ⟨fine_nat h1 _, fine_nat h2 _, fine_nat ho _, fine_address _ _, fine_opt fun a _ => fine_words _ _,
    fine_opt fun a _ => fine_words _ _, fine_opt fun a _ => fine_bytes _ _, fine_bytes _ _, fine_nat h3 _,
    fine_nat h4 _, fine_nat h5 _, fine_nat h6 _, fine_opt fun a _ => fine_change _ _, fine_status _ _,
    fine_opt fun a ha => fine_decodedStep (fun c i hci => h7 c i (by rw [ha, hci])) 0⟩

theorem fine_decodedTrace (t : DecodedCallTrace) (d : Nat) : Fine (d + 3) (encDecodedTrace t) := by
  refine fine_obj (by simp) ?_
  simp only [List.forall_mem_cons, List.not_mem_nil, false_implies, implies_true, and_true]
  refine ⟨fine_opt fun a _ => fine_string _ _, fine_opt fun a _ => fine_string _ _, fine_opt fun a _ => ?_⟩
  refine fine_obj (by simp) ?_
  simp only [List.forall_mem_cons, List.not_mem_nil, false_implies, implies_true, and_true]
  exact ⟨fine_string _ _, fine_strings _ _⟩

theorem fine_trace {t : CallTrace} (h1 : t.depth < 2 ^ 64) (h2 : t.gasUsed < 2 ^ 64) (h3 : t.gasLimit < 2 ^ 64)
    (h4 : ∀ s ∈ t.steps, StepFits s) : Fine 7 (encTrace t) := by
  refine fine_obj (by simp) ?_
  simp only [List.forall_mem_cons, List.not_mem_nil, false_implies, implies_true, and_true]
  exact ⟨fine_nat h1 _, .bool _ _, fine_address _ _, fine_address _ _, fine_opt fun a _ => .bool _ _,
    fine_opt fun a _ => fine_address _ _, fine_opt fun a _ => fine_word _ _, fine_kind _ _, fine_word _ _,
    fine_bytes _ _, fine_bytes _ _, fine_nat h2 _, fine_nat h3 _, fine_status _ _,
    fine_list fun s hs => fine_step (h4 s hs), fine_decodedTrace _ _⟩

theorem fine_log (l : CallLog) (d : Nat) : Fine (d + 4) (encLog l) := by
  refine fine_obj (by simp) ?_
  simp only [List.forall_mem_cons, List.not_mem_nil, false_implies, implies_true, and_true]
  constructor
  · refine fine_obj (by simp) ?_
    simp only [List.forall_mem_cons, List.not_mem_nil, false_implies, implies_true, and_true]
    exact ⟨fine_list fun a _ => fine_hash _ _, fine_bytes _ _⟩
  · refine fine_obj (by simp) ?_
    simp only [List.forall_mem_cons, List.not_mem_nil, false_implies, implies_true, and_true]
    refine ⟨fine_opt fun a _ => fine_string _ _, fine_opt fun a _ => fine_list fun p _ => .arr ?_⟩
    simp only [List.forall_mem_cons, List.not_mem_nil, false_implies, implies_true, and_true]
    exact ⟨fine_string _ _, fine_string _ _⟩

theorem fine_order {o : TraceMemberOrder} (h : orderIndex o < 2 ^ 64) (d : Nat) : Fine (d + 1) (encOrder o) := by
  cases o <;>
  · refine fine_obj (by simp) ?_
    simp only [List.forall_mem_cons, List.not_mem_nil, false_implies, implies_true, and_true]
    exact fine_nat h _

theorem fine_node {n : Node} (h : NodeFits n) : Fine 8 (encNode n) := by
  obtain ⟨h1, h2, h3, h4, h5, h6, h7, h8⟩ := h
  refine fine_obj (by simp) ?_
  simp only [List.forall_mem_cons, List.not_mem_nil, false_implies, implies_true, and_true]
  exact ⟨fine_opt fun a ha => fine_nat (h1 a ha) _, fine_list fun a ha => fine_nat (h2 a ha) _, fine_nat h3 _,
    fine_trace h4 h5 h6 h7, fine_list fun a _ => fine_log _ _, fine_list fun a ha => fine_order (h8 a ha) _⟩

theorem fine_arena {ns : List Node} (h : Fits ns) : Fine 10 (encArena ns) := by
  refine fine_obj (by simp) ?_
  simp only [List.forall_mem_cons, List.not_mem_nil, false_implies, implies_true, and_true]
  exact fine_list fun n hn => fine_node (h n hn)

theorem read_write {known : UInt8 → Bool} (hi : known Op.INVALID = true) {ns : List Node} (h : Fits ns) :
    read known (write ns) = .ok (ns.map (replaceOps known)) := by
  rw [read, write, fromStr_value (fine_arena h) (by decide)]
  exact dec_arena hi h

end Verif.Stored
