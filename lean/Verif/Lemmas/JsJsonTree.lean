import Verif.Lemmas.JsJson
/-! The JSON text of a JavaScript value is parsed as its JSON. -/
namespace Verif
open Spec JsonText JsonParse
open BigJs (toText_ok)

/-- A value can begin like this. -/
def Starts (s : List Char) : Prop := ∃ c r, s = c :: r ∧ isWs c = false ∧ c ≠ ']' ∧ c ≠ '}'

/-- A number can end before this. -/
def Stops (r : List Char) : Prop := ∀ c, r.head? = some c → isNumChar c = false

theorem skipWs_start {s : List Char} (h : Starts s) (r : List Char) : skipWs (s ++ r) = s ++ r := by
  obtain ⟨c, t, rfl, h1, _⟩ := h
  rw [List.cons_append, skipWs, List.dropWhile_cons_of_neg (by simp [h1])]

theorem takeWhile_stops {r : List Char} (h : Stops r) : r.takeWhile isNumChar = [] := by
  cases r with
  | nil => rfl
  | cons c r => rw [List.takeWhile_cons_of_neg (by simp [h c rfl])]

theorem dropWhile_stops {r : List Char} (h : Stops r) : r.dropWhile isNumChar = r := by
  cases r with
  | nil => rfl
  | cons c r => rw [List.dropWhile_cons_of_neg (by simp [h c rfl])]

theorem stops_nil : Stops [] := by intro c h; cases h

theorem stops_cons {c : Char} (h : isNumChar c = false) (r : List Char) : Stops (c :: r) := by
  intro d hd
  simp at hd
  subst hd
  exact h

/-! ### One step of the parser -/

theorem value_null (f d : Nat) (r : List Char) :
    value (f + 1) d ("null".toList ++ r) = .ok (.null, r) := by
  rw [value.eq_def]
  rfl

theorem value_true (f d : Nat) (r : List Char) :
    value (f + 1) d ("true".toList ++ r) = .ok (.bool true, r) := by
  rw [value.eq_def]
  rfl

theorem value_false (f d : Nat) (r : List Char) :
    value (f + 1) d ("false".toList ++ r) = .ok (.bool false, r) := by
  rw [value.eq_def]
  rfl

theorem value_quote (f d : Nat) (r : List Char) :
    value (f + 1) d ('"' :: r) = (do let (s, r) ← string r; .ok (.str s, r)) := by
  rw [value.eq_def]
  rfl

theorem value_arr (f d : Nat) (r : List Char) :
    value (f + 1) d ('[' :: r) =
      if d ≤ 1 then .error .syntax
      else match skipWs r with
        | ']' :: r => .ok (.arr [], r)
        | r => (do
          let (xs, r) ← items f (d - 1) r
          .ok (.arr xs, r)) := by
  rw [value.eq_def]
  rfl

theorem value_obj (f d : Nat) (r : List Char) :
    value (f + 1) d ('{' :: r) =
      if d ≤ 1 then .error .syntax
      else match skipWs r with
        | '}' :: r => .ok (.obj [], r)
        | r => (do
          let (ms, r) ← pairs f (d - 1) r []
          .ok (.obj ms, r)) := by
  rw [value.eq_def]
  rfl

theorem value_num {c : Char} (hc : c = '-' ∨ isDigit c = true) (f d : Nat) (r : List Char) :
    value (f + 1) d (c :: r) = (do
      let n ← readNumber ((c :: r).takeWhile isNumChar)
      .ok (.num n, (c :: r).dropWhile isNumChar)) := by
  have hws : skipWs (c :: r) = c :: r := by
    rw [skipWs, List.dropWhile_cons_of_neg]
    intro h
    simp only [isWs, Bool.or_eq_true, beq_iff_eq] at h
    rcases h with ((h | h) | h) | h <;> subst h <;> revert hc <;> decide
  rw [value.eq_def]
  simp only [hws]
  split
  · rename_i h; rw [(List.cons.inj h).1] at hc; exact absurd hc (by decide)
  · rename_i h; rw [(List.cons.inj h).1] at hc; exact absurd hc (by decide)
  · rename_i h; rw [(List.cons.inj h).1] at hc; exact absurd hc (by decide)
  · rename_i h; rw [(List.cons.inj h).1] at hc; exact absurd hc (by decide)
  · rename_i h; rw [(List.cons.inj h).1] at hc; exact absurd hc (by decide)
  · rename_i h; rw [(List.cons.inj h).1] at hc; exact absurd hc (by decide)
  · rename_i h
    obtain ⟨h1, h2⟩ := List.cons.inj h
    subst h1 h2
    rw [if_pos hc]
  · rename_i h; cases h

/-! ### Starts -/

theorem starts_quote (s : List JsChar) : Starts (quote s) := ⟨_, _, rfl, by decide, by decide, by decide⟩

theorem stringify_starts {text : Rat → List Char} {num : Rat → JsonNum} (hn : NumberText text num)
    {t : JsTree} {s : List Char} (h : stringify text t = some (some s)) : Starts s := by
  cases t with
  | null => simp only [stringify, Option.some.injEq] at h; subst h; exact ⟨_, _, rfl, by decide, by decide, by decide⟩
  | undefined => simp [stringify] at h
  | bool b =>
    cases b <;> simp only [stringify, Option.some.injEq] at h <;> subst h <;>
      exact ⟨_, _, rfl, by decide, by decide, by decide⟩
  | num x =>
    cases x with
    | fin q =>
      simp only [stringify, Option.some.injEq] at h
      subst h
      obtain ⟨_, _, c, r, h1, h2⟩ := numText_ok hn q
      refine ⟨c, r, h1, ?_, ?_, ?_⟩
      · apply Classical.byContradiction
        intro h
        simp only [isWs, Bool.or_eq_true, beq_iff_eq, Bool.not_eq_false] at h
        rcases h with ((h | h) | h) | h <;> subst h <;> revert h2 <;> decide
      · intro h; subst h; revert h2; decide
      · intro h; subst h; revert h2; decide
    | nan => simp only [stringify, Option.some.injEq] at h; subst h; exact ⟨_, _, rfl, by decide, by decide, by decide⟩
    | inf b => simp only [stringify, Option.some.injEq] at h; subst h; exact ⟨_, _, rfl, by decide, by decide, by decide⟩
  | str s => simp only [stringify, Option.some.injEq] at h; subst h; exact starts_quote _
  | big b =>
    simp only [stringify] at h
    split at h
    · cases h
    · simp only [Option.some.injEq] at h; subst h; exact starts_quote _
  | bigint => simp [stringify] at h
  | arr xs =>
    simp only [stringify, Option.map_eq_some_iff, Option.some.injEq] at h
    obtain ⟨_, _, rfl⟩ := h
    exact ⟨_, _, rfl, by decide, by decide, by decide⟩
  | obj ms =>
    simp only [stringify, Option.map_eq_some_iff, Option.some.injEq] at h
    obtain ⟨_, _, rfl⟩ := h
    exact ⟨_, _, rfl, by decide, by decide, by decide⟩

theorem stringify_undefined {text : Rat → List Char} {t : JsTree} (h : stringify text t = some none) :
    t = .undefined := by
  cases t with
  | undefined => rfl
  | bool b => cases b <;> simp [stringify] at h
  | num x => cases x <;> simp [stringify] at h
  | big b => simp only [stringify] at h; split at h <;> simp at h
  | arr xs => simp [stringify] at h
  | obj ms => simp [stringify] at h
  | null => simp [stringify] at h
  | str s => simp [stringify] at h
  | bigint => simp [stringify] at h

theorem stringify_defined {text : Rat → List Char} {t : JsTree} {s : List Char}
    (h : stringify text t = some (some s)) : isDefined t = true := by
  cases t <;> first | rfl | simp [stringify] at h

/-! ### Insertion -/

theorem insert_new {ms : List (List Char × Json)} {k : List Char} (h : k ∉ ms.map (·.1)) (v : Json) :
    JsonParse.insert ms k v = ms ++ [(k, v)] := by
  induction ms with
  | nil => rfl
  | cons m ms ih =>
    obtain ⟨k', v'⟩ := m
    simp only [List.map_cons, List.mem_cons, not_or] at h
    rw [JsonParse.insert, if_neg h.1, ih h.2]
    rfl

theorem chars_inj {s t : List JsChar} (hs : UnicodeStr s) (ht : UnicodeStr t) (h : chars s = chars t) :
    s = t := by
  induction s generalizing t with
  | nil =>
    cases t with
    | nil => rfl
    | cons c t =>
      cases c with
      | ch c => simp [chars] at h
      | lone n => exact absurd List.mem_cons_self (ht n)
  | cons c s ih =>
    cases c with
    | lone n => exact absurd List.mem_cons_self (hs n)
    | ch c =>
      cases t with
      | nil => simp [chars] at h
      | cons d t =>
        cases d with
        | lone n => exact absurd List.mem_cons_self (ht n)
        | ch d =>
          simp only [chars, List.filterMap_cons] at h
          obtain ⟨h1, h2⟩ := List.cons.inj h
          rw [h1, ih (fun n hn => hs n (List.mem_cons_of_mem _ hn))
            (fun n hn => ht n (List.mem_cons_of_mem _ hn)) h2]

theorem chars_map (s : List Char) : chars (s.map .ch) = s := by
  induction s with
  | nil => rfl
  | cons c s ih =>
    simp only [chars, List.map_cons, List.filterMap_cons] at ih ⊢
    rw [ih]

theorem unicode_map (s : List Char) : UnicodeStr (s.map .ch) := by
  intro n h
  simp at h

theorem paired_map (s : List Char) : PairedStr (s.map .ch) := by
  induction s with
  | nil => exact True.intro
  | cons c s ih => exact ih

theorem value_string {s : List JsChar} (h : PairedStr s) (f d : Nat) (r : List Char) :
    Parses (UnicodeStr s) (.str (chars s), r) (value (f + 1) d (quote s ++ r)) := by
  rw [quote, List.cons_append, value_quote, List.append_assoc, List.cons_append, List.nil_append]
  refine ((string_escape h r).bind (Q := True) (fun _ => ?_)).iff (by simp)
  exact Parses.ok True.intro _

theorem skipWs_cons {c : Char} (h : isWs c = false) (r : List Char) : skipWs (c :: r) = c :: r := by
  rw [skipWs, List.dropWhile_cons_of_neg (by simp [h])]

/-! ### The induction -/

/-- What is to be shown of a value. -/
def TreeOk (text : Rat → List Char) (num : Rat → JsonNum) (t : JsTree) : Prop :=
  WellMade t → ∀ s, stringify text t = some (some s) → ∀ fuel d rest, 2 * s.length ≤ fuel → 1 ≤ d →
    Stops rest → Parses (Unicode t ∧ depth t < d) (json num t, rest) (value fuel d (s ++ rest))

/-- What is to be shown of elements. -/
def ElemsOk (text : Rat → List Char) (num : Rat → JsonNum) (xs : JsElems) : Prop :=
  WellMadeElems xs → ∀ s, elements text xs = some s →
    (xs ≠ .nil → Starts s) ∧
    (xs ≠ .nil → ∀ fuel d rest, 2 * s.length + 1 ≤ fuel → 1 ≤ d →
      Parses (UnicodeElems xs ∧ depthElems xs < d) (jsonElems num xs, rest)
        (items fuel d (s ++ ']' :: rest)))

/-- What is to be shown of members. -/
def MembersOk (text : Rat → List Char) (num : Rat → JsonNum) (ms : JsMembers) : Prop :=
  WellMadeMembers ms → (keys ms).Nodup → ∀ s, members text ms = some s →
    (s = [] → jsonMembers num ms = [] ∧ UnicodeMembers ms ∧ depthMembers ms = 0) ∧
    (s ≠ [] → Starts s) ∧
    (s ≠ [] → ∀ fuel d rest acc, 2 * s.length + 1 ≤ fuel → 1 ≤ d →
      (∀ k ∈ keys ms, UnicodeStr k → chars k ∉ acc.map (·.1)) →
      Parses (UnicodeMembers ms ∧ depthMembers ms < d) (acc ++ jsonMembers num ms, rest)
        (pairs fuel d (s ++ '}' :: rest) acc))

theorem starts_append {s : List Char} (h : Starts s) (r : List Char) : Starts (s ++ r) := by
  obtain ⟨c, t, rfl, h1⟩ := h
  exact ⟨c, t ++ r, rfl, h1⟩

theorem starts_ne {s : List Char} (h : Starts s) : s ≠ [] := by
  obtain ⟨c, t, rfl, h1⟩ := h
  simp

theorem tree_scalar {text : Rat → List Char} {num : Rat → JsonNum} (hn : NumberText text num) {t : JsTree}
    (harr : ∀ xs, t ≠ .arr xs) (hobj : ∀ ms, t ≠ .obj ms) : TreeOk text num t := by
  intro hw s hs fuel d rest hf hd hr
  have hs0 := starts_ne (stringify_starts hn hs)
  obtain ⟨f, rfl⟩ : ∃ f, fuel = f + 1 := by
    cases s with
    | nil => exact absurd rfl hs0
    | cons c s => exact ⟨fuel - 1, by simp at hf; omega⟩
  cases t with
  | null =>
    simp only [stringify, Option.some.injEq] at hs; subst hs
    rw [value_null]
    exact Parses.ok ⟨True.intro, hd⟩ _
  | undefined => simp [stringify] at hs
  | bool b =>
    cases b <;> simp only [stringify, Option.some.injEq] at hs <;> subst hs
    · rw [value_false]; exact Parses.ok ⟨True.intro, hd⟩ _
    · rw [value_true]; exact Parses.ok ⟨True.intro, hd⟩ _
  | num x =>
    cases x with
    | fin q =>
      simp only [stringify, Option.some.injEq] at hs
      subst hs
      obtain ⟨h1, h2, c, r, h3, h4⟩ := numText_ok hn q
      have e : text q ++ rest = c :: (r ++ rest) := by rw [h3]; rfl
      rw [e, value_num h4, ← e, takeWhile_all h2, dropWhile_all h2, takeWhile_stops hr, dropWhile_stops hr,
        List.append_nil, h1]
      exact Parses.ok ⟨True.intro, hd⟩ _
    | nan =>
      simp only [stringify, Option.some.injEq] at hs; subst hs
      rw [value_null]
      exact Parses.ok ⟨True.intro, hd⟩ _
    | inf b =>
      simp only [stringify, Option.some.injEq] at hs; subst hs
      rw [value_null]
      exact Parses.ok ⟨True.intro, hd⟩ _
  | str s =>
    simp only [stringify, Option.some.injEq] at hs; subst hs
    refine (value_string hw f d rest).iff ?_
    simp only [Unicode, depth]
    exact ⟨fun h => ⟨h, hd⟩, fun h => h.1⟩
  | big b =>
    rw [stringify, toText_ok hw] at hs
    simp only [Option.some.injEq] at hs; subst hs
    have := (value_string (paired_map (intNumeral 10 b.toInt)) f d rest).iff
      (Q := Unicode (.big b) ∧ depth (.big b) < d)
      ⟨fun _ => ⟨True.intro, hd⟩, fun _ => unicode_map _⟩
    rw [chars_map] at this
    exact this
  | bigint => simp [stringify] at hs
  | arr xs => exact absurd rfl (harr xs)
  | obj ms => exact absurd rfl (hobj ms)

theorem elems_cons {text : Rat → List Char} {num : Rat → JsonNum} (hn : NumberText text num) {x : JsTree}
    {rest : JsElems} (hx : TreeOk text num x) (hr : ElemsOk text num rest) :
    ElemsOk text num (.cons x rest) := by
  intro hw s hs
  obtain ⟨hw1, hw2⟩ := hw
  simp only [elements] at hs
  cases h1 : stringify text x with
  | none => rw [h1] at hs; simp at hs
  | some t =>
    cases h2 : elements text rest with
    | none => rw [h1, h2] at hs; simp at hs
    | some r =>
      rw [h1, h2] at hs
      simp only [Option.bind_eq_bind, Option.bind_some] at hs
      -- the text of the element
      have hval : Starts (t.getD "null".toList) ∧ ∀ fuel d tail, 2 * (t.getD "null".toList).length ≤ fuel →
          1 ≤ d → Stops tail → Parses (Unicode x ∧ depth x < d) (json num x, tail)
            (value fuel d (t.getD "null".toList ++ tail)) := by
        cases t with
        | none =>
          have := stringify_undefined h1
          subst this
          refine ⟨⟨_, _, rfl, by decide, by decide, by decide⟩, fun fuel d tail hf hd _ => ?_⟩
          obtain ⟨f, rfl⟩ : ∃ f, fuel = f + 1 := ⟨fuel - 1, by simp at hf; omega⟩
          rw [Option.getD_none, value_null]
          exact Parses.ok ⟨True.intro, hd⟩ _
        | some t =>
          exact ⟨stringify_starts hn h1, fun fuel d tail hf hd ht => hx hw1 t h1 fuel d tail hf hd ht⟩
      obtain ⟨hst, hval⟩ := hval
      generalize t.getD "null".toList = u at hs hst hval
      cases rest with
      | nil =>
        simp only [Option.some.injEq] at hs
        subst hs
        refine ⟨fun _ => hst, fun _ fuel d tail hf hd => ?_⟩
        obtain ⟨f, rfl⟩ : ∃ f, fuel = f + 1 := ⟨fuel - 1, by omega⟩
        rw [items]
        refine ((hval f d (']' :: tail) (by omega) hd (stops_cons (by decide) _)).bind (Q := True)
          (fun _ => ?_)).iff ?_
        · exact Parses.ok True.intro _
        · simp only [UnicodeElems, depthElems, and_true, Nat.max_zero]
      | cons y ys =>
        simp only [Option.some.injEq] at hs
        subst hs
        obtain ⟨_, hr2⟩ := hr hw2 r h2
        refine ⟨fun _ => starts_append hst _, fun _ fuel d tail hf hd => ?_⟩
        obtain ⟨f, rfl⟩ : ∃ f, fuel = f + 1 := ⟨fuel - 1, by omega⟩
        simp only [List.length_append, List.length_cons] at hf
        rw [items, List.append_assoc, List.cons_append]
        refine ((hval f d (',' :: (r ++ ']' :: tail)) (by omega) hd (stops_cons (by decide) _)).bind
          (Q := UnicodeElems (.cons y ys) ∧ depthElems (.cons y ys) < d) (fun _ => ?_)).iff ?_
        · simp only [skipWs_cons (c := ',') (by decide)]
          refine ((hr2 (by simp) f d tail (by omega) hd).bind (Q := True) (fun _ => ?_)).iff (by simp)
          exact Parses.ok True.intro _
        · have e1 : depthElems (.cons x (.cons y ys)) = max (depth x) (depthElems (.cons y ys)) := by
            rw [depthElems]
          have e2 : UnicodeElems (.cons x (.cons y ys)) = (Unicode x ∧ UnicodeElems (.cons y ys)) := by
            rw [UnicodeElems]
          rw [e1, e2]
          generalize depthElems (.cons y ys) = k
          generalize UnicodeElems (.cons y ys) = U
          constructor
          · rintro ⟨⟨a, b⟩, c, e⟩; exact ⟨⟨a, c⟩, by omega⟩
          · rintro ⟨⟨a, b⟩, c⟩; exact ⟨⟨a, by omega⟩, b, by omega⟩

theorem members_cons {text : Rat → List Char} {num : Rat → JsonNum} (_hn : NumberText text num)
    {key : List JsChar} {x : JsTree} {rest : JsMembers} (hx : TreeOk text num x)
    (hr : MembersOk text num rest) : MembersOk text num (.cons key x rest) := by
  intro hw hk s hs
  obtain ⟨hw0, hw1, hw2⟩ := hw
  obtain ⟨hk1, hk2⟩ := List.nodup_cons.mp hk
  simp only [members] at hs
  cases h1 : stringify text x with
  | none => rw [h1] at hs; simp at hs
  | some t =>
    cases h2 : members text rest with
    | none => rw [h1, h2] at hs; simp at hs
    | some r =>
      rw [h1, h2] at hs
      simp only [Option.bind_eq_bind, Option.bind_some] at hs
      obtain ⟨r1, r2, r3⟩ := hr hw2 hk2 r h2
      cases t with
      | none =>
        have := stringify_undefined h1
        subst this
        simp only [Option.some.injEq] at hs
        subst hs
        refine ⟨fun h => ?_, r2, fun h fuel d tail acc hf hd ha => ?_⟩
        · obtain ⟨a, b, c⟩ := r1 h
          refine ⟨by simp [jsonMembers, isDefined, a], ⟨by simp [isDefined], True.intro, b⟩, ?_⟩
          simp [depthMembers, depth, c]
        · have := r3 h fuel d tail acc hf hd (fun k hk => ha k (List.mem_cons_of_mem _ hk))
          have e : jsonMembers num (.cons key .undefined rest) = jsonMembers num rest := by
            simp [jsonMembers, isDefined]
          rw [e]
          refine this.iff ?_
          simp [UnicodeMembers, isDefined, Unicode, depthMembers, depth]
      | some t =>
        simp only [Option.some.injEq] at hs
        have hdef := stringify_defined h1
        have hst : Starts s := by rw [← hs]; exact starts_append (starts_quote key) _
        refine ⟨fun h => absurd h (starts_ne hst), fun _ => hst, fun _ fuel d tail acc hf hd ha => ?_⟩
        obtain ⟨f, rfl⟩ : ∃ f, fuel = f + 1 := ⟨fuel - 1, by omega⟩
        have e : s ++ '}' :: tail = '"' :: (key.flatMap escape ++ '"' :: (':' :: (t ++
            ((if r.isEmpty then [] else ',' :: r) ++ '}' :: tail)))) := by
          rw [← hs, quote]
          simp
        have ej : jsonMembers num (.cons key x rest) = (chars key, json num x) :: jsonMembers num rest := by
          simp [jsonMembers, hdef]
        rw [e, pairs, ej]
        simp only [skipWs_cons (c := '"') (by decide)]
        have hlen : 2 * t.length + 2 * (if r.isEmpty then [] else ',' :: r).length + 6 ≤ f + 1 := by
          rw [← hs, quote] at hf
          simp only [List.length_append, List.length_cons, List.length_nil] at hf
          omega
        refine ((string_escape hw0 _).bind
          (Q := (Unicode x ∧ depth x < d) ∧ (UnicodeMembers rest ∧ depthMembers rest < d))
          (fun hu => ?_)).iff ?_
        · simp only [skipWs_cons (c := ':') (by decide)]
          have hnew : chars key ∉ acc.map (·.1) := ha key List.mem_cons_self hu
          by_cases hemp : r = []
          · obtain ⟨b1, b2, b3⟩ := r1 hemp
            subst hemp
            simp only [List.isEmpty_nil, if_true, List.nil_append]
            refine (hx hw1 t h1 f d _ (by omega) hd (stops_cons (by decide) _)).bind (fun _ => ?_)
            simp only [skipWs_cons (c := '}') (by decide)]
            rw [insert_new hnew, b1]
            exact Parses.ok ⟨b2, by omega⟩ _
          · have hie : r.isEmpty = false := by cases r <;> simp_all
            simp only [hie, Bool.false_eq_true, if_false, List.cons_append, List.length_cons] at hlen ⊢
            refine (hx hw1 t h1 f d _ (by omega) hd (stops_cons (by decide) _)).bind (fun _ => ?_)
            simp only [skipWs_cons (c := ',') (by decide)]
            rw [insert_new hnew]
            have := r3 hemp f d tail (acc ++ [(chars key, json num x)]) (by omega) hd (by
              intro k hk hku
              rw [List.map_append, List.mem_append, not_or]
              refine ⟨ha k (List.mem_cons_of_mem _ hk) hku, ?_⟩
              simp only [List.map_cons, List.map_nil, List.mem_singleton]
              intro he
              exact hk1 (by rw [← chars_inj hku hu he]; exact hk))
            rw [List.append_assoc] at this
            exact this
        · simp only [UnicodeMembers, depthMembers, hdef, forall_const]
          constructor
          · rintro ⟨a, ⟨b, c⟩, e, g⟩; exact ⟨⟨a, b, e⟩, by omega⟩
          · rintro ⟨⟨a, b, e⟩, c⟩; exact ⟨a, ⟨b, by omega⟩, e, by omega⟩

theorem not_bracket {s : List Char} (h : Starts s) (r tail : List Char) : s ++ r ≠ ']' :: tail := by
  obtain ⟨c, t, rfl, _, h2, _⟩ := h
  intro he
  exact h2 (List.cons.inj he).1

theorem not_brace {s : List Char} (h : Starts s) (r tail : List Char) : s ++ r ≠ '}' :: tail := by
  obtain ⟨c, t, rfl, _, _, h2⟩ := h
  intro he
  exact h2 (List.cons.inj he).1

theorem tree_arr {text : Rat → List Char} {num : Rat → JsonNum} {xs : JsElems}
    (h : ElemsOk text num xs) : TreeOk text num (.arr xs) := by
  intro hw s hs fuel d rest hf hd hr
  simp only [stringify, Option.map_eq_some_iff, Option.some.injEq] at hs
  obtain ⟨l, h1, rfl⟩ := hs
  simp only [List.length_cons, List.length_append, List.length_nil] at hf
  obtain ⟨f, rfl⟩ : ∃ f, fuel = f + 1 := ⟨fuel - 1, by omega⟩
  rw [List.cons_append, value_arr, List.append_assoc, List.cons_append, List.nil_append]
  by_cases hd1 : d ≤ 1
  · rw [if_pos hd1]
    exact Parses.error (by simp only [depth]; omega) _
  rw [if_neg hd1]
  cases xs with
  | nil =>
    simp only [elements, Option.some.injEq] at h1
    subst h1
    rw [List.nil_append, skipWs_cons (by decide)]
    exact Parses.ok ⟨True.intro, by simp only [depth, depthElems]; omega⟩ _
  | cons x ys =>
    obtain ⟨hst, hval⟩ := h hw l h1
    have hst := hst (by simp)
    rw [skipWs_start hst]
    split
    · rename_i he; exact absurd he (not_bracket hst _ _)
    refine ((hval (by simp) f (d - 1) rest (by omega) (by omega)).bind (Q := True) (fun _ => ?_)).iff ?_
    · exact Parses.ok True.intro _
    · simp only [Unicode, depth, and_true]
      constructor
      · rintro ⟨a, b⟩; exact ⟨a, by omega⟩
      · rintro ⟨a, b⟩; exact ⟨a, by omega⟩

theorem tree_obj {text : Rat → List Char} {num : Rat → JsonNum} {ms : JsMembers}
    (h : MembersOk text num ms) : TreeOk text num (.obj ms) := by
  intro hw s hs fuel d rest hf hd hr
  simp only [stringify, Option.map_eq_some_iff, Option.some.injEq] at hs
  obtain ⟨l, h1, rfl⟩ := hs
  simp only [List.length_cons, List.length_append, List.length_nil] at hf
  obtain ⟨f, rfl⟩ : ∃ f, fuel = f + 1 := ⟨fuel - 1, by omega⟩
  rw [List.cons_append, value_obj, List.append_assoc, List.cons_append, List.nil_append]
  by_cases hd1 : d ≤ 1
  · rw [if_pos hd1]
    exact Parses.error (by simp only [depth]; omega) _
  rw [if_neg hd1]
  obtain ⟨r1, r2, r3⟩ := h hw.2 hw.1 l h1
  by_cases hl : l = []
  · obtain ⟨a, b, c⟩ := r1 hl
    subst hl
    rw [List.nil_append, skipWs_cons (by decide)]
    have : json num (.obj ms) = .obj [] := by rw [json, a]
    rw [this]
    exact Parses.ok ⟨b, by simp only [depth]; omega⟩ _
  · have hst := r2 hl
    rw [skipWs_start hst]
    split
    · rename_i he; exact absurd he (not_brace hst _ _)
    refine ((r3 hl f (d - 1) rest [] (by omega) (by omega) (by simp)).bind (Q := True) (fun _ => ?_)).iff ?_
    · exact Parses.ok True.intro _
    · simp only [Unicode, depth, and_true]
      constructor
      · rintro ⟨a, b⟩; exact ⟨a, by omega⟩
      · rintro ⟨a, b⟩; exact ⟨a, by omega⟩

mutual
theorem tree_ok {text : Rat → List Char} {num : Rat → JsonNum} (hn : NumberText text num) :
    ∀ t, TreeOk text num t
  | .null => tree_scalar hn (by simp) (by simp)
  | .undefined => tree_scalar hn (by simp) (by simp)
  | .bool _ => tree_scalar hn (by simp) (by simp)
  | .num _ => tree_scalar hn (by simp) (by simp)
  | .str _ => tree_scalar hn (by simp) (by simp)
  | .big _ => tree_scalar hn (by simp) (by simp)
  | .bigint => tree_scalar hn (by simp) (by simp)
  | .arr xs => tree_arr (elems_ok hn xs)
  | .obj ms => tree_obj (members_ok hn ms)
theorem elems_ok {text : Rat → List Char} {num : Rat → JsonNum} (hn : NumberText text num) :
    ∀ xs, ElemsOk text num xs
  | .nil => fun _ _ _ => ⟨fun h => absurd rfl h, fun h => absurd rfl h⟩
  | .cons x rest => elems_cons hn (tree_ok hn x) (elems_ok hn rest)
theorem members_ok {text : Rat → List Char} {num : Rat → JsonNum} (hn : NumberText text num) :
    ∀ ms, MembersOk text num ms
  | .nil => by
    intro _ _ s hs
    simp only [members, Option.some.injEq] at hs
    subst hs
    exact ⟨fun _ => ⟨rfl, True.intro, rfl⟩, fun h => absurd rfl h, fun h => absurd rfl h⟩
  | .cons _ x rest => members_cons hn (tree_ok hn x) (members_ok hn rest)
end

/-! ### What throws -/

mutual
theorem stringify_none (text : Rat → List Char) : ∀ t, WellMade t →
    (stringify text t = none ↔ HasBigint t)
  | .null, _ => by simp [stringify, HasBigint]
  | .undefined, _ => by simp [stringify, HasBigint]
  | .bool b, _ => by cases b <;> simp [stringify, HasBigint]
  | .num n, _ => by cases n <;> simp [stringify, HasBigint]
  | .str _, _ => by simp [stringify, HasBigint]
  | .big b, h => by rw [stringify, toText_ok h]; simp [HasBigint]
  | .bigint, _ => by simp [stringify, HasBigint]
  | .arr xs, h => by
    rw [stringify, Option.map_eq_none_iff, elements_none text xs h, HasBigint]
  | .obj ms, h => by
    rw [stringify, Option.map_eq_none_iff, members_none text ms h.2, HasBigint]
theorem elements_none (text : Rat → List Char) : ∀ xs, WellMadeElems xs →
    (elements text xs = none ↔ HasBigintElems xs)
  | .nil, _ => by simp [elements, HasBigintElems]
  | .cons x rest, h => by
    have h1 := stringify_none text x h.1
    have h2 := elements_none text rest h.2
    rw [HasBigintElems, ← h1, ← h2, elements]
    cases stringify text x with
    | none => simp
    | some t =>
      cases elements text rest with
      | none => simp
      | some r => cases rest <;> simp
theorem members_none (text : Rat → List Char) : ∀ ms, WellMadeMembers ms →
    (members text ms = none ↔ HasBigintMembers ms)
  | .nil, _ => by simp [members, HasBigintMembers]
  | .cons _ x rest, h => by
    have h1 := stringify_none text x h.2.1
    have h2 := members_none text rest h.2.2
    rw [HasBigintMembers, ← h1, ← h2, members]
    cases stringify text x with
    | none => simp
    | some t =>
      cases members text rest with
      | none => simp
      | some r => cases t <;> simp
end

theorem toStdString_map (s : List Char) : toStdString (s.map .ch) = some s := by
  induction s with
  | nil => rfl
  | cons c s ih => rw [List.map_cons, toStdString, ih]; rfl

theorem fromStr_text {text : Rat → List Char} {num : Rat → JsonNum} (hn : NumberText text num) {t : JsTree}
    (hw : WellMade t) {s : List Char} (hs : stringify text t = some (some s)) :
    Parses (Unicode t ∧ depth t < 128) (json num t) (fromStr s) := by
  have h := tree_ok hn t hw s hs (2 * s.length + 1) 128 [] (by omega) (by decide) stops_nil
  rw [List.append_nil] at h
  unfold fromStr
  refine (h.bind (Q := True) (fun _ => ?_)).iff (by simp)
  exact Parses.ok True.intro _

end Verif
