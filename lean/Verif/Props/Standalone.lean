import Verif.Spec.Standalone
/-! C35-C39: the small inspectors. -/
namespace Verif.Props
open Spec

theorem runHooks_append {σ : Type} (hook : σ → Event → R σ) (s : σ) (es es' : List Event) :
    runHooks hook s (es ++ es') = match runHooks hook s es with
      | .error p => .error p
      | .ok s' => runHooks hook s' es' := by
  induction es generalizing s with
  | nil => rfl
  | cons e es ih =>
    simp only [List.cons_append, runHooks]
    cases hook s e with
    | error p => rfl
    | ok s' => exact ih s'

theorem addEntry_ok {κ : Type} [DecidableEq κ] (m : AMap κ Nat) (k : κ) (n : Nat)
    (h : (AMap.get? m k).getD 0 + n < 2 ^ 64) :
    addEntry m k n = .ok (AMap.insert m k ((AMap.get? m k).getD 0 + n)) := by
  simp only [addEntry, addU64, if_pos h]

/-! ### C35 -/

theorem countOf_cons (op : OpCode) (p : Interp × Interp) (ps : List (Interp × Interp)) :
    countOf op (p :: ps) = (if p.1.op = op then 1 else 0) + countOf op ps := by
  unfold countOf
  by_cases h : p.1.op = op
  · simp [h]; omega
  · simp [h]

theorem gasOf_cons (op : OpCode) (p : Interp × Interp) (ps : List (Interp × Interp)) :
    gasOf op (p :: ps) = (if p.1.op = op then p.1.gas.remaining - p.2.gas.remaining else 0)
      + gasOf op ps := by
  unfold gasOf
  by_cases h : p.1.op = op
  · simp [h]
  · simp [h]

theorem opcodeGas_run (known : OpCode → Bool) {es : List Event} {ps : List (Interp × Interp)}
    (hp : Paired es ps) (s : OpcodeGas) (hl : s.last = none)
    (hc : ∀ op, known op = true → (AMap.get? s.counts op).getD 0 + countOf op ps < 2 ^ 64)
    (hg : ∀ op, known op = true → (AMap.get? s.gas op).getD 0 + gasOf op ps < 2 ^ 64)
    (hn : AMap.Nodup s.counts) :
    ∃ s', runHooks (OpcodeGas.hook known) s es = .ok s' ∧ s'.last = none ∧ AMap.Nodup s'.counts ∧
      ∀ op, AMap.get? s'.counts op = (if known op = true ∧ countOf op ps ≠ 0
          then some ((AMap.get? s.counts op).getD 0 + countOf op ps) else AMap.get? s.counts op) ∧
        AMap.get? s'.gas op = (if known op = true ∧ countOf op ps ≠ 0
          then some ((AMap.get? s.gas op).getD 0 + gasOf op ps) else AMap.get? s.gas op) := by
  induction hp generalizing s with
  | nil => exact ⟨s, rfl, hl, hn, by simp [countOf]⟩
  | instr i i' c c' hp ih =>
    rename_i es ps
    simp only [countOf_cons, gasOf_cons] at hc hg
    simp only [runHooks, OpcodeGas.hook]
    by_cases hk : known i.op = true
    · have hc' := hc i.op hk
      have hg' := hg i.op hk
      simp only [if_true] at hc' hg'
      simp only [hk, if_true]
      rw [addEntry_ok _ _ _ (by omega)]
      simp only
      rw [addEntry_ok _ _ _ (by omega)]
      simp only
      obtain ⟨s', h1, h2, h3, h4⟩ := ih
        { counts := AMap.insert s.counts i.op ((AMap.get? s.counts i.op).getD 0 + 1)
          gas := AMap.insert s.gas i.op
            ((AMap.get? s.gas i.op).getD 0 + (i.gas.remaining - i'.gas.remaining))
          last := none } rfl
        (by
          intro op hko
          simp only [AMap.get?_insert]
          have := hc op hko
          by_cases h : op = i.op
          · subst h; simp at this ⊢; omega
          · rw [if_neg (fun e => h e.symm)] at this; simp only [if_neg h]; omega)
        (by
          intro op hko
          simp only [AMap.get?_insert]
          have := hg op hko
          by_cases h : op = i.op
          · subst h; simp at this ⊢; omega
          · rw [if_neg (fun e => h e.symm)] at this; simp only [if_neg h]; omega)
        (AMap.nodup_insert _ _ hn)
      refine ⟨s', h1, h2, h3, ?_⟩
      intro op
      obtain ⟨e1, e2⟩ := h4 op
      simp only [AMap.get?_insert] at e1 e2
      rw [e1, e2]
      simp only [countOf_cons, gasOf_cons]
      by_cases h : op = i.op
      · subst h
        simp only [if_true, hk, true_and]
        have hz : countOf i.op ps = 0 → gasOf i.op ps = 0 := by
          intro h0
          unfold countOf at h0
          unfold gasOf
          rw [List.length_eq_zero_iff] at h0
          rw [h0]; rfl
        by_cases h0 : countOf i.op ps = 0
        · have := hz h0
          simp [h0, this]
        · simp only [ne_eq, h0, not_false_eq_true, if_true, Option.getD_some]
          rw [if_pos (by omega), if_pos (by omega)]
          exact ⟨by congr 1; omega, by congr 1; omega⟩
      · simp only [if_neg h, if_neg (fun e => h e.symm : ¬ i.op = op), Nat.zero_add]
        exact ⟨trivial, trivial⟩
    · simp only [if_neg hk, hl]
      obtain ⟨s', h1, h2, h3, h4⟩ := ih s hl
        (by intro op hko; have := hc op hko; omega) (by intro op hko; have := hg op hko; omega) hn
      refine ⟨s', h1, h2, h3, ?_⟩
      intro op
      obtain ⟨e1, e2⟩ := h4 op
      rw [e1, e2]
      simp only [countOf_cons, gasOf_cons]
      by_cases h : op = i.op
      · subst h; simp [hk]
      · simp only [if_neg (fun e => h e.symm : ¬ i.op = op), Nat.zero_add]
        exact ⟨trivial, trivial⟩
  | log _ _ _ ih => exact ih s hl hc hg hn
  | call _ _ _ ih => exact ih s hl hc hg hn
  | callEnd _ _ _ _ ih => exact ih s hl hc hg hn
  | create _ _ _ ih => exact ih s hl hc hg hn
  | createEnd _ _ _ _ _ ih => exact ih s hl hc hg hn
  | selfdestruct _ _ _ _ ih => exact ih s hl hc hg hn

/-- C35. Missing from the full statement: histories whose totals do not fit in 64 bits
(`C35_refuted` shows that the inspector then overflows). -/
theorem C35_opcode_gas_partial (known : OpCode → Bool) (es : List Event)
    (ps : List (Interp × Interp)) (hp : Paired es ps)
    (hc : ∀ op, known op = true → countOf op ps < 2 ^ 64)
    (hg : ∀ op, known op = true → gasOf op ps < 2 ^ 64) :
    ∃ s, runHooks (OpcodeGas.hook known) {} es = .ok s ∧
      (∀ op, AMap.get? s.counts op
        = if known op = true ∧ countOf op ps ≠ 0 then some (countOf op ps) else none) ∧
      (∀ op, AMap.get? s.gas op
        = if known op = true ∧ countOf op ps ≠ 0 then some (gasOf op ps) else none) ∧
      (s.opcodeIter.map Prod.fst).Nodup ∧
      ∀ op n g, (op, (n, g)) ∈ s.opcodeIter ↔
        known op = true ∧ countOf op ps ≠ 0 ∧ n = countOf op ps ∧ g = gasOf op ps := by
  obtain ⟨s, h1, _, h3, h4⟩ := opcodeGas_run known hp {} rfl
    (by simpa [AMap.get?] using hc) (by simpa [AMap.get?] using hg) (by simp [AMap.Nodup])
  simp only [AMap.get?, Option.getD_none, Nat.zero_add] at h4
  refine ⟨s, h1, fun op => (h4 op).1, fun op => (h4 op).2, ?_, ?_⟩
  · unfold OpcodeGas.opcodeIter
    rw [List.map_map]
    exact h3
  · intro op n g
    unfold OpcodeGas.opcodeIter
    simp only [List.mem_map, Prod.mk.injEq, Prod.exists]
    constructor
    · rintro ⟨op', n', hm, rfl, rfl, rfl⟩
      have hm := (AMap.get?_eq_some_iff h3).2 hm
      obtain ⟨e1, e2⟩ := h4 op'
      rw [e1] at hm
      rw [e2]
      split at hm
      · rename_i hh
        simp only [Option.some.injEq] at hm
        rw [if_pos hh]
        exact ⟨hh.1, hh.2, hm.symm, rfl⟩
      · simp at hm
    · rintro ⟨hk, h0, rfl, rfl⟩
      obtain ⟨e1, e2⟩ := h4 op
      refine ⟨op, _, (AMap.get?_eq_some_iff h3).1 (e1.trans (if_pos ⟨hk, h0⟩)), rfl, rfl, ?_⟩
      rw [e2, if_pos ⟨hk, h0⟩]; rfl

theorem paired_append {es es' : List Event} {ps ps' : List (Interp × Interp)} (h : Paired es ps)
    (h' : Paired es' ps') : Paired (es ++ es') (ps ++ ps') := by
  induction h with
  | nil => exact h'
  | instr i i' c c' _ ih => exact .instr i i' c c' ih
  | log c l _ ih => exact .log c l ih
  | call c inp _ ih => exact .call c inp ih
  | callEnd c inp r _ ih => exact .callEnd c inp r ih
  | create c inp _ ih => exact .create c inp ih
  | createEnd c inp r a _ ih => exact .createEnd c inp r a ih
  | selfdestruct a t v _ ih => exact .selfdestruct a t v ih

theorem paired_enter (h : Header) (d : Nat) {es : List Event} {ps : List (Interp × Interp)}
    (hp : Paired es ps) : Paired (h.enter d :: es) ps := by
  cases h with
  | call c inp => exact .call _ _ hp
  | create c inp => exact .create _ _ hp

theorem paired_leave (h : Header) (d : Nat) (o : Outcome) {es : List Event}
    {ps : List (Interp × Interp)} (hp : Paired es ps) : Paired (h.leave d o :: es) ps := by
  cases h with
  | call c inp => exact .callEnd _ _ _ hp
  | create c inp => exact .createEnd _ _ _ _ hp

theorem paired_body (b : Body) (d : Nat) (h : NoAborts b) : Paired (b.events d) (executed b) := by
  induction b generalizing d with
  | nil => exact .nil
  | act a rest ih =>
    cases a with
    | step i c i' c' => exact .instr _ _ _ _ (ih d h)
    | aborted i c => exact absurd h (by simp [NoAborts])
    | log c l => exact .log _ _ (ih d h)
    | selfdestruct a t v => exact .selfdestruct _ _ _ (ih d h)
  | sub hd b o rest ih1 ih2 =>
    simp only [Body.events, executed]
    exact paired_enter _ _ (paired_append (ih1 (d + 1) h.1) (paired_leave _ _ _ (ih2 d h.2)))

/-- C35, on executions: the history of every execution without aborted instructions pairs the
instructions of the execution. -/
theorem C35_executions (t : Tx) (h : NoAborts t.body) : Paired t.events (executed t.body) := by
  unfold Tx.events
  have := paired_append (paired_body t.body 1 h) (paired_leave t.hdr 0 t.out .nil)
  rw [List.append_nil] at this
  exact paired_enter _ _ this

/-! ### C36 -/

theorem opcount_run (es : List Event) (n : Nat) (h : n + starts es < 2 ^ 64) :
    runHooks opcountHook n es = .ok (n + starts es) := by
  induction es generalizing n with
  | nil => rfl
  | cons e es ih =>
    cases e with
    | step i c =>
      simp only [starts] at h
      simp only [runHooks, opcountHook, addU64, starts]
      rw [if_pos (by omega)]
      simp only
      rw [ih (n + 1) (by omega)]
      congr 1; omega
    | _ => exact ih n h

/-- C36: the counter is the number of instructions started, as long as it fits in 64 bits. -/
theorem C36_opcount (es : List Event) (h : starts es < 2 ^ 64) :
    runHooks opcountHook 0 es = .ok (starts es) := by
  have := opcount_run es 0 (by omega)
  simpa using this

/-! ### C37 -/

theorem callsWith_call (sel : Bytes) (size : Nat) (c : Ctx) (inp : CallInputs) (es : List Event) :
    callsWith sel size (.call c inp :: es)
      = (if inp.input.length = 4 + size ∧ inp.input.take 4 = sel then 1 else 0)
        + callsWith sel size es := rfl

theorem fourByte_run (es : List Event) (s : FourByte) (hn : AMap.Nodup s)
    (hlen : ∀ (k : Bytes × Nat) (n : Nat), (k, n) ∈ s → k.1.length = 4)
    (h : ∀ sel size, (AMap.get? s (sel, size)).getD 0 + callsWith sel size es < 2 ^ 64) :
    ∃ s', runHooks fourByteHook s es = .ok s' ∧ AMap.Nodup s' ∧
      (∀ (k : Bytes × Nat) (n : Nat), (k, n) ∈ s' → k.1.length = 4) ∧
      ∀ sel size, AMap.get? s' (sel, size) = if callsWith sel size es = 0
        then AMap.get? s (sel, size)
        else some ((AMap.get? s (sel, size)).getD 0 + callsWith sel size es) := by
  induction es generalizing s with
  | nil => exact ⟨s, rfl, hn, hlen, by simp [callsWith]⟩
  | cons e es ih =>
    cases e with
    | call c inp =>
      simp only [runHooks, fourByteHook]
      simp only [callsWith] at h
      by_cases hl : 4 ≤ inp.input.length
      · simp only [hl, if_true]
        have hd : (inp.input.drop 4).length = inp.input.length - 4 := by simp
        have hh := h (inp.input.take 4) (inp.input.drop 4).length
        rw [if_pos ⟨by rw [hd]; omega, rfl⟩] at hh
        rw [addEntry_ok _ _ _ (by omega)]
        simp only
        have key : ∀ sel size, ((sel, size) = (inp.input.take 4, (inp.input.drop 4).length)) ↔
            (inp.input.length = 4 + size ∧ inp.input.take 4 = sel) := by
          intro sel size
          rw [hd]
          simp only [Prod.mk.injEq]
          constructor
          · rintro ⟨rfl, rfl⟩; exact ⟨by omega, rfl⟩
          · rintro ⟨h1, rfl⟩; exact ⟨rfl, by omega⟩
        obtain ⟨s', h1, h2, h3, h4⟩ := ih
          (AMap.insert s (inp.input.take 4, (inp.input.drop 4).length)
            ((AMap.get? s (inp.input.take 4, (inp.input.drop 4).length)).getD 0 + 1))
          (AMap.nodup_insert _ _ hn)
          (by
            intro k n hm
            have hm2 := (AMap.get?_eq_some_iff (AMap.nodup_insert _ _ hn)).2 hm
            rw [AMap.get?_insert] at hm2
            split at hm2
            · rename_i hk; subst hk; simp; omega
            · exact hlen k n ((AMap.get?_eq_some_iff hn).1 hm2))
          (by
            intro sel size
            rw [AMap.get?_insert]
            have h5 := h sel size
            by_cases hk : (sel, size) = (inp.input.take 4, (inp.input.drop 4).length)
            · rw [if_pos ((key sel size).1 hk)] at h5
              rw [if_pos hk, ← hk, Option.getD_some]
              omega
            · rw [if_neg (fun e => hk ((key sel size).2 e))] at h5
              rw [if_neg hk]
              omega)
        refine ⟨s', h1, h2, h3, ?_⟩
        intro sel size
        rw [h4, AMap.get?_insert, callsWith_call]
        by_cases hk : (sel, size) = (inp.input.take 4, (inp.input.drop 4).length)
        · rw [if_pos ((key sel size).1 hk), if_pos hk, ← hk]
          rw [if_neg (by omega : ¬ 1 + callsWith sel size es = 0)]
          split
          · rename_i h0; rw [h0]
          · simp only [Option.getD_some]; congr 1; omega
        · rw [if_neg (fun e => hk ((key sel size).2 e)), if_neg hk, Nat.zero_add]
      · simp only [hl, if_false]
        have hz : ∀ sel size, ¬ (inp.input.length = 4 + size ∧ inp.input.take 4 = sel) := by
          rintro sel size ⟨h1, _⟩; omega
        obtain ⟨s', h1, h2, h3, h4⟩ := ih s hn hlen
          (by intro sel size; have := h sel size; rw [if_neg (hz sel size)] at this; omega)
        refine ⟨s', h1, h2, h3, ?_⟩
        intro sel size
        rw [h4, callsWith_call, if_neg (hz sel size), Nat.zero_add]
    | _ => exact ih s hn hlen h

/-- C37: for every selector and size, the count is the number of calls having them (as long as it
fits in 64 bits), and there is no entry without a call. -/
theorem C37_counts (es : List Event) (h : ∀ sel size, callsWith sel size es < 2 ^ 64) :
    ∃ s, runHooks fourByteHook [] es = .ok s ∧ AMap.Nodup s ∧
      ∀ sel size, AMap.get? s (sel, size)
        = if callsWith sel size es = 0 then none else some (callsWith sel size es) := by
  obtain ⟨s, h1, h2, _, h4⟩ := fourByte_run es [] (by simp [AMap.Nodup]) (by simp)
    (by simpa [AMap.get?] using h)
  refine ⟨s, h1, h2, ?_⟩
  simpa [AMap.get?] using h4

theorem digitChar_inj : ∀ a b : Nat, a < 16 → b < 16 → Nat.digitChar a = Nat.digitChar b → a = b := by
  have : ∀ a : Fin 16, ∀ b : Fin 16, Nat.digitChar a.val = Nat.digitChar b.val → a.val = b.val := by
    decide
  intro a b ha hb h
  exact this ⟨a, ha⟩ ⟨b, hb⟩ h

theorem hexChars_length (b : Bytes) : (hexChars b).length = 2 * b.length := by
  unfold hexChars
  induction b with
  | nil => rfl
  | cons x b ih => simp only [List.flatMap_cons, List.length_append, ih]; simp; omega

theorem hexChars_inj (b b' : Bytes) (h : hexChars b = hexChars b') : b = b' := by
  unfold hexChars at h
  induction b generalizing b' with
  | nil =>
    cases b' with
    | nil => rfl
    | cons x b' => simp at h
  | cons x b ih =>
    cases b' with
    | nil => simp at h
    | cons y b' =>
      simp only [List.flatMap_cons, List.cons_append, List.nil_append, List.cons.injEq] at h
      obtain ⟨h1, h2, h3⟩ := h
      have hx := x.toNat_lt
      have hy := y.toNat_lt
      have e1 := digitChar_inj _ _ (by omega) (by omega) h1
      have e2 := digitChar_inj _ _ (by omega) (by omega) h2
      have : x.toNat = y.toNat := by omega
      rw [UInt8.toNat_inj.1 this, ih b' h3]

/-- C37: different pairs have different keys. -/
theorem C37_keys (k k' : Bytes × Nat) (hl : k.1.length = 4) (hl' : k'.1.length = 4)
    (h : fourByteKey k = fourByteKey k') : k = k' := by
  obtain ⟨sel, size⟩ := k
  obtain ⟨sel', size'⟩ := k'
  unfold fourByteKey at h
  simp only [List.cons.injEq, true_and] at h
  simp only at hl hl'
  have := List.append_inj h (by rw [hexChars_length, hexChars_length, hl, hl'])
  obtain ⟨h1, h2⟩ := this
  simp only [List.cons.injEq, true_and] at h2
  have e := congrArg (fun l => Nat.ofDigitChars 10 l 0) h2
  simp only [Nat.ofDigitChars_toDigits (by omega : 1 < 10) (Nat.le_refl 10)] at e
  rw [hexChars_inj _ _ h1, e]

theorem collect_aux {κ ν : Type} [DecidableEq κ] (l : List (κ × ν)) (m : AMap κ ν)
    (hl : (l.map Prod.fst).Nodup) (k : κ) :
    AMap.get? (l.foldl (fun m e => AMap.insert m e.1 e.2) m) k
      = (AMap.get? l k).or (AMap.get? m k) := by
  induction l generalizing m with
  | nil => rfl
  | cons e l ih =>
    obtain ⟨k1, v1⟩ := e
    simp only [List.map_cons, List.nodup_cons] at hl
    simp only [List.foldl_cons]
    rw [ih _ hl.2, AMap.get?_insert]
    simp only [AMap.get?]
    by_cases h : k = k1
    · subst h
      rw [AMap.get?_eq_none_iff.2 hl.1]
      simp
    · simp [h]

theorem nodup_map_of_inj {α β : Type} {l : List α} (f : α → β) (hn : l.Nodup)
    (hf : ∀ a ∈ l, ∀ b ∈ l, f a = f b → a = b) : (l.map f).Nodup := by
  induction l with
  | nil => simp
  | cons a l ih =>
    simp only [List.nodup_cons] at hn
    simp only [List.map_cons, List.nodup_cons, List.mem_map, not_exists, not_and]
    refine ⟨?_, ih hn.2 (fun a ha b hb => hf a (by simp [ha]) b (by simp [hb]))⟩
    intro b hb he
    have := hf b (by simp [hb]) a (by simp) he
    subst this
    exact hn.1 hb

/-- C37: whatever the iteration order, the frame has exactly the counted pairs under their keys. -/
theorem C37_frame (es : List Event) (s : FourByte) (hs : runHooks fourByteHook [] es = .ok s)
    (h : ∀ sel size, callsWith sel size es < 2 ^ 64)
    (entries : List ((Bytes × Nat) × Nat)) (hperm : entries.Perm s) (key : List Char) (n : Nat) :
    AMap.get? (fourByteFrame entries) key = some n ↔
      ∃ sel size, key = fourByteKey (sel, size) ∧ callsWith sel size es = n ∧ n ≠ 0 := by
  obtain ⟨s', h1, h2, h3, h4⟩ := fourByte_run es [] (by simp [AMap.Nodup]) (by simp)
    (by simpa [AMap.get?] using h)
  rw [hs] at h1
  simp only [Except.ok.injEq] at h1
  subst h1
  have hnd : (entries.map Prod.fst).Nodup := (hperm.map Prod.fst).nodup_iff.2 h2
  have hlen : ∀ e ∈ entries, e.1.1.length = 4 := fun e he => h3 e.1 e.2 (hperm.mem_iff.1 he)
  have hnk : ((entries.map (fun e => (fourByteKey e.1, e.2))).map Prod.fst).Nodup := by
    rw [List.map_map]
    have : (Prod.fst ∘ fun e : (Bytes × Nat) × Nat => (fourByteKey e.1, e.2))
        = fourByteKey ∘ Prod.fst := rfl
    rw [this, ← List.map_map]
    apply nodup_map_of_inj _ hnd
    intro a ha b hb hab
    simp only [List.mem_map] at ha hb
    obtain ⟨ea, hea, rfl⟩ := ha
    obtain ⟨eb, heb, rfl⟩ := hb
    exact C37_keys _ _ (hlen ea hea) (hlen eb heb) hab
  unfold fourByteFrame AMap.collect
  rw [collect_aux _ _ hnk]
  simp only [AMap.get?, Option.or_none]
  rw [AMap.get?_eq_some_iff hnk]
  simp only [List.mem_map, Prod.mk.injEq]
  constructor
  · rintro ⟨e, he, hk, rfl⟩
    have hm := hperm.mem_iff.1 he
    obtain ⟨⟨sel, size⟩, n⟩ := e
    have hg := (AMap.get?_eq_some_iff h2).2 hm
    rw [h4] at hg
    refine ⟨sel, size, hk.symm, ?_⟩
    split at hg
    · simp [AMap.get?] at hg
    · rename_i hne
      simp only [AMap.get?, Option.getD_none, Nat.zero_add, Option.some.injEq] at hg
      exact ⟨hg, by rw [← hg]; exact hne⟩
  · rintro ⟨sel, size, rfl, rfl, hne⟩
    have hg := h4 sel size
    rw [if_neg hne] at hg
    simp only [AMap.get?, Option.getD_none, Nat.zero_add] at hg
    exact ⟨((sel, size), _), hperm.mem_iff.2 ((AMap.get?_eq_some_iff h2).1 hg), rfl, rfl⟩

/-- The format of the keys. -/
theorem C37_key_example :
    fourByteKey ([0x27, 0xdc, 0x29, 0x7e], 128) = "0x27dc297e-128".toList := by decide

/-! ### C38 -/

/-- The address has an entry. -/
def HasAddr (l : AMap Address Slots) (a : Address) : Prop := AMap.get? l a ≠ none
/-- The slot is in the entry of the address. -/
def HasSlot (l : AMap Address Slots) (a : Address) (k : U256) : Prop :=
  ∃ m, AMap.get? l a = some m ∧ OMap.get? m k = some ()
/-- What is true of every list the inspector holds. -/
def ListOk (l : AMap Address Slots) : Prop :=
  AMap.Nodup l ∧ ∀ a m, AMap.get? l a = some m → OMap.Sorted m

theorem sorted_entry {l : AMap Address Slots} (h : ListOk l) (a : Address) :
    OMap.Sorted ((AMap.get? l a).getD []) := by
  cases hg : AMap.get? l a with
  | none => exact OMap.sorted_nil
  | some m => exact h.2 a m hg

theorem touch_spec (s : AccessList) (h : ListOk s.list) (w : Option U256) :
    (s.touch w).excluded = s.excluded ∧ ListOk (s.touch w).list ∧
    (∀ a, HasAddr (s.touch w).list a ↔
      HasAddr s.list a ∨ (∃ v, w = some v ∧ v.toNat % 2 ^ 160 = a.toNat ∧ a ∉ s.excluded)) ∧
    (∀ a k, HasSlot (s.touch w).list a k ↔ HasSlot s.list a k) := by
  cases w with
  | none => simp [AccessList.touch, h]
  | some w =>
    have hw : (AccessList.addressOfWord w).toNat = w.toNat % 2 ^ 160 := by
      simp [AccessList.addressOfWord, BitVec.toNat_setWidth]
    unfold AccessList.touch
    simp only
    generalize AccessList.addressOfWord w = x at hw
    by_cases hx : s.excluded.contains x = true
    · simp only [hx, if_true]
      refine ⟨trivial, h, ?_, fun _ _ => trivial⟩
      intro a
      constructor
      · exact Or.inl
      · rintro (h1 | ⟨v, hv, h1, h2⟩)
        · exact h1
        · simp only [Option.some.injEq] at hv
          subst hv
          have : x = a := BitVec.eq_of_toNat_eq (hw.trans h1)
          subst this
          simp only [List.contains_iff_mem] at hx
          exact absurd hx h2
    · simp only [hx]
      refine ⟨rfl, ⟨AMap.nodup_insert _ _ h.1, ?_⟩, ?_, ?_⟩
      · intro a m hm
        simp only [Bool.false_eq_true, if_false, AMap.get?_insert] at hm
        split at hm
        · simp only [Option.some.injEq] at hm
          subst hm
          exact sorted_entry h x
        · exact h.2 a m hm
      · intro a
        unfold HasAddr
        simp only [Bool.false_eq_true, if_false, AMap.get?_insert]
        by_cases ha : a = x
        · subst ha
          simp only [if_true, ne_eq, reduceCtorEq, not_false_eq_true, true_iff]
          right
          refine ⟨w, rfl, hw.symm, ?_⟩
          intro hm
          exact hx (List.contains_iff_mem.2 hm)
        · simp only [if_neg ha]
          constructor
          · exact Or.inl
          · rintro (h1 | ⟨v, hv, h1, _⟩)
            · exact h1
            · simp only [Option.some.injEq] at hv
              subst hv
              exact absurd (BitVec.eq_of_toNat_eq (h1.symm.trans hw.symm)) ha
      · intro a k
        unfold HasSlot
        simp only [Bool.false_eq_true, if_false, AMap.get?_insert]
        by_cases ha : a = x
        · subst ha
          simp only [if_true, Option.some.injEq]
          cases hg : AMap.get? s.list a with
          | none => simp [OMap.get?]
          | some m => simp
        · simp only [if_neg ha]

theorem slotTouched_cons (e : Event) (es : List Event) (a : Address) (k : U256) :
    SlotTouched (e :: es) a k ↔ SlotTouched [e] a k ∨ SlotTouched es a k := by
  unfold SlotTouched
  constructor
  · rintro ⟨i, c, hm, h⟩
    simp only [List.mem_cons] at hm
    rcases hm with rfl | hm
    · exact Or.inl ⟨i, c, by simp, h⟩
    · exact Or.inr ⟨i, c, hm, h⟩
  · rintro (⟨i, c, hm, h⟩ | ⟨i, c, hm, h⟩)
    · exact ⟨i, c, by simp at hm; simp [hm], h⟩
    · exact ⟨i, c, by simp [hm], h⟩

theorem addressNamed_cons (e : Event) (es : List Event) (a : Address) :
    AddressNamed (e :: es) a ↔ AddressNamed [e] a ∨ AddressNamed es a := by
  unfold AddressNamed
  constructor
  · rintro ⟨i, c, w, hm, h⟩
    simp only [List.mem_cons] at hm
    rcases hm with rfl | hm
    · exact Or.inl ⟨i, c, w, by simp, h⟩
    · exact Or.inr ⟨i, c, w, hm, h⟩
  · rintro (⟨i, c, w, hm, h⟩ | ⟨i, c, w, hm, h⟩)
    · exact ⟨i, c, w, by simp at hm; simp [hm], h⟩
    · exact ⟨i, c, w, by simp [hm], h⟩

theorem slotTouched_step (i : Interp) (c : Ctx) (a : Address) (k : U256) :
    SlotTouched [.step i c] a k ↔ (i.op = 0x54 ∨ i.op = 0x55) ∧ i.contract = a ∧
      i.stack.getLast? = some k := by
  unfold SlotTouched
  constructor
  · rintro ⟨i', c', hm, h⟩
    simp only [List.mem_singleton, Event.step.injEq] at hm
    obtain ⟨rfl, rfl⟩ := hm
    exact h
  · intro h
    exact ⟨i, c, by simp, h⟩

theorem addressNamed_step (i : Interp) (c : Ctx) (a : Address) :
    AddressNamed [.step i c] a ↔ ∃ w : U256, w.toNat % 2 ^ 160 = a.toNat ∧
      ((i.op ∈ ([0x31, 0x3b, 0x3c, 0x3f, 0xff] : List OpCode) ∧ i.stack.reverse[0]? = some w) ∨
       (i.op ∈ ([0xf1, 0xf2, 0xf4, 0xfa] : List OpCode) ∧ i.stack.reverse[1]? = some w)) := by
  unfold AddressNamed
  constructor
  · rintro ⟨i', c', w, hm, h⟩
    simp only [List.mem_singleton, Event.step.injEq] at hm
    obtain ⟨rfl, rfl⟩ := hm
    exact ⟨w, h⟩
  · rintro ⟨w, h⟩
    exact ⟨i, c, w, by simp, h⟩

theorem peek_zero (i : Interp) : i.peek 0 = i.stack.getLast? := by
  unfold Interp.peek
  rw [← List.head?_eq_getElem?, List.head?_reverse]

theorem accessList_hook (s : AccessList) (h : ListOk s.list) (e : Event) :
    ∃ s', AccessList.hook s e = .ok s' ∧ s'.excluded = s.excluded ∧ ListOk s'.list ∧
      (∀ a, HasAddr s'.list a ↔ HasAddr s.list a ∨ (∃ k, SlotTouched [e] a k) ∨
        (AddressNamed [e] a ∧ a ∉ s.excluded)) ∧
      (∀ a k, HasSlot s'.list a k ↔ HasSlot s.list a k ∨ SlotTouched [e] a k) := by
  cases e with
  | step i c =>
    simp only [slotTouched_step, addressNamed_step, AccessList.hook]
    by_cases h1 : i.op = Op.SLOAD ∨ i.op = Op.SSTORE
    · have h1' : i.op = 0x54 ∨ i.op = 0x55 := h1
      have hA : i.op ∉ ([0x31, 0x3b, 0x3c, 0x3f, 0xff] : List OpCode) := by
        rcases h1' with h | h <;> rw [h] <;> decide
      have hB : i.op ∉ ([0xf1, 0xf2, 0xf4, 0xfa] : List OpCode) := by
        rcases h1' with h | h <;> rw [h] <;> decide
      simp only [h1, h1', if_true, true_and, hA, hB, false_and, or_false, and_false, exists_false]
      rw [peek_zero]
      cases hp : i.stack.getLast? with
      | none => exact ⟨s, rfl, rfl, h, by simp, by simp⟩
      | some slot =>
        have hs := sorted_entry h i.contract
        refine ⟨_, rfl, rfl, ⟨AMap.nodup_insert _ _ h.1, ?_⟩, ?_, ?_⟩
        · intro a m hm
          simp only [AMap.get?_insert] at hm
          split at hm
          · simp only [Option.some.injEq] at hm
            subst hm
            exact OMap.sorted_insert _ _ hs
          · exact h.2 a m hm
        · intro a
          unfold HasAddr
          simp only [AMap.get?_insert]
          by_cases ha : a = i.contract
          · subst ha
            simp
          · simp [ha, Ne.symm ha]
        · intro a k
          unfold HasSlot
          simp only [AMap.get?_insert]
          by_cases ha : a = i.contract
          · subst ha
            simp only [if_true, Option.some.injEq, exists_eq_left', true_and]
            rw [OMap.get?_insert_eq _ _ _ _ hs]
            by_cases hk : k = slot
            · simp [hk]
            · rw [if_neg hk]
              cases hg : AMap.get? s.list i.contract with
              | none => simp [OMap.get?, Ne.symm hk]
              | some m => simp [Ne.symm hk]
          · simp [ha, Ne.symm ha]
    · have h1' : ¬ (i.op = 0x54 ∨ i.op = 0x55) := h1
      simp only [h1, h1', if_false, false_and, exists_false, false_or, or_false]
      by_cases h2 : i.op = Op.EXTCODECOPY ∨ i.op = Op.EXTCODEHASH ∨ i.op = Op.EXTCODESIZE ∨
          i.op = Op.BALANCE ∨ i.op = Op.SELFDESTRUCT
      · have hA : i.op ∈ ([0x31, 0x3b, 0x3c, 0x3f, 0xff] : List OpCode) := by
          rcases h2 with h | h | h | h | h <;> rw [h] <;> decide
        have hB : i.op ∉ ([0xf1, 0xf2, 0xf4, 0xfa] : List OpCode) := by
          rcases h2 with h | h | h | h | h <;> rw [h] <;> decide
        obtain ⟨t1, t2, t3, t4⟩ := touch_spec s h (i.peek 0)
        simp only [h2, if_true]
        refine ⟨_, rfl, t1, t2, ?_, t4⟩
        intro a
        rw [t3]
        simp only [hA, hB, true_and, false_and, or_false, Interp.peek]
        constructor
        · rintro (h | ⟨v, h3, h4, h5⟩)
          · exact Or.inl h
          · exact Or.inr ⟨⟨v, h4, h3⟩, h5⟩
        · rintro (h | ⟨⟨v, h4, h3⟩, h5⟩)
          · exact Or.inl h
          · exact Or.inr ⟨v, h3, h4, h5⟩
      · have hA : i.op ∉ ([0x31, 0x3b, 0x3c, 0x3f, 0xff] : List OpCode) := by
          intro hm
          apply h2
          simp only [List.mem_cons, List.not_mem_nil, or_false] at hm
          rcases hm with h | h | h | h | h <;> rw [h] <;> decide
        simp only [h2, if_false]
        by_cases h3 : i.op = Op.DELEGATECALL ∨ i.op = Op.CALL ∨ i.op = Op.STATICCALL ∨
            i.op = Op.CALLCODE
        · have hB : i.op ∈ ([0xf1, 0xf2, 0xf4, 0xfa] : List OpCode) := by
            rcases h3 with h | h | h | h <;> rw [h] <;> decide
          obtain ⟨t1, t2, t3, t4⟩ := touch_spec s h (i.peek 1)
          simp only [h3, if_true]
          refine ⟨_, rfl, t1, t2, ?_, t4⟩
          intro a
          rw [t3]
          simp only [hA, hB, true_and, false_and, false_or, Interp.peek]
          constructor
          · rintro (h | ⟨v, h3, h4, h5⟩)
            · exact Or.inl h
            · exact Or.inr ⟨⟨v, h4, h3⟩, h5⟩
          · rintro (h | ⟨⟨v, h4, h3⟩, h5⟩)
            · exact Or.inl h
            · exact Or.inr ⟨v, h3, h4, h5⟩
        · have hB : i.op ∉ ([0xf1, 0xf2, 0xf4, 0xfa] : List OpCode) := by
            intro hm
            apply h3
            simp only [List.mem_cons, List.not_mem_nil, or_false] at hm
            rcases hm with h | h | h | h <;> rw [h] <;> decide
          simp only [h3, if_false]
          exact ⟨s, rfl, rfl, h, by simp [hA, hB], by simp⟩
  | _ =>
    refine ⟨s, rfl, rfl, h, ?_, ?_⟩ <;> simp [SlotTouched, AddressNamed]

theorem accessList_run (es : List Event) (s : AccessList) (h : ListOk s.list) :
    ∃ s', runHooks AccessList.hook s es = .ok s' ∧ ListOk s'.list ∧
      (∀ a, HasAddr s'.list a ↔ HasAddr s.list a ∨ (∃ k, SlotTouched es a k) ∨
        (AddressNamed es a ∧ a ∉ s.excluded)) ∧
      (∀ a k, HasSlot s'.list a k ↔ HasSlot s.list a k ∨ SlotTouched es a k) := by
  induction es generalizing s with
  | nil => exact ⟨s, rfl, h, by simp [SlotTouched, AddressNamed], by simp [SlotTouched]⟩
  | cons e es ih =>
    obtain ⟨s1, h1, h2, h3, h4, h5⟩ := accessList_hook s h e
    obtain ⟨s2, g1, g2, g3, g4⟩ := ih s1 h3
    refine ⟨s2, by simp only [runHooks, h1]; exact g1, g2, ?_, ?_⟩
    · intro a
      rw [g3, h4, h2, addressNamed_cons e es]
      simp only [slotTouched_cons e es, exists_or]
      constructor
      · rintro ((h | h | ⟨h, h'⟩) | h | ⟨h, h'⟩)
        · exact Or.inl h
        · exact Or.inr (Or.inl (Or.inl h))
        · exact Or.inr (Or.inr ⟨Or.inl h, h'⟩)
        · exact Or.inr (Or.inl (Or.inr h))
        · exact Or.inr (Or.inr ⟨Or.inr h, h'⟩)
      · rintro (h | (h | h) | ⟨h | h, h'⟩)
        · exact Or.inl (Or.inl h)
        · exact Or.inl (Or.inr (Or.inl h))
        · exact Or.inr (Or.inl h)
        · exact Or.inl (Or.inr (Or.inr ⟨h, h'⟩))
        · exact Or.inr (Or.inr ⟨h, h'⟩)
    · intro a k
      rw [g4, h5, slotTouched_cons e es, or_assoc]

theorem slots_ofList (l : List U256) (m : Slots) (hm : OMap.Sorted m) :
    OMap.Sorted (l.foldl (fun s k => OMap.insert s k ()) m) ∧
    ∀ k, OMap.get? (l.foldl (fun s k => OMap.insert s k ()) m) k = some () ↔
      k ∈ l ∨ OMap.get? m k = some () := by
  induction l generalizing m with
  | nil => simp [hm]
  | cons x l ih =>
    obtain ⟨h1, h2⟩ := ih (OMap.insert m x ()) (OMap.sorted_insert _ _ hm)
    refine ⟨h1, ?_⟩
    intro k
    simp only [List.foldl_cons]
    rw [h2, OMap.get?_insert_eq _ _ _ _ hm]
    by_cases hk : k = x
    · simp [hk]
    · simp [hk]

theorem nodup_collect_aux {κ ν : Type} [DecidableEq κ] (l : List (κ × ν)) (m : AMap κ ν)
    (hm : AMap.Nodup m) : AMap.Nodup (l.foldl (fun m e => AMap.insert m e.1 e.2) m) := by
  induction l generalizing m with
  | nil => exact hm
  | cons e l ih => exact ih _ (AMap.nodup_insert _ _ hm)

/-- What the collected list has, for a provided list without repeated addresses. -/
theorem new_spec (provided : List (Address × List U256)) (frm to : Address)
    (pre : List Address) (hd : (provided.map Prod.fst).Nodup) :
    let s := AccessList.new provided frm to pre
    ListOk s.list ∧ (∀ a, HasAddr s.list a ↔ a ∈ provided.map Prod.fst) ∧
    (∀ a k, HasSlot s.list a k ↔ ∃ ks, (a, ks) ∈ provided ∧ k ∈ ks) := by
  intro s
  have hkeys : ((provided.map (fun e => (e.1, Slots.ofList e.2))).map Prod.fst).Nodup := by
    rw [List.map_map]; exact hd
  have hget : ∀ a, AMap.get? s.list a
      = AMap.get? (provided.map (fun e => (e.1, Slots.ofList e.2))) a := by
    intro a
    show AMap.get? (AMap.collect _) a = _
    unfold AMap.collect
    rw [collect_aux _ _ hkeys]
    simp [AMap.get?]
  have hmem : ∀ a m, AMap.get? s.list a = some m ↔
      ∃ ks, (a, ks) ∈ provided ∧ Slots.ofList ks = m := by
    intro a m
    rw [hget, AMap.get?_eq_some_iff hkeys]
    simp only [List.mem_map, Prod.mk.injEq, Prod.exists]
    constructor
    · rintro ⟨a', ks, hm, rfl, rfl⟩; exact ⟨ks, hm, rfl⟩
    · rintro ⟨ks, hm, rfl⟩; exact ⟨a, ks, hm, rfl, rfl⟩
  refine ⟨⟨nodup_collect_aux _ _ (by simp [AMap.Nodup]), ?_⟩, ?_, ?_⟩
  · intro a m hm
    obtain ⟨ks, _, rfl⟩ := (hmem a m).1 hm
    exact (slots_ofList ks [] OMap.sorted_nil).1
  · intro a
    unfold HasAddr
    rw [ne_eq, hget, AMap.get?_eq_none_iff, List.map_map]
    simp only [Decidable.not_not]
    exact Iff.rfl
  · intro a k
    unfold HasSlot
    constructor
    · rintro ⟨m, hm, hk⟩
      obtain ⟨ks, h1, rfl⟩ := (hmem a m).1 hm
      refine ⟨ks, h1, ?_⟩
      have := ((slots_ofList ks [] OMap.sorted_nil).2 k).1 hk
      simpa [OMap.get?] using this
    · rintro ⟨ks, h1, h2⟩
      exact ⟨_, (hmem a _).2 ⟨ks, h1, rfl⟩,
        ((slots_ofList ks [] OMap.sorted_nil).2 k).2 (Or.inl h2)⟩

theorem get?_unit_iff {m : Slots} (hs : OMap.Sorted m) (k : U256) :
    OMap.get? m k = some () ↔ k ∈ m.map Prod.fst := by
  constructor
  · intro h
    exact List.mem_map_of_mem (OMap.mem_of_get? h)
  · intro h
    obtain ⟨⟨k', u⟩, hm, rfl⟩ := List.mem_map.1 h
    exact OMap.get?_of_mem hs hm

/-- C38. Missing from the full statement: provided lists that name an address twice
(`C38_refuted` shows that slots are then lost). -/
theorem C38_access_list_partial (provided : List (Address × List U256)) (frm to : Address)
    (precompiles : List Address) (es : List Event) (hd : (provided.map Prod.fst).Nodup) :
    ∃ s, runHooks AccessList.hook (AccessList.new provided frm to precompiles) es = .ok s ∧
      IsAccessList provided ([frm, to] ++ precompiles) es s.result := by
  obtain ⟨n1, n2, n3⟩ := new_spec provided frm to precompiles hd
  obtain ⟨s, h1, h2, h3, h4⟩ := accessList_run es _ n1
  refine ⟨s, h1, ?_, ?_, ?_, ?_⟩
  · unfold AccessList.result
    rw [List.map_map]
    exact h2.1
  · intro a
    have := h3 a
    rw [n2] at this
    have hh : HasAddr s.list a ↔ a ∈ s.result.map Prod.fst := by
      unfold HasAddr AccessList.result
      rw [ne_eq, AMap.get?_eq_none_iff, List.map_map]
      simp only [Decidable.not_not]
      exact Iff.rfl
    rw [← hh]
    exact this
  · intro a ks hm k
    unfold AccessList.result at hm
    simp only [List.mem_map, Prod.mk.injEq, Prod.exists] at hm
    obtain ⟨a', m, hm, rfl, rfl⟩ := hm
    have hg := (AMap.get?_eq_some_iff h2.1).2 hm
    have := h4 a' k
    rw [n3] at this
    rw [← this, ← get?_unit_iff (h2.2 _ _ hg)]
    unfold HasSlot
    constructor
    · intro h; exact ⟨m, hg, h⟩
    · rintro ⟨m', h5, h6⟩
      rw [hg] at h5
      simp only [Option.some.injEq] at h5
      subst h5
      exact h6
  · intro a ks hm
    unfold AccessList.result at hm
    simp only [List.mem_map, Prod.mk.injEq, Prod.exists] at hm
    obtain ⟨a', m, hm, rfl, rfl⟩ := hm
    have hs := h2.2 _ _ ((AMap.get?_eq_some_iff h2.1).2 hm)
    rw [List.pairwise_map]
    exact hs

/-- Two lists of slots in order with the same elements are equal. -/
theorem sorted_slots_ext {l l' : List U256} (h : l.Pairwise (fun x y => x.toNat < y.toNat))
    (h' : l'.Pairwise (fun x y => x.toNat < y.toNat)) (he : ∀ k, k ∈ l ↔ k ∈ l') : l = l' := by
  induction l generalizing l' with
  | nil =>
    cases l' with
    | nil => rfl
    | cons x l' => have := (he x).2 (by simp); simp at this
  | cons x l ih =>
    cases l' with
    | nil => have := (he x).1 (by simp); simp at this
    | cons y l' =>
      rw [List.pairwise_cons] at h h'
      have hxy : x = y := by
        have h1 := (he x).1 (by simp)
        have h2 := (he y).2 (by simp)
        simp only [List.mem_cons] at h1 h2
        rcases h1 with h1 | h1
        · exact h1
        · rcases h2 with h2 | h2
          · exact h2.symm
          · have := h.1 y h2
            have := h'.1 x h1
            omega
      subst hxy
      congr 1
      apply ih h.2 h'.2
      intro k
      have := he k
      simp only [List.mem_cons] at this
      constructor
      · intro hk
        rcases this.1 (Or.inr hk) with rfl | h1
        · have := h.1 k hk; omega
        · exact h1
      · intro hk
        rcases this.2 (Or.inr hk) with rfl | h1
        · have := h'.1 k hk; omega
        · exact h1

/-- C38: the order of execution and the order of the provided list do not matter: the items are the
same. (For provided lists without repeated addresses; each address occurs once, so the items form a
set.) -/
theorem C38_order (provided provided' : List (Address × List U256)) (frm to : Address)
    (precompiles : List Address) (es es' : List Event) (hd : (provided.map Prod.fst).Nodup)
    (hperm : es.Perm es') (hprov : provided.Perm provided') (s s' : AccessList)
    (hs : runHooks AccessList.hook (AccessList.new provided frm to precompiles) es = .ok s)
    (hs' : runHooks AccessList.hook (AccessList.new provided' frm to precompiles) es' = .ok s')
    (item : Address × List U256) : item ∈ s.result → item ∈ s'.result := by
  have hd' : (provided'.map Prod.fst).Nodup := (hprov.map Prod.fst).nodup_iff.1 hd
  obtain ⟨t, h1, h2⟩ := C38_access_list_partial provided frm to precompiles es hd
  obtain ⟨t', h1', h2'⟩ := C38_access_list_partial provided' frm to precompiles es' hd'
  rw [hs] at h1
  rw [hs'] at h1'
  simp only [Except.ok.injEq] at h1 h1'
  subst h1; subst h1'
  have hsl : ∀ a k, SlotTouched es a k ↔ SlotTouched es' a k := by
    intro a k; unfold SlotTouched; simp only [hperm.mem_iff]
  have had : ∀ a, AddressNamed es a ↔ AddressNamed es' a := by
    intro a; unfold AddressNamed; simp only [hperm.mem_iff]
  intro hm
  obtain ⟨a, ks⟩ := item
  have ha : a ∈ s'.result.map Prod.fst := by
    rw [h2'.addresses]
    have := (h2.addresses a).1 (List.mem_map_of_mem hm)
    simp only [hsl, had, (hprov.map Prod.fst).mem_iff] at this
    exact this
  obtain ⟨⟨a', ks'⟩, hm', rfl⟩ := List.mem_map.1 ha
  have : ks = ks' := by
    apply sorted_slots_ext (h2.sorted _ _ hm) (h2'.sorted _ _ hm')
    intro k
    rw [h2.slots _ _ hm, h2'.slots _ _ hm', hsl]
    simp only [hprov.mem_iff]
  rw [this]; exact hm'

/-! ### C39 -/

/-- The transfers a hook adds. -/
def emit (internalOnly : Bool) : Event → List Transfer
  | .call c inp => if internalOnly && c.depth == 0 then [] else callTransfer inp
  | .createEnd c inp _ a => if internalOnly && c.depth == 0 then [] else createTransfer inp a
  | .selfdestruct a t v => [⟨.selfDestruct, a, t, v⟩]
  | _ => []

theorem transferHook_eq (io : Bool) (s : List Transfer) (e : Event) :
    transferHook io s e = .ok (s ++ emit io e) := by
  cases e with
  | call c inp =>
    obtain ⟨input, gl, ba, ta, ca, value, scheme⟩ := inp
    simp only [transferHook, emit, callTransfer, CallInputs.transfersValue, CallInputs.callValue]
    cases hio : (io && c.depth == 0)
    · cases value with
      | transfer v =>
        by_cases h : v = 0
        · simp [h]
        · have h' : ¬ v = 0#256 := h
          simp [h']
      | apparent v => simp
    · simp
  | createEnd c inp r a =>
    simp only [transferHook, emit, createTransfer]
    cases hio : (io && c.depth == 0)
    · cases a with
      | none => simp
      | some a => cases inp.scheme <;> simp
    · simp
  | selfdestruct => rfl
  | _ => simp [transferHook, emit]

theorem transfer_run (io : Bool) (es : List Event) (s : List Transfer) :
    runHooks (transferHook io) s es = .ok (s ++ es.flatMap (emit io)) := by
  induction es generalizing s with
  | nil => simp [runHooks]
  | cons e es ih =>
    simp only [runHooks, transferHook_eq, ih, List.flatMap_cons, List.append_assoc]

theorem emit_body (io : Bool) (b : Body) (d : Nat) :
    (b.events (d + 1)).flatMap (emit io) = transfers b := by
  induction b generalizing d with
  | nil => rfl
  | act a rest ih =>
    cases a with
    | step i c i' c' => simp [Body.events, Act.events, emit, transfers, ih]
    | aborted i c => simp [Body.events, Act.events, emit, transfers, ih]
    | log c l => simp [Body.events, Act.events, emit, transfers, ih]
    | selfdestruct a t v => simp [Body.events, Act.events, emit, transfers, ih]
  | sub h b o rest ih1 ih2 =>
    simp only [Body.events, List.flatMap_cons, List.flatMap_append, ih1, ih2]
    cases h with
    | call c inp => simp [Header.enter, Header.leave, emit, transfers, Ctx.at]
    | create c inp => simp [Header.enter, Header.leave, emit, transfers, Ctx.at]

/-- C39: the transfers of an execution, in order; with `internal_only`, all but that of the root. -/
theorem C39_transfers (t : Tx) :
    runHooks (transferHook false) [] t.events = .ok (txTransfers t) ∧
    runHooks (transferHook true) [] t.events = .ok (transfers t.body) := by
  rw [transfer_run, transfer_run]
  have h : ∀ io, t.events.flatMap (emit io)
      = emit io (t.hdr.enter 0) ++ (transfers t.body ++ emit io (t.hdr.leave 0 t.out)) := by
    intro io
    unfold Tx.events
    simp only [List.flatMap_cons, List.flatMap_append, List.flatMap_nil, List.append_nil, emit_body]
  rw [h, h]
  unfold txTransfers
  cases t.hdr with
  | call c inp => simp [Header.enter, Header.leave, emit, Ctx.at]
  | create c inp => simp [Header.enter, Header.leave, emit, Ctx.at]

/-- **C39**, any history: whatever hooks are called, in whatever order, the list is the transfers that the single
calls tell of. -/
theorem C39_histories (internalOnly : Bool) (es : List Event) :
    runHooks (transferHook internalOnly) [] es = .ok (es.flatMap (hookTransfer internalOnly)) := by
  rw [transfer_run]
  have h : emit internalOnly = hookTransfer internalOnly := by
    funext e
    cases e <;> cases internalOnly <;> simp [emit, hookTransfer]
  rw [h]
  rfl

/-- A history that is no execution: a create ends at depth 0 that never began, and a contract selfdestructs. -/
example (c : Ctx) (inp : CreateInputs) (r : InterpreterResult) : runHooks (transferHook true) []
      [.createEnd (c.at 0) inp r (some 0xc), .selfdestruct 0xb 0xe 4] = .ok [⟨.selfDestruct, 0xb, 0xe, 4⟩] := by
  rw [C39_histories]
  rfl

end Verif.Props
