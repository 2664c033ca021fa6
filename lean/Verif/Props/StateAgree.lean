import Verif.Props.StateExamples
/-!
# C32 into a diff that is not empty; C74: the reports about the state agree with each other
-/
namespace Verif.Props
open OMap Spec

/-! ## C32 -/

/-- The slots of an entry after an account was put into it: the changed slots as `new` shows them, the
others as they were. -/
def MergedSlots (old : OMap U256 (Delta U256)) (acc : Account) (new : Slot → Delta U256)
    (m : OMap U256 (Delta U256)) : Prop :=
  Sorted m ∧
  (∀ (k : U256) (s : Slot), (k, s) ∈ acc.storage → s.original ≠ s.present → get? m k = some (new s)) ∧
  (∀ k : U256, (∀ s : Slot, (k, s) ∈ acc.storage → s.original = s.present) → get? m k = get? old k)

theorem mergedSlots_insertIf {old : OMap U256 (Delta U256)} (hs : Sorted old) {acc : Account}
    (hd : Distinct acc.storage) (new : Slot → Delta U256) :
    MergedSlots old acc new
      (insertIf (fun s : Slot => if s.isChanged then some (new s) else none) old acc.storage) := by
  refine ⟨sorted_insertIf _ hs _, ?_, ?_⟩
  · intro k s hm hc
    rw [get?_insertIf _ hs hd, get?_of_mem_distinct hd hm]
    simp [Slot.isChanged, hc]
  · intro k hk
    rw [get?_insertIf _ hs hd]
    cases hg : get? acc.storage k with
    | none => rfl
    | some s =>
      have := hk s (mem_of_get? hg)
      simp [Slot.isChanged, this]

/-- **C32, into any diff.** `populate_state_diff` into a diff that already has entries: addresses that
are not in the state and accounts created and destroyed keep their entry; of a created account balance,
nonce and code are added and the changed slots are merged; of any other account balance and nonce become
the difference to the database, the changed slots are merged and the code stays, unless there is no slot
at all and nothing changed: then the entry is removed. -/
theorem C32_into {ε : Type} (db : DB ε) (diff : StateDiff) (hs : Sorted diff)
    (hin : ∀ a e, get? diff a = some e → Sorted e.storage)
    (state : List (Address × Account)) (hst : StateMap state) (d : StateDiff)
    (h : populateStateDiff db diff state = .ok d) :
    Sorted d ∧
    (∀ a : Address, (∀ acc : Account, (a, acc) ∉ state) → get? d a = get? diff a) ∧
    ∀ (a : Address) (acc : Account), (a, acc) ∈ state →
      (acc.isCreated = true → acc.isSelfdestructed = true → get? d a = get? diff a) ∧
      (acc.isCreated = true → acc.isSelfdestructed = false → ∃ e, get? d a = some e ∧
        e.balance = .added acc.info.balance ∧ e.nonce = .added acc.info.nonce ∧
        (∃ c, CodeIs db acc.info c ∧ e.code = .added (c.getD [])) ∧
        MergedSlots ((get? diff a).getD {}).storage acc (fun s => .added s.present) e.storage) ∧
      (acc.isCreated = false → ∃ old m, Before db a old ∧
        MergedSlots ((get? diff a).getD {}).storage acc (fun s => .changed s.original s.present) m ∧
        ((m = [] ∧ old.balance = acc.info.balance ∧ old.nonce = acc.info.nonce ∧
            old.codeHash = acc.info.codeHash ∧ acc.isSelfdestructed = false ∧ get? d a = none) ∨
         (¬ (m = [] ∧ old.balance = acc.info.balance ∧ old.nonce = acc.info.nonce ∧
            old.codeHash = acc.info.codeHash ∧ acc.isSelfdestructed = false) ∧
          ∃ e, get? d a = some e ∧ IsDelta e.balance old.balance acc.info.balance ∧
            IsDelta e.nonce old.nonce acc.info.nonce ∧ e.code = ((get? diff a).getD {}).code ∧
            e.storage = m))) := by
  have hp := populateStateDiff_spec db hs hst.addresses
  rw [h] at hp
  obtain ⟨hsd, hout, hmem⟩ := hp
  refine ⟨hsd, fun a ha => hout a (get?_eq_none_iff.2 ha), ?_⟩
  intro a acc hm
  have hd := hst.slots a acc hm
  have h2 := hmem a acc hm
  have hsl : Sorted ((get? diff a).getD {}).storage := by
    cases hg : get? diff a with
    | none => exact sorted_nil
    | some e => exact hin a e hg
  refine ⟨?_, ?_, ?_⟩
  · intro hc hx
    simp only [entryAfter, hc, hx, Bool.and_self, if_true, Except.ok.injEq] at h2
    exact h2.symm
  · intro hc hx
    simp only [entryAfter, hc, hx, Bool.false_and, Bool.false_eq_true, if_false, if_true,
      Except.ok.injEq] at h2
    refine ⟨_, h2.symm, rfl, rfl, ⟨_, codeIs_load db acc.info, rfl⟩, ?_⟩
    show MergedSlots _ _ _ (addedStorage _ _)
    rw [addedStorage_eq]
    exact mergedSlots_insertIf hsl hd (fun s => Delta.added s.present)
  · intro hc
    cases hdb : db.account a with
    | error e => simp [entryAfter, hc, hdb] at h2
    | ok old =>
      refine ⟨old, changedStorage ((get? diff a).getD {}).storage acc.storage,
        before_of_account hdb, ?_, ?_⟩
      · rw [changedStorage_eq]
        exact mergedSlots_insertIf hsl hd (fun s => Delta.changed s.original s.present)
      · simp only [entryAfter, hc, Bool.and_false, Bool.false_eq_true, if_false, hdb] at h2
        have hiff : ((changedStorage ((get? diff a).getD {}).storage acc.storage).isEmpty &&
              old.eq acc.info && !acc.isSelfdestructed) = true ↔
            (changedStorage ((get? diff a).getD {}).storage acc.storage = [] ∧
              old.balance = acc.info.balance ∧ old.nonce = acc.info.nonce ∧
              old.codeHash = acc.info.codeHash ∧ acc.isSelfdestructed = false) := by
          simp only [Bool.and_eq_true, eq_iff, Bool.not_eq_true', List.isEmpty_iff]
          constructor
          · rintro ⟨⟨h1, h2, h3, h4⟩, h5⟩; exact ⟨h1, h2, h3, h4, h5⟩
          · rintro ⟨h1, h2, h3, h4, h5⟩; exact ⟨⟨h1, h2, h3, h4⟩, h5⟩
        by_cases hcond : ((changedStorage ((get? diff a).getD {}).storage acc.storage).isEmpty &&
              old.eq acc.info && !acc.isSelfdestructed) = true
        · rw [if_pos hcond] at h2
          simp only [Except.ok.injEq] at h2
          obtain ⟨g1, g2, g3, g4, g5⟩ := hiff.1 hcond
          exact Or.inl ⟨g1, g2, g3, g4, g5, h2.symm⟩
        · rw [if_neg hcond] at h2
          simp only [Except.ok.injEq] at h2
          exact Or.inr ⟨fun hx => hcond (hiff.2 hx), _, h2.symm, isDelta_ite _ _, isDelta_ite _ _,
            rfl, rfl⟩

/-! ## C74 -/

theorem distinct_unique {κ ν : Type} [Key κ] {l : List (κ × ν)} (hd : Distinct l) {k : κ}
    {v w : ν} (hv : (k, v) ∈ l) (hw : (k, w) ∈ l) : v = w := by
  have := get?_of_mem_distinct hd hv
  rw [get?_of_mem_distinct hd hw] at this
  simpa using this.symm

theorem before_unique {ε : Type} {db : DB ε} {a : Address} {i j : AccountInfo}
    (h : Before db a i) (h' : Before db a j) : i = j := by
  have := account_of_before h
  rw [account_of_before h'] at this
  simpa using this.symm

theorem mem_of_listed {ε : Type} {db : DB ε} {state : List (Address × Account)}
    {pre post : OMap Address AccountState} (h : IsPrestateDiff db state pre post) {a : Address}
    (hl : (∃ s, get? pre a = some s) ∨ ∃ s, get? post a = some s) :
    ∃ acc : Account, (a, acc) ∈ state := by
  apply Classical.byContradiction
  intro hn
  obtain ⟨h1, h2⟩ := h.untouched a (fun acc hm => hn ⟨acc, hm⟩)
  rcases hl with ⟨s, hs⟩ | ⟨s, hs⟩ <;> simp_all

/-- **C74, geth.** For one state and database: every account that diff mode shows before the transaction
is shown by default mode with the same balance, nonce and code, and with at least its slots. -/
theorem C74_modes_agree {ε : Type} (db : DB ε) (state : List (Address × Account))
    (hst : StateMap state) (c1 c2 : PreStateConfig) (h1 : c1.diffMode ≠ some true)
    (h2 : c2.diffMode = some true) (m pre post : OMap Address AccountState)
    (hm : gethPrestateTraces db state c1 = .ok (.default m))
    (hd : gethPrestateTraces db state c2 = .ok (.diff pre post)) :
    ∀ a s, get? pre a = some s → ∃ s', get? m a = some s' ∧ s'.balance = s.balance ∧
      s'.nonce = s.nonce ∧ s'.code = s.code ∧
      ∀ k v : U256, get? s.storage k = some v → get? s'.storage k = some v := by
  obtain ⟨m', e1, hpre⟩ := C33_prestate db state c1 _ hst h1 hm
  obtain ⟨pre', post', e2, hdiff⟩ := C34_exact db state c2 _ hst h2 hd
  simp only [PreStateFrame.default.injEq] at e1
  simp only [PreStateFrame.diff.injEq] at e2
  subst e1
  obtain ⟨rfl, rfl⟩ := e2
  intro a s hs
  obtain ⟨acc, hmem⟩ := mem_of_listed hdiff (Or.inl ⟨s, hs⟩)
  obtain ⟨old, hb, hof⟩ := hdiff.touched a acc hmem
  obtain ⟨old', s', hb', hs', has'⟩ := hpre.touched a acc hmem
  have := before_unique hb hb'
  subst this
  have has := hof.before s hs
  refine ⟨s', hs', by rw [has'.balance, has.balance], by rw [has'.nonce, has.nonce], ?_, ?_⟩
  · obtain ⟨c, hc, e⟩ := has.code
    obtain ⟨c', hc', e'⟩ := has'.code
    rw [e, e', codeIs_unique hc hc']
  · intro k v hv
    obtain ⟨sl, hsl, _, e⟩ := (has.slots k v).1 hv
    exact (has'.slots k v).2 ⟨sl, hsl, trivial, e⟩

/-- **C74, parity and geth.** For one state and database, an account that was neither created nor
destroyed and whose code did not change (and came with it): the parity diff lists it iff geth's diff
mode lists it, and then on both sides; the balance is unchanged iff geth shows no new balance, and
otherwise both show the same old and new balance, likewise for the nonce (geth shows no nonce 0); a
slot is changed from `x` to `y` iff geth shows `x` before (not if zero) and `y` after (not if zero). -/
theorem C74_parity_and_geth_agree {ε : Type} (db : DB ε) (state : List (Address × Account))
    (hst : StateMap state) (cfg : PreStateConfig) (hcfg : cfg.diffMode = some true)
    (d : StateDiff) (pre post : OMap Address AccountState)
    (hd : populateStateDiff db [] state = .ok d)
    (hg : gethPrestateTraces db state cfg = .ok (.diff pre post))
    (a : Address) (acc : Account) (hm : (a, acc) ∈ state) (hc : acc.isCreated = false)
    (hx : acc.isSelfdestructed = false)
    (hcode : ∀ old c, Before db a old → CodeIs db old c →
      old.codeHash = acc.info.codeHash ∧ shownCode c = shownCode acc.info.code) :
    ((∃ e, get? d a = some e) ↔ ∃ s, get? pre a = some s) ∧
    ((∃ e, get? d a = some e) ↔ ∃ s, get? post a = some s) ∧
    ∀ e s t, get? d a = some e → get? pre a = some s → get? post a = some t →
      (e.balance = .unchanged ↔ t.balance = none) ∧
      (∀ x y, e.balance = .changed x y → s.balance = some x ∧ t.balance = some y) ∧
      (e.nonce = .unchanged ↔ s.nonce = shownNonce acc.info.nonce) ∧
      (e.nonce = .unchanged → t.nonce = none) ∧
      (∀ x y, e.nonce = .changed x y → s.nonce = shownNonce x ∧ t.nonce = shownNonce y) ∧
      (t.code = none) ∧
      (∀ k x y : U256, get? e.storage k = some (.changed x y) ↔
        x ≠ y ∧ (get? s.storage k = if x = 0 then none else some x) ∧
          get? t.storage k = (if y = 0 then none else some y)) := by
  have hsd := C32_state_diff db state d hst hd
  obtain ⟨pre', post', e2, hdiff⟩ := C34_exact db state cfg _ hst hcfg hg
  simp only [PreStateFrame.diff.injEq] at e2
  obtain ⟨rfl, rfl⟩ := e2
  obtain ⟨old, hb, hof⟩ := hdiff.touched a acc hm
  obtain ⟨old', hb', hlist⟩ := hsd.existing a acc hm hc
  have := before_unique hb hb'
  subst this
  obtain ⟨c, hci, hpre, hpost, hafter⟩ := hof.code
  obtain ⟨hh, hcc⟩ := hcode old c hb hci
  have hchg : Changed old acc ↔ ShownDiffers old c acc := by
    unfold Changed ShownDiffers
    simp [hx, hh, hcc]
  have hlisted : (∃ e, get? d a = some e) ↔ Changed old acc := by
    rcases hlist with ⟨h1, h2⟩ | ⟨h1, e, h2, _⟩
    · rw [h2]; simp [h1]
    · rw [h2]; simp [h1]
  refine ⟨by rw [hlisted, hpre, hchg]; simp [hc], by rw [hlisted, hpost, hchg]; simp [hx], ?_⟩
  intro e s t he hs ht
  have hce : ChangedEntry old acc e := by
    rcases hlist with ⟨_, h2⟩ | ⟨_, e', h2, h3⟩
    · rw [h2] at he; simp at he
    · rw [h2] at he
      simp only [Option.some.injEq] at he
      subst he
      exact h3
  have hbe := hof.before s hs
  have haf := hafter t ht
  have hslots := hst.slots a acc hm
  refine ⟨?_, ?_, ?_, ?_, ?_, ?_, ?_⟩
  · rcases hce.balance with ⟨h1, h2⟩ | ⟨h1, h2⟩ <;>
      rcases haf.balance with ⟨h3, h4⟩ | ⟨h3, h4⟩ <;> simp_all
  · intro x y hxy
    rcases hce.balance with ⟨h1, h2⟩ | ⟨h1, h2⟩
    · rw [h2] at hxy; simp at hxy
    · rw [h2] at hxy
      simp only [Delta.changed.injEq] at hxy
      obtain ⟨rfl, rfl⟩ := hxy
      refine ⟨hbe.balance, ?_⟩
      rcases haf.balance with ⟨h3, _⟩ | ⟨_, h4⟩
      · simp only [Option.some.injEq] at h3; exact absurd h3 h1
      · exact h4
  · rw [hbe.nonce]
    rcases hce.nonce with ⟨h1, h2⟩ | ⟨h1, h2⟩
    · simp [h1, h2]
    · rw [h2]
      simp only [reduceCtorEq, false_iff]
      intro h3
      apply h1
      revert h3
      cases old.nonce <;> cases acc.info.nonce <;> simp [shownNonce]
  · intro hn
    rcases hce.nonce with ⟨h1, _⟩ | ⟨_, h2⟩
    · rcases haf.nonce with ⟨_, h4⟩ | ⟨h3, _⟩
      · exact h4
      · exact absurd (by rw [h1]) h3
    · rw [h2] at hn; simp at hn
  · intro x y hxy
    rcases hce.nonce with ⟨h1, h2⟩ | ⟨h1, h2⟩
    · rw [h2] at hxy; simp at hxy
    · rw [h2] at hxy
      simp only [Delta.changed.injEq] at hxy
      obtain ⟨rfl, rfl⟩ := hxy
      refine ⟨hbe.nonce, ?_⟩
      rcases haf.nonce with ⟨h3, _⟩ | ⟨_, h4⟩
      · exfalso
        apply h1
        revert h3
        cases old.nonce <;> cases acc.info.nonce <;> simp [shownNonce]
      · exact h4
  · rcases haf.code with ⟨_, h4⟩ | ⟨h3, _⟩
    · exact h4
    · exact absurd hcc h3
  · intro k x y
    rw [hce.slots]
    have hgs : ∀ v, get? s.storage k = some v ↔ ∃ sl : Slot, (k, sl) ∈ acc.storage ∧
        (sl.original ≠ sl.present ∧ sl.original ≠ 0) ∧ v = sl.original := fun v => hbe.slots k v
    have hgt : ∀ v, get? t.storage k = some v ↔ ∃ sl : Slot, (k, sl) ∈ acc.storage ∧
        sl.original ≠ sl.present ∧ v = sl.present ∧ v ≠ 0 := fun v => haf.slots k v
    constructor
    · rintro ⟨sl, hsl, hne, heq⟩
      simp only [Delta.changed.injEq] at heq
      obtain ⟨rfl, rfl⟩ := heq
      refine ⟨hne, ?_, ?_⟩
      · by_cases h0 : sl.original = 0
        · rw [if_pos h0]
          cases hv : get? s.storage k with
          | none => rfl
          | some v =>
            obtain ⟨sl', hsl', ⟨_, hnz⟩, _⟩ := (hgs v).1 hv
            have : sl' = sl := distinct_unique hslots hsl' hsl
            subst this
            exact absurd h0 hnz
        · rw [if_neg h0]
          exact (hgs _).2 ⟨sl, hsl, ⟨hne, h0⟩, rfl⟩
      · by_cases h0 : sl.present = 0
        · rw [if_pos h0]
          cases hv : get? t.storage k with
          | none => rfl
          | some v =>
            obtain ⟨sl', hsl', _, rfl, hnz⟩ := (hgt v).1 hv
            have : sl' = sl := distinct_unique hslots hsl' hsl
            subst this
            exact absurd h0 hnz
        · rw [if_neg h0]
          exact (hgt _).2 ⟨sl, hsl, hne, rfl, h0⟩
    · rintro ⟨hne, hp, hq⟩
      by_cases h0 : x = 0
      · subst h0
        rw [if_neg (fun h => hne h.symm)] at hq
        obtain ⟨sl, hsl, hn, rfl, hnz⟩ := (hgt y).1 hq
        refine ⟨sl, hsl, hn, ?_⟩
        have : sl.original = 0 := by
          apply Classical.byContradiction
          intro hno
          rw [(hgs sl.original).2 ⟨sl, hsl, ⟨hn, hno⟩, rfl⟩] at hp
          simp at hp
        rw [this]
      · rw [if_neg h0] at hp
        obtain ⟨sl, hsl, ⟨hn, hnz⟩, rfl⟩ := (hgs x).1 hp
        refine ⟨sl, hsl, hn, ?_⟩
        by_cases hy : y = 0
        · subst hy
          rw [if_pos rfl] at hq
          have : sl.present = 0 := by
            apply Classical.byContradiction
            intro hno
            rw [(hgt sl.present).2 ⟨sl, hsl, hn, rfl, hno⟩] at hq
            simp at hq
          rw [this]
        · rw [if_neg hy] at hq
          obtain ⟨sl', hsl', _, rfl, _⟩ := (hgt y).1 hq
          have : sl' = sl := distinct_unique hslots hsl' hsl
          subst this
          rfl

namespace StateExample

/-- A diff with an entry for an address outside the state, one for a contract of the state that
already has a slot, and one for an account that turns out not to have changed. -/
def earlier : StateDiff :=
  [(2, {}), (5, { balance := .added 1, nonce := .unchanged, code := .added [1],
                  storage := [(2, .added 9), (3, .added 1)] }), (9, { balance := .added 3 })]

/-- The hypotheses of `C32_into` hold of it; the entry of account 2 is removed, that of 9 is kept, and
the slots of 5 are merged. -/
theorem earlier_ok : Sorted earlier ∧ (∀ a e, get? earlier a = some e → Sorted e.storage) ∧
    ∃ d, populateStateDiff db earlier state = .ok d ∧ d.map (·.1) = [1, 5, 6, 7, 9] ∧
      (get? d (5 : Address)).map (·.storage) =
        some [(1, .changed 0 6), (2, .added 9), (3, .changed 7 0)] ∧
      (get? d (5 : Address)).map (·.code) = some (.added [1]) := by
  refine ⟨by unfold Sorted; decide, ?_, _, rfl, by decide, by decide, by decide⟩
  intro a e h
  have : ∀ x ∈ earlier, Sorted x.2.storage := by unfold Sorted; decide
  exact this _ (mem_of_get? h)

/-- The hypotheses of `C74_parity_and_geth_agree` hold of a contract whose slots changed. -/
theorem agree_ok : ∀ old c, Before db (5 : Address) old → CodeIs db old c →
    old.codeHash = 44 ∧ shownCode c = shownCode (some code) := by
  intro old c hb hc
  have h : Before db (5 : Address) ⟨4, 1, 44, none⟩ := .known _ rfl
  obtain rfl := before_unique h hb
  have hs : CodeIs db (⟨4, 1, 44, none⟩ : AccountInfo) (some code) :=
    .stored _ rfl (by decide) rfl
  rw [codeIs_unique hc hs]
  exact ⟨rfl, rfl⟩

/-- What the three reports say about that contract. -/
theorem agree_shows : ∃ d pre post e s t,
    populateStateDiff db [] state = .ok d ∧
    gethPrestateTraces db state ⟨some true⟩ = .ok (.diff pre post) ∧
    get? d (5 : Address) = some e ∧ get? pre (5 : Address) = some s ∧
    get? post (5 : Address) = some t ∧
    e.storage = [(1, .changed 0 6), (3, .changed 7 0)] ∧ s.storage = [(3, 7)] ∧
    t.storage = [(1, 6)] :=
  ⟨_, _, _, _, _, _, rfl, rfl, rfl, rfl, rfl, by decide, by decide, by decide⟩

end StateExample

end Verif.Props
