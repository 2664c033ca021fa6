import Verif.Spec.State
/-! C32: the state diff. -/
namespace Verif.Props
open OMap Spec

theorem before_of_account {ε : Type} {db : DB ε} {a : Address} {i : AccountInfo}
    (h : db.account a = .ok i) : Before db a i := by
  unfold DB.account at h
  split at h
  · simp at h
  · simp only [Except.ok.injEq] at h
    subst h
    exact .unknown (by assumption)
  · simp only [Except.ok.injEq] at h
    subst h
    exact .known _ (by assumption)

theorem account_of_before {ε : Type} {db : DB ε} {a : Address} {i : AccountInfo}
    (h : Before db a i) : db.account a = .ok i := by
  unfold DB.account
  cases h with
  | known _ h => rw [h]
  | unknown h => rw [h]; rfl

theorem account_error {ε : Type} {db : DB ε} {a : Address} {e : ε} :
    db.account a = .error e ↔ db.basic a = .error e := by
  unfold DB.account
  split <;> simp_all

theorem codeIs_load {ε : Type} (db : DB ε) (i : AccountInfo) : CodeIs db i (loadAccountCode db i) := by
  unfold loadAccountCode
  split
  · exact .inline _ (by assumption)
  · split
    · exact .empty (by assumption) (by assumption)
    · split
      · exact .stored _ (by assumption) (by assumption) (by assumption)
      · exact .unreadable _ (by assumption) (by assumption) (by assumption)

theorem isChanged_iff (s : Slot) : s.isChanged = true ↔ s.original ≠ s.present := by
  simp [Slot.isChanged]

theorem get?_changed {l : List (U256 × Slot)} (hd : Distinct l) (g : Slot → Delta U256) (k : U256)
    (v : Delta U256) :
    get? (insertIf (fun s : Slot => if s.isChanged then some (g s) else none) [] l) k = some v ↔
      ∃ s : Slot, (k, s) ∈ l ∧ s.original ≠ s.present ∧ v = g s := by
  rw [get?_insertIf _ sorted_nil hd]
  simp only [get?, Option.or_none, Option.bind_eq_some_iff]
  constructor
  · rintro ⟨s, hs, hv⟩
    split at hv
    · rename_i hc
      simp only [Option.some.injEq] at hv
      exact ⟨s, mem_of_get? hs, (isChanged_iff s).1 hc, hv.symm⟩
    · simp at hv
  · rintro ⟨s, hs, hc, rfl⟩
    exact ⟨s, get?_of_mem_distinct hd hs, by rw [if_pos ((isChanged_iff s).2 hc)]⟩

theorem changedStorage_empty {l : List (U256 × Slot)} (hd : Distinct l) :
    (changedStorage [] l).isEmpty = true ↔
      ¬ ∃ (k : U256) (s : Slot), (k, s) ∈ l ∧ s.original ≠ s.present := by
  rw [isEmpty_iff, changedStorage_eq]
  constructor
  · rintro h ⟨k, s, hm, hc⟩
    have := (get?_changed hd (fun s => Delta.changed s.original s.present) k _).2 ⟨s, hm, hc, rfl⟩
    rw [h k] at this
    simp at this
  · intro h k
    cases hg : get? (insertIf (fun s : Slot => if s.isChanged then
        some (Delta.changed s.original s.present) else none) [] l) k with
    | none => rfl
    | some v =>
      obtain ⟨s, hm, hc, _⟩ := (get?_changed hd _ k v).1 hg
      exact absurd ⟨k, s, hm, hc⟩ h

theorem eq_iff (a b : AccountInfo) :
    a.eq b = true ↔ a.balance = b.balance ∧ a.nonce = b.nonce ∧ a.codeHash = b.codeHash := by
  simp [AccountInfo.eq, and_assoc]

theorem isDelta_ite {α : Type} [DecidableEq α] (a b : α) :
    IsDelta (if a = b then Delta.unchanged else .changed a b) a b := by
  by_cases h : a = b
  · exact Or.inl ⟨h, by simp [h]⟩
  · exact Or.inr ⟨h, by simp [h]⟩

theorem entryAfter_existing {ε : Type} (db : DB ε) (a : Address) (acc : Account)
    (hc : acc.isCreated = false) (old : AccountInfo) (h : db.account a = .ok old) :
    entryAfter db none a acc =
      if ((changedStorage [] acc.storage).isEmpty && old.eq acc.info && !acc.isSelfdestructed) = true
      then .ok none
      else .ok (some
        { balance := if old.balance = acc.info.balance then .unchanged
            else .changed old.balance acc.info.balance
          code := .unchanged
          nonce := if old.nonce = acc.info.nonce then .unchanged
            else .changed old.nonce acc.info.nonce
          storage := changedStorage [] acc.storage }) := by
  unfold entryAfter
  rw [hc, h, Bool.and_false]
  rfl

/-- C32: whenever it succeeds, `populate_state_diff` into an empty diff reports exactly the accounts
that changed, with their old and new values. -/
theorem C32_state_diff {ε : Type} (db : DB ε) (state : List (Address × Account)) (diff : StateDiff)
    (hst : StateMap state) (h : populateStateDiff db [] state = .ok diff) :
    IsStateDiff db state diff := by
  have hp := populateStateDiff_spec db (sorted_nil : Sorted ([] : StateDiff)) hst.addresses
  rw [h] at hp
  obtain ⟨hs, hout, hin⟩ := hp
  refine ⟨hs, ?_, ?_, ?_, ?_⟩
  · intro a ha
    rw [hout a (get?_eq_none_iff.2 ha)]
    rfl
  · intro a acc hm hc hd
    have := hin a acc hm
    simp only [entryAfter, hc, hd, Bool.and_self, if_true, get?, Except.ok.injEq] at this
    exact this.symm
  · intro a acc hm hc hd
    have := hin a acc hm
    simp only [entryAfter, hc, hd, Bool.false_and, Bool.false_eq_true, if_false, if_true, get?,
      Option.getD_none, Except.ok.injEq] at this
    refine ⟨_, this.symm, rfl, rfl, ⟨_, codeIs_load db acc.info, rfl⟩, ?_, ?_⟩
    · intro k v
      show get? (addedStorage [] acc.storage) k = some v ↔ _
      rw [addedStorage_eq]
      exact get?_changed (hst.slots a acc hm) (fun s => Delta.added s.present) k v
    · show Sorted (addedStorage [] acc.storage)
      rw [addedStorage_eq]
      exact sorted_insertIf _ sorted_nil _
  · intro a acc hm hc
    have h2 : entryAfter db none a acc = .ok (get? diff a) := hin a acc hm
    cases hdb : db.account a with
    | error e => simp [entryAfter, hc, hdb] at h2
    | ok old =>
      rw [entryAfter_existing db a acc hc old hdb] at h2
      refine ⟨old, before_of_account hdb, ?_⟩
      have hemp := changedStorage_empty (hst.slots a acc hm)
      by_cases hcond : ((changedStorage [] acc.storage).isEmpty && old.eq acc.info
          && !acc.isSelfdestructed) = true
      · rw [if_pos hcond] at h2
        left
        simp only [Bool.and_eq_true, hemp, eq_iff, Bool.not_eq_true'] at hcond
        obtain ⟨⟨hcs, h3, h4, h5⟩, h6⟩ := hcond
        simp only [Except.ok.injEq] at h2
        refine ⟨?_, h2.symm⟩
        rintro (hx | hx | hx | hx | hx)
        · simp [h6] at hx
        · exact hx h3
        · exact hx h4
        · exact hx h5
        · exact hcs hx
      · rw [if_neg hcond] at h2
        right
        simp only [Except.ok.injEq] at h2
        constructor
        · apply Classical.byContradiction
          intro hn
          apply hcond
          simp only [Bool.and_eq_true, hemp, eq_iff, Bool.not_eq_true']
          unfold Changed at hn
          simp only [not_or, Decidable.not_not] at hn
          exact ⟨⟨hn.2.2.2.2, hn.2.1, hn.2.2.1, hn.2.2.2.1⟩, by simpa using hn.1⟩
        · refine ⟨_, h2.symm, isDelta_ite _ _, isDelta_ite _ _, rfl, ?_, ?_⟩
          · intro k v
            show get? (changedStorage [] acc.storage) k = some v ↔ _
            rw [changedStorage_eq]
            exact get?_changed (hst.slots a acc hm)
              (fun s => Delta.changed s.original s.present) k v
          · show Sorted (changedStorage [] acc.storage)
            rw [changedStorage_eq]
            exact sorted_insertIf _ sorted_nil _

theorem entryAfter_error {ε : Type} (db : DB ε) (o : Option AccountDiff) (a : Address)
    (acc : Account) (e : ε) :
    entryAfter db o a acc = .error e ↔ acc.isCreated = false ∧ db.basic a = .error e := by
  unfold entryAfter
  rw [← account_error]
  cases hc : acc.isCreated with
  | true => cases acc.isSelfdestructed <;> simp
  | false =>
    simp only [Bool.and_false, Bool.false_eq_true, if_false, true_and]
    cases db.account a with
    | error e => simp
    | ok old =>
      simp only [reduceCtorEq, iff_false]
      split <;> simp

/-- C32: the only errors are those of reading an account that was not created, and each of them is
reported. -/
theorem C32_errors {ε : Type} (db : DB ε) (state : List (Address × Account))
    (hst : StateMap state) :
    (∀ e, populateStateDiff db [] state = .error e →
      ∃ (a : Address) (acc : Account), (a, acc) ∈ state ∧ acc.isCreated = false ∧
        db.basic a = .error e) ∧
    ((∃ (a : Address) (acc : Account) (e : ε), (a, acc) ∈ state ∧ acc.isCreated = false ∧
        db.basic a = .error e) → ∃ e, populateStateDiff db [] state = .error e) := by
  have hp := populateStateDiff_spec db (sorted_nil : Sorted ([] : StateDiff)) hst.addresses
  constructor
  · intro e he
    rw [he] at hp
    obtain ⟨a, acc, hm, h⟩ := hp
    exact ⟨a, acc, hm, (entryAfter_error db _ a acc e).1 h⟩
  · rintro ⟨a, acc, e, hm, hc, hb⟩
    cases h : populateStateDiff db [] state with
    | error e => exact ⟨e, rfl⟩
    | ok d =>
      rw [h] at hp
      have := hp.2.2 a acc hm
      rw [(entryAfter_error db _ a acc e).2 ⟨hc, hb⟩] at this
      simp at this

theorem insertIf_perm {ν ν' : Type} (g : ν → Option ν') {l l' : List (U256 × ν)}
    (hd : Distinct l) (hp : l.Perm l') :
    insertIf g ([] : OMap U256 ν') l = insertIf g [] l' := by
  apply OMap.ext (sorted_insertIf _ sorted_nil _) (sorted_insertIf _ sorted_nil _)
  intro k
  rw [get?_insertIf _ sorted_nil hd, get?_insertIf _ sorted_nil (hd.perm hp), get?_perm hd hp]

theorem entryAfter_same {ε : Type} (db : DB ε) (a : Address) (acc acc' : Account)
    (hd : Distinct acc.storage) (h1 : acc'.info = acc.info) (h2 : acc'.isCreated = acc.isCreated)
    (h3 : acc'.isSelfdestructed = acc.isSelfdestructed) (h4 : acc.storage.Perm acc'.storage) :
    entryAfter db none a acc' = entryAfter db none a acc := by
  have e1 : changedStorage [] acc'.storage = changedStorage [] acc.storage := by
    rw [changedStorage_eq, changedStorage_eq, insertIf_perm _ hd h4]
  have e2 : addedStorage [] acc'.storage = addedStorage [] acc.storage := by
    rw [addedStorage_eq, addedStorage_eq, insertIf_perm _ hd h4]
  simp only [entryAfter, Option.getD_none, h1, h2, h3, e1, e2]

theorem stateMap_same {s s' : List (Address × Account)} (h : SameState s s') :
    SameState s' s where
  left a acc' hm := by
    obtain ⟨acc, hm, h1, h2, h3, h4⟩ := h.right a acc' hm
    exact ⟨acc, hm, h1.symm, h2.symm, h3.symm, h4.symm⟩
  right a acc hm := by
    obtain ⟨acc, hm, h1, h2, h3, h4⟩ := h.left a acc hm
    exact ⟨acc, hm, h1.symm, h2.symm, h3.symm, h4.symm⟩

theorem populate_order {ε : Type} (db : DB ε) (s s' : List (Address × Account))
    (hs : StateMap s) (hs' : StateMap s') (hsame : SameState s s') (d : StateDiff)
    (h : populateStateDiff db [] s = .ok d) : populateStateDiff db [] s' = .ok d := by
  have hp := populateStateDiff_spec db (sorted_nil : Sorted ([] : StateDiff)) hs.addresses
  have hp' := populateStateDiff_spec db (sorted_nil : Sorted ([] : StateDiff)) hs'.addresses
  rw [h] at hp
  cases h' : populateStateDiff db [] s' with
  | error e =>
    rw [h'] at hp'
    obtain ⟨a, acc', hm', he⟩ := hp'
    obtain ⟨acc, hm, h1, h2, h3, h4⟩ := hsame.right a acc' hm'
    have := hp.2.2 a acc hm
    simp only [get?] at this he
    rw [entryAfter_same db a acc acc' (hs.slots a acc hm) h1 h2 h3 h4, this] at he
    simp at he
  | ok d' =>
    rw [h'] at hp'
    congr 1
    apply OMap.ext hp'.1 hp.1
    intro a
    cases hg : get? s a with
    | none =>
      have hg' : get? s' a = none := by
        rw [get?_eq_none_iff] at hg ⊢
        intro acc' hm'
        obtain ⟨acc, hm, _⟩ := hsame.right a acc' hm'
        exact hg acc hm
      rw [hp.2.1 a hg, hp'.2.1 a hg']
    | some acc =>
      have hm := mem_of_get? hg
      obtain ⟨acc', hm', h1, h2, h3, h4⟩ := hsame.left a acc hm
      have e1 := hp.2.2 a acc hm
      have e2 := hp'.2.2 a acc' hm'
      simp only [get?] at e1 e2
      rw [entryAfter_same db a acc acc' (hs.slots a acc hm) h1 h2 h3 h4, e1] at e2
      simp only [Except.ok.injEq] at e2
      exact e2.symm

/-- C32: the iteration order of the state map and of the storage maps is irrelevant. -/
theorem C32_order {ε : Type} (db : DB ε) (s s' : List (Address × Account))
    (hs : StateMap s) (hs' : StateMap s') (hsame : SameState s s') (d : StateDiff) :
    populateStateDiff db [] s = .ok d ↔ populateStateDiff db [] s' = .ok d :=
  ⟨populate_order db s s' hs hs' hsame d, populate_order db s' s hs' hs (stateMap_same hsame) d⟩

end Verif.Props
