import Verif.Props.Unreliable
/-!
# C123: what a failing state diff leaves behind
-/
namespace Verif.Props
open OMap Spec

variable {ε ε' : Type}

/-- With and without what is left, the same is returned. -/
theorem leaves_returns (db : DB ε) : ∀ (state : List (Address × Account)) (diff : StateDiff),
    populateStateDiff db diff state = match populateLeaves db diff state with
      | (d, none) => .ok d
      | (_, some e) => .error e
  | [], _ => rfl
  | (a, acc) :: rest, diff => by
    rw [populateStateDiff, populateLeaves]
    cases populateAccount db diff a acc with
    | error e => rfl
    | ok d => exact leaves_returns db rest d

theorem populateAccount_error {db : DB ε} {diff : StateDiff} {a : Address} {acc : Account} {e : ε}
    (h : populateAccount db diff a acc = .error e) : acc.isCreated = false ∧ db.basic a = .error e := by
  unfold populateAccount at h
  split at h
  · cases h
  · split at h
    · cases h
    · rename_i hc
      refine ⟨by simpa using hc, ?_⟩
      cases hd : db.account a with
      | error e' =>
        rw [hd] at h
        cases h
        exact account_error.1 hd
      | ok x =>
        rw [hd] at h
        dsimp only at h
        split at h <;> cases h

/-- Where it fails. -/
theorem leaves_split (db : DB ε) : ∀ (state : List (Address × Account)) (diff d : StateDiff) (e : ε),
    populateLeaves db diff state = (d, some e) →
    ∃ (before : List (Address × Account)) (a : Address) (acc : Account) (rest : List (Address × Account))
      (d1 : StateDiff), state = before ++ (a, acc) :: rest ∧ populateStateDiff db diff before = .ok d1 ∧
      populateAccount db d1 a acc = .error e ∧ d = OMap.insert d1 a ((get? d1 a).getD {})
  | [], _, _, _, h => by cases h
  | (a, acc) :: rest, diff, d, e, h => by
    rw [populateLeaves] at h
    cases hp : populateAccount db diff a acc with
    | error e' =>
      rw [hp] at h
      cases h
      exact ⟨[], a, acc, rest, diff, rfl, rfl, hp, rfl⟩
    | ok d' =>
      rw [hp] at h
      obtain ⟨before, a', acc', rest', d1, h1, h2, h3, h4⟩ := leaves_split db rest d' d e h
      exact ⟨(a, acc) :: before, a', acc', rest', d1, by rw [h1]; rfl, by rw [populateStateDiff, hp]; exact h2, h3, h4⟩

theorem distinct_append_left {κ ν : Type} [Key κ] {l l' : List (κ × ν)} (h : Distinct (l ++ l')) : Distinct l := by
  unfold Distinct at h ⊢
  exact (List.pairwise_append.1 h).1

/-- **C123, exactly.** When the state diff cannot be completed, the map that was passed (here an empty one) is left
with the entries of the accounts that come before the failing one in the order of the iteration, as complete as
they would be had these been all accounts; with an entry for the account that could not be read, which shows it as
unchanged; and with no other entry. -/
theorem C123_exact (db : DB ε) (state : List (Address × Account)) (hst : StateMap state) (d : StateDiff) (e : ε) :
    populateLeaves db [] state = (d, some e) →
    ∃ (before : List (Address × Account)) (a : Address) (acc : Account) (rest : List (Address × Account))
      (d1 : StateDiff), state = before ++ (a, acc) :: rest ∧ acc.isCreated = false ∧ db.basic a = .error e ∧
      populateStateDiff db [] before = .ok d1 ∧ get? d1 a = none ∧
      get? d a = some ⟨.unchanged, .unchanged, .unchanged, []⟩ ∧ ∀ b, b ≠ a → get? d b = get? d1 b := by
  intro h
  obtain ⟨before, a, acc, rest, d1, h1, h2, h3, h4⟩ := leaves_split db state [] d e h
  obtain ⟨h5, h6⟩ := populateAccount_error h3
  have hda := hst.addresses
  rw [h1] at hda
  have hsp := populateStateDiff_spec db (sorted_nil : Sorted ([] : StateDiff)) (distinct_append_left hda)
  rw [h2] at hsp
  have hnone : get? d1 a = none := by
    rw [hsp.2.1 a]
    · rfl
    · refine get?_eq_none_iff.2 fun acc' hm => ?_
      unfold Distinct at hda
      exact (List.pairwise_append.1 hda).2.2 _ hm _ List.mem_cons_self rfl
  have hone : ∀ k : Address, (Key.num k = Key.num a) ↔ k = a := fun k => ⟨Key.inj _ _, fun h => by rw [h]⟩
  refine ⟨before, a, acc, rest, d1, h1, h5, h6, h2, hnone, ?_, fun b hb => ?_⟩
  · rw [h4, get?_insert _ _ _ _ hsp.1, if_pos rfl, hnone]
    rfl
  · rw [h4, get?_insert _ _ _ _ hsp.1, if_neg fun hk => hb ((hone b).1 hk)]

/-! ### Trying again -/

theorem added_again {l : List (U256 × Slot)} (hd : Distinct l) (f : Slot → Option (Delta U256)) :
    insertIf f (insertIf f [] l) l = insertIf f [] l := by
  have h1 : Sorted (insertIf f ([] : OMap U256 (Delta U256)) l) := sorted_insertIf _ sorted_nil _
  refine OMap.ext (sorted_insertIf _ h1 _) h1 fun k => ?_
  rw [get?_insertIf _ h1 hd, get?_insertIf _ sorted_nil hd]
  cases (get? l k).bind f <;> rfl

/-- What was left of an account by any attempt does not matter for the next one. -/
theorem entry_again (bad : DB ε') (good : DB ε) (a : Address) (acc : Account) (hd : Distinct acc.storage)
    (x : Option AccountDiff) (hx : x = none ∨ (acc.isCreated = false ∧ x = some {}) ∨
      entryAfter bad none a acc = .ok x) :
    entryAfter good x a acc = entryAfter good none a acc := by
  rcases hx with rfl | ⟨hc, rfl⟩ | hx
  · rfl
  · simp only [entryAfter, hc, Bool.and_false, Bool.false_eq_true, if_false, Option.getD_some, Option.getD_none]
  · unfold entryAfter at hx
    split at hx
    · cases hx
      rfl
    · rename_i hsc
      split at hx
      · rename_i hc
        cases hx
        have e : addedStorage (addedStorage [] acc.storage) acc.storage = addedStorage [] acc.storage := by
          rw [addedStorage_eq, addedStorage_eq, added_again hd]
        unfold entryAfter
        rw [if_neg hsc, if_neg hsc, if_pos hc, if_pos hc]
        dsimp only [Option.getD_some, Option.getD_none]
        rw [e]
      · rename_i hc
        split at hx
        · cases hx
        · dsimp only at hx
          have e : changedStorage (changedStorage [] acc.storage) acc.storage = changedStorage [] acc.storage := by
            rw [changedStorage_eq, changedStorage_eq, added_again hd]
          split at hx
          · cases hx; rfl
          · cases hx
            unfold entryAfter
            rw [if_neg hsc, if_neg hsc, if_neg hc, if_neg hc]
            dsimp only [Option.getD_some, Option.getD_none]
            rw [e]

theorem populate_congr (db : DB ε) : ∀ (state : List (Address × Account)) (d d' : StateDiff), Sorted d → Sorted d' →
    Distinct state → (∀ a, get? state a = none → get? d a = get? d' a) →
    (∀ a acc, (a, acc) ∈ state → entryAfter db (get? d a) a acc = entryAfter db (get? d' a) a acc) →
    populateStateDiff db d state = populateStateDiff db d' state
  | [], d, d', hs, hs', _, hout, _ => by
    rw [populateStateDiff, populateStateDiff, OMap.ext hs hs' fun k => hout k rfl]
  | (a, acc) :: rest, d, d', hs, hs', hd, hout, hin => by
    unfold Distinct at hd
    rw [List.pairwise_cons] at hd
    have h1 := populateAccount_spec db hs a acc
    have h2 := populateAccount_spec db hs' a acc
    have he := hin a acc List.mem_cons_self
    rw [populateStateDiff, populateStateDiff]
    have hne : ∀ b acc', (b, acc') ∈ rest → b ≠ a := fun b acc' hm hb => hd.1 (b, acc') hm (by rw [hb])
    cases hp : populateAccount db d a acc with
    | error e =>
      rw [hp] at h1
      cases hp' : populateAccount db d' a acc with
      | error e' =>
        rw [hp'] at h2
        dsimp only at h1 h2
        rw [← he, h1] at h2
        cases h2
        rfl
      | ok x =>
        rw [hp'] at h2
        obtain ⟨r, hr, _⟩ := h2
        dsimp only at h1
        rw [← he, h1] at hr
        cases hr
    | ok x =>
      rw [hp] at h1
      obtain ⟨r, hr, hsx, hgx⟩ := h1
      cases hp' : populateAccount db d' a acc with
      | error e' =>
        rw [hp'] at h2
        dsimp only at h2
        rw [← he, hr] at h2
        cases h2
      | ok x' =>
        rw [hp'] at h2
        obtain ⟨r', hr', hsx', hgx'⟩ := h2
        rw [← he, hr] at hr'
        cases hr'
        refine populate_congr db rest x x' hsx hsx' hd.2 (fun b hb => ?_) (fun b acc' hm => ?_)
        · rw [hgx, hgx']
          by_cases hba : b = a
          · simp [hba]
          · rw [if_neg hba, if_neg hba]
            refine hout b ?_
            simp only [get?]
            rw [if_neg fun hk => hba (Key.inj _ _ hk), hb]
        · rw [hgx, hgx', if_neg (hne b acc' hm), if_neg (hne b acc' hm)]
          exact hin b acc' (List.mem_cons_of_mem _ hm)

/-- **C123, trying again.** Whatever an attempt with one database left behind, complete or not, the next one, with any
database and the same state, returns what it would have returned for an empty diff. -/
theorem C123_again (bad : DB ε') (good : DB ε) (state : List (Address × Account)) (hst : StateMap state) :
    populateStateDiff good (populateLeaves bad [] state).1 state = populateStateDiff good [] state := by
  cases hl : populateLeaves bad [] state with
  | mk d o =>
    dsimp only
    have hd := hst.addresses
    cases o with
    | none =>
      have hr := leaves_returns bad state []
      rw [hl] at hr
      have hsp := populateStateDiff_spec bad (sorted_nil : Sorted ([] : StateDiff)) hd
      rw [hr] at hsp
      refine populate_congr good state d [] hsp.1 sorted_nil hd (fun a ha => hsp.2.1 a ha) fun a acc hm => ?_
      exact entry_again bad good a acc (hst.slots a acc hm) _ (Or.inr (Or.inr (hsp.2.2 a acc hm)))
    | some e =>
      obtain ⟨before, a0, acc0, rest, d1, h1, h2, h3, h4⟩ := leaves_split bad state [] d e hl
      obtain ⟨h5, h6⟩ := populateAccount_error h3
      have hda := hd
      rw [h1] at hda
      have hsp := populateStateDiff_spec bad (sorted_nil : Sorted ([] : StateDiff)) (distinct_append_left hda)
      rw [h2] at hsp
      obtain ⟨before', a', acc', rest', d1', g1, g2, g3, g4, g5, g6, g7⟩ := C123_exact bad state hst d e hl
      have hone : ∀ b k : Address, (Key.num k = Key.num b) ↔ k = b := fun b k => ⟨Key.inj _ _, fun h => by rw [h]⟩
      unfold Distinct at hda
      have hpw := List.pairwise_append.1 hda
      have hnone : get? d1 a0 = none := by
        rw [hsp.2.1 a0]
        · rfl
        · exact get?_eq_none_iff.2 fun acc' hm => hpw.2.2 _ hm _ List.mem_cons_self rfl
      have hget : ∀ b, get? d b = if b = a0 then some {} else get? d1 b := by
        intro b
        rw [h4, get?_insert _ _ _ _ hsp.1, hnone]
        simp only [hone, Option.getD_none]
      have hsd : Sorted d := by rw [h4]; exact sorted_insert _ _ hsp.1
      refine populate_congr good state d [] hsd sorted_nil hd (fun b hb => ?_) fun b acc hm => ?_
      · rw [hget, if_neg]
        · rw [hsp.2.1 b]
          refine get?_eq_none_iff.2 fun acc' hm => ?_
          exact (get?_eq_none_iff.1 hb) acc' (by rw [h1]; exact List.mem_append_left _ hm)
        · rintro rfl
          exact (get?_eq_none_iff.1 hb) acc0 (by rw [h1]; exact List.mem_append_right _ List.mem_cons_self)
      · refine entry_again bad good b acc (hst.slots b acc hm) _ ?_
        rw [hget]
        rw [h1] at hm
        rcases List.mem_append.1 hm with hm | hm
        · have hb : b ≠ a0 := fun hb => hpw.2.2 _ hm _ List.mem_cons_self (by rw [hb])
          rw [if_neg hb]
          exact Or.inr (Or.inr (hsp.2.2 b acc hm))
        · rcases List.mem_cons.1 hm with hm | hm
          · cases hm
            rw [if_pos rfl]
            exact Or.inr (Or.inl ⟨h5, rfl⟩)
          · have hb : b ≠ a0 := fun hb => (List.pairwise_cons.1 hpw.2.1).1 _ hm (by rw [hb])
            rw [if_neg hb, hsp.2.1 b]
            · exact Or.inl rfl
            · refine get?_eq_none_iff.2 fun acc' hm' => ?_
              exact hpw.2.2 _ hm' _ (List.mem_cons_of_mem _ hm) rfl

/-- **C123, partial.** Let the database fail only where a better one answers, and let it read the codes of the created
accounts. Then an entry that is left behind, other than that of the account that could not be read, is the entry
of the complete diff. (Missing: the account that could not be read, see `C123_refuted`.) -/
theorem C123_true_partial {bad good : DB ε} (hb : SometimesFails bad good) (state : List (Address × Account))
    (hst : StateMap state) (hc : ∀ e ∈ state, e.2.isCreated = true → CodeReadable bad e.2.info)
    (d whole : StateDiff) (e : ε) (h : populateLeaves bad [] state = (d, some e))
    (hw : populateStateDiff good [] state = .ok whole) :
    ∃ a, bad.basic a = .error e ∧ ∀ b x, b ≠ a → get? d b = some x → get? whole b = some x := by
  obtain ⟨before, a, acc, rest, d1, h1, -, h3, h4, -, -, h7⟩ := C123_exact bad state hst d e h
  refine ⟨a, h3, fun b x hne hx => ?_⟩
  rw [h7 b hne] at hx
  have hda := hst.addresses
  rw [h1] at hda
  have hg := populate_same hb before (fun e he => hc e (by rw [h1]; exact List.mem_append_left _ he)) [] d1 h4
  have s1 := populateStateDiff_spec good (sorted_nil : Sorted ([] : StateDiff)) (distinct_append_left hda)
  have s2 := populateStateDiff_spec good (sorted_nil : Sorted ([] : StateDiff)) hst.addresses
  rw [hg] at s1
  rw [hw] at s2
  cases hgb : get? before b with
  | none =>
    rw [s1.2.1 b hgb] at hx
    cases hx
  | some accb =>
    have hm := mem_of_get? hgb
    have e1 := s1.2.2 b accb hm
    have e2 := s2.2.2 b accb (by rw [h1]; exact List.mem_append_left _ hm)
    rw [e1] at e2
    simp only [Except.ok.injEq] at e2
    rw [← e2, hx]

namespace Unreliable
/-- The contract 0xa was paid by the account 0xb. -/
def paid : List (Address × Account) :=
  [(0xa, ⟨⟨9, 1, 0x1234, none⟩, [], false, false⟩), (0xb, ⟨⟨3, 1, KECCAK_EMPTY, none⟩, [], false, false⟩)]
/-- What is known of both accounts. -/
def both : DB String :=
  ⟨fun a => .ok (if a = 0xa then some contract else if a = 0xb then some ⟨5, 0, KECCAK_EMPTY, none⟩ else none), fun _ => .ok []⟩
/-- The account 0xb cannot be read. -/
def onlyA : DB String := ⟨fun a => if a = 0xb then .error "disk" else both.basic a, both.codeByHash⟩
end Unreliable

open Unreliable in
/-- **C123, refuted.** The account 0xb has paid 2 and its nonce has changed. If it cannot be read, the diff that is
left behind shows it as unchanged. -/
theorem C123_refuted :
    populateLeaves onlyA [] paid = ([(0xa, ⟨.changed 7 9, .unchanged, .unchanged, []⟩),
      (0xb, ⟨.unchanged, .unchanged, .unchanged, []⟩)], some "disk") ∧
    populateStateDiff both [] paid = .ok [(0xa, ⟨.changed 7 9, .unchanged, .unchanged, []⟩),
      (0xb, ⟨.changed 5 3, .unchanged, .changed 0 1, []⟩)] := ⟨rfl, rfl⟩

open Unreliable in
/-- The same witness meets the hypotheses of the other theorems; the second attempt gives the complete diff. -/
example : SometimesFails onlyA both ∧ StateMap paid ∧
    (∀ e ∈ paid, e.2.isCreated = true → CodeReadable onlyA e.2.info) ∧
    populateStateDiff both (populateLeaves onlyA [] paid).1 paid = .ok [(0xa, ⟨.changed 7 9, .unchanged, .unchanged, []⟩),
      (0xb, ⟨.changed 5 3, .unchanged, .changed 0 1, []⟩)] := by
  have hst : StateMap paid := ⟨by unfold Distinct; decide, fun a acc hm => by
    simp [paid] at hm
    rcases hm with ⟨_, rfl⟩ | ⟨_, rfl⟩ <;> exact List.Pairwise.nil⟩
  refine ⟨⟨fun a => ?_, fun _ => .inr rfl⟩, hst, fun e he hc => ?_, by rw [C123_again _ _ _ hst]; rfl⟩
  rotate_left
  · rcases List.mem_cons.1 he with rfl | he
    · cases hc
    · rcases List.mem_cons.1 he with rfl | he
      · cases hc
      · cases he
  by_cases h : a = 0xb
  · exact .inl ⟨"disk", if_pos h⟩
  · exact .inr (if_neg h)

end Verif.Props
