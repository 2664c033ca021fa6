import Verif.Props.Prestate
/-! Concrete states: the hypotheses of C32-C34 are met, and the cases in which C34 and C57 fail. -/
namespace Verif.Props.StateExample
open OMap Spec

def code : Bytes := [0x60, 0x01]
/-- A sender that pays, a contract whose slots change, a contract created, one created and destroyed
at once, one destroyed, and one that is only looked at. -/
def state : List (Address × Account) :=
  [(7, ⟨⟨0, 1, 55, some code⟩, [(9, ⟨0, 8⟩)], true, false⟩),
   (1, ⟨⟨90, 6, KECCAK_EMPTY, some []⟩, [], false, false⟩),
   (5, ⟨⟨4, 1, 44, some code⟩, [(3, ⟨7, 0⟩), (2, ⟨5, 5⟩), (1, ⟨0, 6⟩)], false, false⟩),
   (8, ⟨⟨0, 1, 66, some code⟩, [(1, ⟨0, 1⟩)], true, true⟩),
   (6, ⟨⟨0, 1, 44, some code⟩, [], false, true⟩),
   (2, ⟨⟨3, 1, 44, some code⟩, [(1, ⟨4, 4⟩)], false, false⟩)]

/-- The same in another order. -/
def state' : List (Address × Account) :=
  [(5, ⟨⟨4, 1, 44, some code⟩, [(2, ⟨5, 5⟩), (1, ⟨0, 6⟩), (3, ⟨7, 0⟩)], false, false⟩),
   (1, ⟨⟨90, 6, KECCAK_EMPTY, some []⟩, [], false, false⟩),
   (7, ⟨⟨0, 1, 55, some code⟩, [(9, ⟨0, 8⟩)], true, false⟩),
   (2, ⟨⟨3, 1, 44, some code⟩, [(1, ⟨4, 4⟩)], false, false⟩),
   (8, ⟨⟨0, 1, 66, some code⟩, [(1, ⟨0, 1⟩)], true, true⟩),
   (6, ⟨⟨0, 1, 44, some code⟩, [], false, true⟩)]

def db : DB Unit where
  basic a :=
    if a = 1 then .ok (some ⟨100, 5, KECCAK_EMPTY, none⟩)
    else if a = 5 then .ok (some ⟨4, 1, 44, none⟩)
    else if a = 6 then .ok (some ⟨10, 1, 44, none⟩)
    else if a = 2 then .ok (some ⟨3, 1, 44, some code⟩)
    else .ok none
  codeByHash h := if h = 44 then .ok code else .error ()

instance (l : List (U256 × Slot)) : Decidable (Distinct l) := by unfold Distinct; infer_instance
instance (l : List (Address × Account)) : Decidable (Distinct l) := by
  unfold Distinct; infer_instance

theorem stateMap_of {l : List (Address × Account)} (h : Distinct l)
    (h2 : ∀ e ∈ l, Distinct e.2.storage) : StateMap l := ⟨h, fun _ _ hm => h2 _ hm⟩

theorem state_ok : StateMap state := stateMap_of (by decide) (by decide)
theorem state'_ok : StateMap state' := stateMap_of (by decide) (by decide)

/-- The diff of the example has four entries. -/
theorem diff_ok : ∃ d, populateStateDiff db [] state = .ok d ∧
    d.map (·.1) = [1, 5, 6, 7] := ⟨_, rfl, by decide⟩

theorem prestate_ok : ∃ m, gethPrestateTraces db state ⟨some false⟩ = .ok (.default m) ∧
    m.map (·.1) = [1, 2, 5, 6, 7, 8] := ⟨_, rfl, by decide⟩

theorem prestateDiff_ok : ∃ p q, gethPrestateTraces db state ⟨some true⟩ = .ok (.diff p q) ∧
    p.map (·.1) = [1, 5, 6] ∧ q.map (·.1) = [1, 5, 7] := ⟨_, _, rfl, by decide, by decide⟩

instance (l l' : List (U256 × Slot)) : Decidable (l.Perm l') := List.decidablePerm l l'

theorem same : SameState state state' where
  left a acc hm := by
    have h : ∀ e ∈ state, ∃ e' ∈ state', e'.1 = e.1 ∧ e'.2.info = e.2.info ∧
      e'.2.isCreated = e.2.isCreated ∧ e'.2.isSelfdestructed = e.2.isSelfdestructed ∧
      e.2.storage.Perm e'.2.storage := by decide
    obtain ⟨e', h1, h2, h3⟩ := h _ hm
    have h2 : e'.1 = a := h2
    exact ⟨e'.2, by rw [← h2]; exact h1, h3⟩
  right a acc hm := by
    have h : ∀ e' ∈ state', ∃ e ∈ state, e.1 = e'.1 ∧ e'.2.info = e.2.info ∧
      e'.2.isCreated = e.2.isCreated ∧ e'.2.isSelfdestructed = e.2.isSelfdestructed ∧
      e.2.storage.Perm e'.2.storage := by decide
    obtain ⟨e', h1, h2, h3⟩ := h _ hm
    have h2 : e'.1 = a := h2
    exact ⟨e'.2, by rw [← h2]; exact h1, h3⟩

/-- The code condition of `C34_prestate_diff_partial` holds of the example. -/
theorem code_loaded : ∀ (a : Address) (acc : Account) (old : AccountInfo) (c : Option Bytes),
    (a, acc) ∈ state → Before db a old → CodeIs db old c →
    acc.info.codeHash = old.codeHash → shownCode acc.info.code = shownCode c := by
  intro a acc old c hm hb hc he
  have h : ∀ e ∈ state, ∀ old, db.account e.1 = .ok old → e.2.info.codeHash = old.codeHash →
      shownCode e.2.info.code = shownCode (loadAccountCode db old) := by
    have : ∀ e ∈ state, (match db.account e.1 with
      | .ok old => decide (e.2.info.codeHash = old.codeHash →
          shownCode e.2.info.code = shownCode (loadAccountCode db old))
      | .error _ => true) = true := by decide
    intro e he old ho
    have := this e he
    rw [ho] at this
    exact of_decide_eq_true this
  rw [codeIs_unique hc (codeIs_load db old)]
  exact h _ hm old (account_of_before hb) he

/-- A contract that is only looked at: neither it nor its code changes, and its code is not loaded
(as after BALANCE). -/
def looked : List (Address × Account) := [(5, ⟨⟨4, 1, 44, none⟩, [], false, false⟩)]

/-- A contract without balance that destroys itself. -/
def poor : List (Address × Account) := [(2, ⟨⟨3, 1, 44, some code⟩, [], false, true⟩)]

end Verif.Props.StateExample

namespace Verif.Props
open OMap Spec StateExample

/-- C34 fails: an account that did not change is listed before and after, because its code is read
from the database on one side only. -/
theorem C34_refuted : ∃ (db : DB Unit) (state : List (Address × Account))
    (pre post : OMap Address AccountState) (a : Address) (acc : Account) (old : AccountInfo),
    StateMap state ∧ gethPrestateTraces db state ⟨some true⟩ = .ok (.diff pre post) ∧
    (a, acc) ∈ state ∧ Before db a old ∧ ¬ Changed old acc ∧
    (∃ s, get? pre a = some s) ∧ (∃ s, get? post a = some s) := by
  refine ⟨db, looked, _, _, 5, ⟨⟨4, 1, 44, none⟩, [], false, false⟩, ⟨4, 1, 44, none⟩,
    stateMap_of (by decide) (by decide), rfl, by simp [looked], .known _ rfl, ?_,
    ⟨_, rfl⟩, ⟨_, rfl⟩⟩
  simp [Changed, SlotChanged]

/-- C57 fails: an account that existed and was destroyed is not listed at all. -/
theorem C57_refuted : ∃ (db : DB Unit) (state : List (Address × Account))
    (pre post : OMap Address AccountState) (a : Address) (acc : Account) (old : AccountInfo),
    StateMap state ∧ gethPrestateTraces db state ⟨some true⟩ = .ok (.diff pre post) ∧
    (a, acc) ∈ state ∧ db.basic a = .ok (some old) ∧ acc.isCreated = false ∧
    acc.isSelfdestructed = true ∧ get? pre a = none := by
  exact ⟨db, poor, _, _, 2, ⟨⟨3, 1, 44, some code⟩, [], false, true⟩, ⟨3, 1, 44, some code⟩,
    stateMap_of (by decide) (by decide), rfl, by simp [poor], rfl, rfl, rfl, rfl⟩

/-- The hypotheses of `C57_destroyed_partial` hold of the example. -/
theorem StateExample.destroyed_ok : ∃ p q s,
    gethPrestateTraces db state ⟨some true⟩ = .ok (.diff p q) ∧ get? p (6 : Address) = some s ∧
    get? q (6 : Address) = none := ⟨_, _, _, rfl, rfl, rfl⟩

end Verif.Props
