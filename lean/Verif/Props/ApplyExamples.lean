import Verif.Props.Apply
/-! C85: accounts for which the reported differences lead to the state after, and accounts for which they do
not. -/
namespace Verif.Props
open OMap Spec StateExample

namespace ApplyExample

/-- The contract of the example, before and after: one slot is cleared, one set, one kept. -/
def contract : Account := ⟨⟨4, 1, 44, some code⟩, [(3, ⟨7, 0⟩), (2, ⟨5, 5⟩), (1, ⟨0, 6⟩)], false, false⟩
def before5 : View := ⟨4, 1, code, fun k => if k = 3 then 7 else if k = 2 then 5 else 0⟩
def after5 : View := ⟨4, 1, code, fun k => if k = 2 then 5 else if k = 1 then 6 else 0⟩

theorem isBefore5 : IsBefore db 5 contract before5 where
  account := ⟨⟨4, 1, 44, none⟩, some code, .known _ rfl, .stored _ rfl (by decide) rfl, rfl, rfl, rfl⟩
  slots := by
    intro k s h
    simp only [contract, List.mem_cons, Prod.mk.injEq, List.not_mem_nil, or_false] at h
    rcases h with ⟨rfl, rfl⟩ | ⟨rfl, rfl⟩ | ⟨rfl, rfl⟩ <;> decide

theorem isAfter5 : IsAfter db contract before5 after5 where
  destroyed h := by cases h
  balance _ := rfl
  nonce _ := rfl
  code _ := ⟨some StateExample.code, .inline _ rfl, rfl⟩
  slots _ k s h := by
    simp only [contract, List.mem_cons, Prod.mk.injEq, List.not_mem_nil, or_false] at h
    rcases h with ⟨rfl, rfl⟩ | ⟨rfl, rfl⟩ | ⟨rfl, rfl⟩ <;> decide
  others _ k h := by
    have h1 : k ≠ 1 := fun e => h ⟨0, 6⟩ (by rw [e]; simp [contract])
    have h3 : k ≠ 3 := fun e => h ⟨7, 0⟩ (by rw [e]; simp [contract])
    show (if k = 2 then (5 : U256) else if k = 1 then 6 else 0) =
      (if k = 3 then (7 : U256) else if k = 2 then 5 else 0)
    rw [if_neg h1, if_neg h3]

/-- The hypotheses of `C85_parity_partial` and `C85_geth_partial` hold of the contract of the example, which
the transaction changes. -/
theorem met : ∃ diff pre post, StateMap state ∧ populateStateDiff db [] state = .ok diff ∧
    gethPrestateTraces db state ⟨some true⟩ = .ok (.diff pre post) ∧ (5, contract) ∈ state ∧
    IsBefore db 5 contract before5 ∧ IsAfter db contract before5 after5 ∧ before5 ≠ after5 ∧
    applyParity before5 (get? diff 5) = after5 ∧ applyGeth before5 (get? pre 5) (get? post 5) = after5 := by
  refine ⟨_, _, _, state_ok, rfl, rfl, by simp [state, contract], isBefore5, isAfter5, ?_, ?_, ?_⟩
  · intro h
    have := congrFun (congrArg View.slot h) 3
    exact absurd this (by decide)
  · exact C85_parity_partial db state _ state_ok rfl 5 contract (by simp [state, contract]) _ _ isBefore5
      isAfter5 rfl (.inr rfl)
  · exact C85_geth_partial db state ⟨some true⟩ _ _ state_ok rfl rfl 5 contract (by simp [state, contract]) _ _
      isBefore5 isAfter5 rfl rfl (by decide) (by decide)

/-- An account that gives itself the code of a delegation (EIP-7702), and one that drops it. -/
def delegate : Bytes := [0xef, 0x01, 0x00, 0x07]
def sets : Account := ⟨⟨100, 6, 77, some delegate⟩, [], false, false⟩
def drops : Account := ⟨⟨3, 2, KECCAK_EMPTY, some []⟩, [], false, false⟩
/-- A contract that destroys itself after it sent its balance away. -/
def destroyed : Account := ⟨⟨0, 1, 44, some code⟩, [], false, true⟩
/-- A contract without balance that destroys itself. -/
def poorly : Account := ⟨⟨3, 1, 44, some code⟩, [], false, true⟩

theorem noSlots {ε : Type} {db : DB ε} {a : Address} {acc : Account} {old : AccountInfo} {c : Option Bytes}
    {v : View} (hs : acc.storage = []) (h1 : Before db a old) (h2 : CodeIs db old c)
    (h3 : v.balance = old.balance) (h4 : v.nonce = old.nonce) (h5 : v.code = c.getD []) :
    IsBefore db a acc v := ⟨⟨old, c, h1, h2, h3, h4, h5⟩, fun k s h => by rw [hs] at h; cases h⟩

end ApplyExample
open ApplyExample

/-- **C85 fails for parity:** an account that was not created and got code (the delegation of EIP-7702) has an
entry, but the entry says that its code did not change. -/
theorem C85_parity_refuted_code : ∃ (db : DB Unit) (state : List (Address × Account)) (diff : StateDiff)
    (a : Address) (acc : Account) (v0 v : View) (e : AccountDiff), StateMap state ∧
    populateStateDiff db [] state = .ok diff ∧ (a, acc) ∈ state ∧ IsBefore db a acc v0 ∧ IsAfter db acc v0 v ∧
    acc.isSelfdestructed = false ∧ get? diff a = some e ∧ e.code = .unchanged ∧ v0.code = [] ∧ v.code = delegate ∧
    applyParity v0 (get? diff a) ≠ v := by
  have hst : StateMap [((1 : Address), sets)] := stateMap_of (by decide) (by decide)
  have hb : IsBefore db 1 sets ⟨100, 5, [], fun _ => 0⟩ :=
    noSlots (old := ⟨100, 5, KECCAK_EMPTY, none⟩) (c := none) rfl (.known _ rfl) (.empty rfl rfl) rfl rfl rfl
  have ha : IsAfter db sets ⟨100, 5, [], fun _ => 0⟩ ⟨100, 6, delegate, fun _ => 0⟩ :=
    ⟨(nomatch ·), fun _ => rfl, fun _ => rfl, fun _ => ⟨some delegate, .inline _ rfl, rfl⟩,
      fun _ _ _ h => (nomatch h), fun _ _ _ => rfl⟩
  refine ⟨db, [(1, sets)], _, 1, sets, ⟨100, 5, [], fun _ => 0⟩, ⟨100, 6, delegate, fun _ => 0⟩, _, hst, rfl,
    by simp, hb, ha, rfl, rfl, rfl, rfl, rfl, ?_⟩
  intro h
  rcases ((C85_parity_exact db _ _ hst rfl 1 sets (by simp) _ _ hb ha).1 rfl).mp h with h | h <;>
    exact absurd h (by decide)

/-- **C85 fails for parity:** the entry of a contract that was destroyed says that its nonce and its code did
not change. -/
theorem C85_parity_refuted_destroyed : ∃ (db : DB Unit) (state : List (Address × Account)) (diff : StateDiff)
    (a : Address) (acc : Account) (v0 v : View) (e : AccountDiff), StateMap state ∧
    populateStateDiff db [] state = .ok diff ∧ (a, acc) ∈ state ∧ IsBefore db a acc v0 ∧ IsAfter db acc v0 v ∧
    acc.isSelfdestructed = true ∧ get? diff a = some e ∧ e.nonce = .unchanged ∧ e.code = .unchanged ∧
    v0.nonce = 1 ∧ v = View.empty ∧ applyParity v0 (get? diff a) ≠ v := by
  have hst : StateMap [((6 : Address), destroyed)] := stateMap_of (by decide) (by decide)
  have hb : IsBefore db 6 destroyed ⟨10, 1, code, fun _ => 0⟩ :=
    noSlots (old := ⟨10, 1, 44, none⟩) (c := some code) rfl (.known _ rfl) (.stored _ rfl (by decide) rfl) rfl
      rfl rfl
  have ha : IsAfter db destroyed ⟨10, 1, code, fun _ => 0⟩ View.empty :=
    ⟨fun _ => rfl, (nomatch ·), (nomatch ·), (nomatch ·), (nomatch ·), (nomatch ·)⟩
  refine ⟨db, [(6, destroyed)], _, 6, destroyed, ⟨10, 1, code, fun _ => 0⟩, _, _, hst, rfl, by simp, hb, ha, rfl,
    rfl, rfl, rfl, rfl, rfl, ?_⟩
  intro h
  obtain ⟨_, h, _⟩ := ((C85_parity_exact db _ _ hst rfl 6 destroyed (by simp) _ _ hb ha).2.2 rfl rfl).mp h
  exact absurd h (by decide)

/-- **C85 fails for geth:** an account that drops its code (the delegation of EIP-7702) is shown after without
code, as are accounts that keep their code. -/
theorem C85_geth_refuted_code : ∃ (db : DB Unit) (state : List (Address × Account))
    (pre post : OMap Address AccountState) (a : Address) (acc : Account) (v0 v : View) (s : AccountState),
    StateMap state ∧ gethPrestateTraces db state ⟨some true⟩ = .ok (.diff pre post) ∧ (a, acc) ∈ state ∧
    IsBefore db a acc v0 ∧ IsAfter db acc v0 v ∧ acc.isSelfdestructed = false ∧ acc.isCreated = false ∧
    get? post a = some s ∧ s.code = none ∧ v0.code = code ∧ v.code = [] ∧
    applyGeth v0 (get? pre a) (get? post a) ≠ v := by
  have hst : StateMap [((2 : Address), drops)] := stateMap_of (by decide) (by decide)
  have hb : IsBefore db 2 drops ⟨3, 1, code, fun _ => 0⟩ :=
    noSlots (old := ⟨3, 1, 44, some code⟩) (c := some code) rfl (.known _ rfl) (.inline _ rfl) rfl rfl rfl
  have ha : IsAfter db drops ⟨3, 1, code, fun _ => 0⟩ ⟨3, 2, [], fun _ => 0⟩ :=
    ⟨(nomatch ·), fun _ => rfl, fun _ => rfl, fun _ => ⟨some [], .inline _ rfl, rfl⟩,
      fun _ _ _ h => (nomatch h), fun _ _ _ => rfl⟩
  refine ⟨db, [(2, drops)], _, _, 2, drops, ⟨3, 1, code, fun _ => 0⟩, ⟨3, 2, [], fun _ => 0⟩, _, hst, rfl,
    by simp, hb, ha, rfl, rfl, rfl, rfl, rfl, rfl, ?_⟩
  intro h
  obtain ⟨_, h, _⟩ := ((C85_geth_exact db _ ⟨some true⟩ _ _ hst rfl rfl 2 drops (by simp) _ _ hb ha).1 rfl).mp h
  rcases h with h | h <;> exact absurd h (by decide)

/-- **C85 fails for geth:** a contract that was destroyed and is otherwise shown unchanged is in neither
state. -/
theorem C85_geth_refuted_destroyed : ∃ (db : DB Unit) (state : List (Address × Account))
    (pre post : OMap Address AccountState) (a : Address) (acc : Account) (v0 v : View),
    StateMap state ∧ gethPrestateTraces db state ⟨some true⟩ = .ok (.diff pre post) ∧ (a, acc) ∈ state ∧
    IsBefore db a acc v0 ∧ IsAfter db acc v0 v ∧ acc.isSelfdestructed = true ∧ acc.isCreated = false ∧
    get? pre a = none ∧ get? post a = none ∧ v0.balance = 3 ∧ v = View.empty ∧
    applyGeth v0 (get? pre a) (get? post a) ≠ v := by
  have hst : StateMap [((2 : Address), poorly)] := stateMap_of (by decide) (by decide)
  have hb : IsBefore db 2 poorly ⟨3, 1, code, fun _ => 0⟩ :=
    noSlots (old := ⟨3, 1, 44, some code⟩) (c := some code) rfl (.known _ rfl) (.inline _ rfl) rfl rfl rfl
  have ha : IsAfter db poorly ⟨3, 1, code, fun _ => 0⟩ View.empty :=
    ⟨fun _ => rfl, (nomatch ·), (nomatch ·), (nomatch ·), (nomatch ·), (nomatch ·)⟩
  refine ⟨db, [(2, poorly)], _, _, 2, poorly, ⟨3, 1, code, fun _ => 0⟩, _, hst, rfl, by simp, hb, ha, rfl, rfl,
    rfl, rfl, rfl, rfl, ?_⟩
  intro h
  rcases ((C85_geth_exact db _ ⟨some true⟩ _ _ hst rfl rfl 2 poorly (by simp) _ _ hb ha).2.2 rfl rfl).mp h
    with h | h
  · simp [Differs, poorly, SlotChanged] at h
  · exact absurd (congrArg View.balance h) (by decide)

end Verif.Props
