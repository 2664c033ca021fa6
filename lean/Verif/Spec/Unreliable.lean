import Verif.Model.State
/-! Databases that sometimes fail. -/
namespace Verif.Spec

/-- The first database is the second one, except that some reads fail. -/
structure SometimesFails {ε : Type} (bad good : DB ε) : Prop where
  basic : ∀ a, (∃ e, bad.basic a = .error e) ∨ bad.basic a = good.basic a
  codeByHash : ∀ h, (∃ e, bad.codeByHash h = .error e) ∨ bad.codeByHash h = good.codeByHash h

/-- Code of the account that was not loaded with it can be read. -/
def CodeReadable {ε : Type} (db : DB ε) (i : AccountInfo) : Prop :=
  i.code = none → i.codeHash ≠ KECCAK_EMPTY → ∃ c, db.codeByHash i.codeHash = .ok c

/-- The account has code, which was not loaded with it, which the second database can read and the first
cannot. -/
def CodeLost {ε : Type} (bad good : DB ε) (i : AccountInfo) : Prop :=
  i.code = none ∧ i.codeHash ≠ KECCAK_EMPTY ∧ (∃ e, bad.codeByHash i.codeHash = .error e) ∧
    ∃ c, c ≠ [] ∧ good.codeByHash i.codeHash = .ok c

end Verif.Spec
