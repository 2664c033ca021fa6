import Verif.Props.StructLogs
/-!
# The limit on struct logs: C118
-/
namespace Verif.Props
open Spec Rec

/-- What a limit leaves of a list: its first entries, or all if no limit is given or it is zero. -/
def keepFirst {α : Type} : Option Nat → List α → List α
  | none, l => l
  | some 0, l => l
  | some n, l => l.take n

/-- The limit asks for nothing to be left out of so many entries. -/
def AllFit (limit : Option Nat) (count : Nat) : Prop := ∀ n, limit = some n → n = 0 ∨ count ≤ n

theorem keepFirst_length {α : Type} (limit : Option Nat) (l : List α) :
    (keepFirst limit l).length = l.length ↔ AllFit limit l.length := by
  unfold AllFit
  cases limit with
  | none => simp [keepFirst]
  | some n =>
    cases n with
    | zero => simp [keepFirst]
    | succ n =>
      simp only [keepFirst, List.length_take, Option.some.injEq]
      constructor
      · rintro h m rfl; right; omega
      · intro h
        have := h (n + 1) rfl
        omega

theorem keepFirst_all {α : Type} {limit : Option Nat} {l : List α} (h : AllFit limit l.length) :
    keepFirst limit l = l := by
  cases limit with
  | none => rfl
  | some n =>
    cases n with
    | zero => rfl
    | succ n =>
      have := h (n + 1) rfl
      exact List.take_of_length_le (by omega)

/-- **C118, exactly.** For every execution and all options: the struct logs are the instructions in the
order of execution up to the limit if and only if there are no more instructions than the limit (or
it is not given, or zero): the instructions beyond the limit are listed too. -/
theorem C118_exact (t : Tx) (opts : GethOptions) (gas : Nat) (ret : Bytes)
    (hwf : t.WF) (hsafe : Safe (Config.fromGethConfig opts) t.body) (hatt : Attached false t.body) :
    ∃ s out, TI.run (Config.fromGethConfig opts) TI.new t.events = .ok s ∧
      gethTraces s.arena gas ret opts = .ok out ∧
      out.structLogs.map readLog = (chron t).map expectedLog ∧
      (out.structLogs.map readLog = (keepFirst opts.limit (chron t)).map expectedLog ↔
        AllFit opts.limit (chron t).length) := by
  obtain ⟨h1, h2, h3⟩ := fromGethConfig_records opts t
  obtain ⟨s, out, hr, hg, _, _, _, h⟩ := C16_chronological (Config.fromGethConfig opts) t
    opts gas ret hwf hsafe hatt h1 h2 h3
  refine ⟨s, out, hr, hg, h, ?_⟩
  rw [h]
  constructor
  · intro he
    have := congrArg List.length he
    rw [List.length_map, List.length_map] at this
    exact (keepFirst_length _ _).1 this.symm
  · intro he
    rw [keepFirst_all he]

/-- **C118** (partial: for executions of no more instructions than the limit): the struct logs are the
instructions up to the limit. -/
theorem C118_limit_partial (t : Tx) (opts : GethOptions) (gas : Nat) (ret : Bytes)
    (hwf : t.WF) (hsafe : Safe (Config.fromGethConfig opts) t.body) (hatt : Attached false t.body)
    (hfit : AllFit opts.limit (chron t).length) :
    ∃ s out, TI.run (Config.fromGethConfig opts) TI.new t.events = .ok s ∧
      gethTraces s.arena gas ret opts = .ok out ∧
      out.structLogs.map readLog = (keepFirst opts.limit (chron t)).map expectedLog := by
  obtain ⟨s, out, hr, hg, _, h⟩ := C118_exact t opts gas ret hwf hsafe hatt
  exact ⟨s, out, hr, hg, h.2 hfit⟩

/-- **C118 is violated**: with the limit 3 nine instructions are listed. -/
theorem C118_refuted : Example.tx.WF ∧ (∀ cfg, Safe cfg Example.tx.body) ∧
    Attached false Example.tx.body ∧
    ∃ s out, TI.run (Config.fromGethConfig { limit := some 3 }) TI.new Example.tx.events = .ok s ∧
      gethTraces s.arena 5 [] { limit := some 3 } = .ok out ∧ out.structLogs.length = 9 := by
  refine ⟨Example.wf, Example.safe, example_attached, ?_⟩
  obtain ⟨s, out, hr, hg, h, _⟩ := C118_exact Example.tx { limit := some 3 } 5 [] Example.wf
    (Example.safe _) example_attached
  refine ⟨s, out, hr, hg, ?_⟩
  have := congrArg List.length h
  rw [List.length_map, List.length_map] at this
  rw [this]
  decide

/-- The hypotheses are met by an execution of nine instructions and the limit 9. -/
example : Example.tx.WF ∧ Safe (Config.fromGethConfig { limit := some 9 }) Example.tx.body ∧
    Attached false Example.tx.body ∧ AllFit (some 9) (chron Example.tx).length ∧
    (keepFirst (some 4) (chron Example.tx)).length = 4 := by
  refine ⟨Example.wf, Example.safe _, example_attached, ?_, by decide⟩
  rintro n h
  cases h
  right
  decide

end Verif.Props
