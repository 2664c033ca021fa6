import Verif.Model.Parity
import Verif.Props.State
import Verif.Props.Prestate
import Verif.Spec.Unreliable
/-!
# C115: a database that fails is reported, and does not change the answer
-/
namespace Verif.Props
open Spec Parity OMap

theorem load_same {ε : Type} {bad good : DB ε} (h : SometimesFails bad good) {i : AccountInfo}
    (hc : CodeReadable bad i) : loadAccountCode bad i = loadAccountCode good i := by
  unfold loadAccountCode
  cases hi : i.code with
  | some c => rfl
  | none =>
    dsimp only
    split
    · rfl
    · rename_i hne
      obtain ⟨c, hc⟩ := hc hi hne
      rcases h.codeByHash i.codeHash with ⟨e, he⟩ | he
      · rw [he] at hc; cases hc
      · rw [he]

theorem account_same {ε : Type} {bad good : DB ε} (h : SometimesFails bad good) {a : Address} {i : AccountInfo}
    (hi : bad.account a = .ok i) : good.account a = .ok i := by
  unfold DB.account at *
  rcases h.basic a with ⟨e, he⟩ | he
  · rw [he] at hi; cases hi
  · rw [he] at hi; exact hi

theorem populate_same {ε : Type} {bad good : DB ε} (h : SometimesFails bad good) (state : List (Address × Account))
    (hc : ∀ e ∈ state, e.2.isCreated = true → CodeReadable bad e.2.info) (d0 d : StateDiff)
    (hd : populateStateDiff bad d0 state = .ok d) : populateStateDiff good d0 state = .ok d := by
  induction state generalizing d0 with
  | nil => exact hd
  | cons e rest ih =>
    obtain ⟨a, acc⟩ := e
    rw [populateStateDiff] at hd ⊢
    have hstep : ∀ d1, populateAccount bad d0 a acc = .ok d1 → populateAccount good d0 a acc = .ok d1 := by
      intro d1 h1
      unfold populateAccount at h1 ⊢
      by_cases hs : (acc.isSelfdestructed && acc.isCreated) = true
      · rw [if_pos hs] at h1 ⊢; exact h1
      rw [if_neg hs] at h1 ⊢
      dsimp only at h1 ⊢
      by_cases hcr : acc.isCreated = true
      · rw [if_pos hcr] at h1 ⊢
        rw [← load_same h (hc (a, acc) (by simp) hcr)]
        exact h1
      rw [if_neg hcr] at h1 ⊢
      cases hacc : bad.account a with
      | error e => rw [hacc] at h1; cases h1
      | ok i => rw [account_same h hacc]; rw [hacc] at h1; exact h1
    cases h1 : populateAccount bad d0 a acc with
    | error e => rw [h1] at hd; cases hd
    | ok d1 =>
      rw [hstep d1 h1]
      rw [h1] at hd
      exact ih (fun e he => hc e (List.mem_cons_of_mem _ he)) d1 hd

theorem default_same {ε : Type} {bad good : DB ε} (h : SometimesFails bad good) (state : List (Address × Account))
    (hc : ∀ e ∈ state, ∀ i, bad.account e.1 = .ok i → CodeReadable bad i) (m0 m : OMap Address AccountState)
    (hd : prestateDefault bad m0 state = .ok m) : prestateDefault good m0 state = .ok m := by
  induction state generalizing m0 with
  | nil => exact hd
  | cons e rest ih =>
    obtain ⟨a, acc⟩ := e
    rw [prestateDefault] at hd ⊢
    cases hacc : bad.account a with
    | error e => rw [hacc] at hd; cases hd
    | ok i =>
      rw [account_same h hacc]
      rw [hacc] at hd
      dsimp only at hd ⊢
      rw [← load_same h (hc (a, acc) (by simp) i hacc)]
      exact ih (fun e he => hc e (List.mem_cons_of_mem _ he)) _ hd

theorem diff_same {ε : Type} {bad good : DB ε} (h : SometimesFails bad good) (state : List (Address × Account))
    (hc : ∀ e ∈ state, ∀ i, bad.account e.1 = .ok i → CodeReadable bad i) (p0 q0 : OMap Address AccountState)
    (k0 : OMap Address (Bool × Bool)) (r)
    (hd : prestateDiffLoop bad p0 q0 k0 state = .ok r) : prestateDiffLoop good p0 q0 k0 state = .ok r := by
  induction state generalizing p0 q0 k0 with
  | nil => exact hd
  | cons e rest ih =>
    obtain ⟨a, acc⟩ := e
    rw [prestateDiffLoop] at hd ⊢
    cases hacc : bad.account a with
    | error e => rw [hacc] at hd; cases hd
    | ok i =>
      rw [account_same h hacc]
      rw [hacc] at hd
      dsimp only at hd ⊢
      rw [← load_same h (hc (a, acc) (by simp) i hacc)]
      exact ih (fun e he => hc e (List.mem_cons_of_mem _ he)) _ _ _ hd

theorem vmLoop_same {ε : Type} {bad good : DB ε} (h : SometimesFails bad good) (fuel : Nat) (root : VmTrace)
    (queue : List (List Nat)) (addrs : List Address) (v : VmTrace)
    (hd : populateLoop bad fuel root queue addrs = .ok v) : populateLoop good fuel root queue addrs = .ok v := by
  induction fuel generalizing root queue addrs with
  | zero =>
    cases queue with
    | nil => exact hd
    | cons p q => cases hd
  | succ fuel ih =>
    cases queue with
    | nil => exact hd
    | cons p q =>
      rw [populateLoop] at hd ⊢
      cases hat : root.at p with
      | none => rw [hat] at hd; cases hd
      | some curr =>
        rw [hat] at hd
        dsimp only at hd ⊢
        cases addrs with
        | nil => cases hd
        | cons addr addrs =>
          dsimp only at hd ⊢
          cases hacc : bad.account addr with
          | error e => rw [hacc] at hd; cases hd
          | ok i =>
            rw [account_same h hacc]
            rw [hacc] at hd
            dsimp only at hd ⊢
            by_cases hk : i.codeHash = KECCAK_EMPTY
            · rw [if_pos hk] at hd ⊢
              exact ih _ _ _ hd
            · rw [if_neg hk] at hd ⊢
              cases hcode : bad.codeByHash i.codeHash with
              | error e => rw [hcode] at hd; cases hd
              | ok c =>
                rw [hcode] at hd
                rcases h.codeByHash i.codeHash with ⟨e, he⟩ | he
                · rw [he] at hcode; cases hcode
                · rw [← he, hcode]
                  exact ih _ _ _ hd

/-- **C115, codes of a vmTrace.** Whatever reads of the database fail: if the codes are filled in without an
error, they are those of the database that does not fail. -/
theorem C115_vm {ε : Type} {bad good : DB ε} (h : SometimesFails bad good) (trace : VmTrace)
    (addrs : List Address) (v : VmTrace) (hd : populateVmTraceBytecodes bad trace addrs = .ok v) :
    populateVmTraceBytecodes good trace addrs = .ok v :=
  vmLoop_same h _ _ _ _ _ hd

/-- **C115, prestate** (partial: missing are codes whose reading fails, see the refutation). Whatever accounts
cannot be read: a prestate trace, in either mode, that is given without an error is the one the database gives
that does not fail, if the codes that are not loaded with the accounts can be read. -/
theorem C115_prestate_partial {ε : Type} {bad good : DB ε} (h : SometimesFails bad good)
    (state : List (Address × Account)) (cfg : PreStateConfig) (f : PreStateFrame)
    (hc : ∀ e ∈ state, ∀ i, bad.account e.1 = .ok i → CodeReadable bad i)
    (hd : gethPrestateTraces bad state cfg = .ok f) : gethPrestateTraces good state cfg = .ok f := by
  unfold gethPrestateTraces at hd ⊢
  split at hd
  · rename_i hm
    rw [if_pos hm]
    cases hr : prestateDefault bad [] state with
    | error e => rw [hr] at hd; cases hd
    | ok m =>
      rw [default_same h state hc [] m hr]
      rw [hr] at hd
      exact hd
  · rename_i hm
    rw [if_neg hm]
    cases hr : prestateDiffLoop bad [] [] [] state with
    | error e => rw [hr] at hd; cases hd
    | ok r =>
      rw [diff_same h state hc [] [] [] r hr]
      rw [hr] at hd
      exact hd

/-- **C115, parity** (partial: missing are codes of created accounts whose reading fails, see the refutation).
The same for the answer to any parity request. -/
theorem C115_parity_partial {ε : Type} {bad good : DB ε} (h : SometimesFails bad good) (nodes : List Node)
    (gasUsed : Nat) (output : Option Bytes) (state : List (Address × Account)) (types : List TraceType)
    (hc : ∀ e ∈ state, e.2.isCreated = true → CodeReadable bad e.2.info) (r : TraceResults)
    (hd : intoTraceResultsWithState bad nodes gasUsed output state types = .ok r) :
    intoTraceResultsWithState good nodes gasUsed output state types = .ok r := by
  unfold intoTraceResultsWithState at hd ⊢
  dsimp only at hd ⊢
  generalize (if types.contains .VmTrace = true then _ else _ : R (List Address)) = addrs at hd ⊢
  cases addrs with
  | error e => exact hd
  | ok addrs =>
    dsimp only at hd ⊢
    cases hres : intoTraceResults nodes gasUsed output types with
    | error e => rw [hres] at hd; exact hd
    | ok res =>
      rw [hres] at hd
      dsimp only at hd ⊢
      have hvm : ∀ (diff : Option StateDiff) (r : TraceResults),
          (match (match res.vmTrace with
              | none => .ok none
              | some v => match populateVmTraceBytecodes bad v addrs with
                | .error e => .error e
                | .ok v => .ok (some v) : Except (Fail ε) (Option VmTrace)) with
            | .error e => .error e
            | .ok vm => .ok { res with stateDiff := diff, vmTrace := vm } : Except (Fail ε) TraceResults) = .ok r →
          (match (match res.vmTrace with
              | none => .ok none
              | some v => match populateVmTraceBytecodes good v addrs with
                | .error e => .error e
                | .ok v => .ok (some v) : Except (Fail ε) (Option VmTrace)) with
            | .error e => .error e
            | .ok vm => .ok { res with stateDiff := diff, vmTrace := vm } : Except (Fail ε) TraceResults) = .ok r := by
        intro diff r hr
        cases hv : res.vmTrace with
        | none => rw [hv] at hr; exact hr
        | some v =>
          rw [hv] at hr
          dsimp only at hr ⊢
          cases hp : populateVmTraceBytecodes bad v addrs with
          | error e => rw [hp] at hr; cases hr
          | ok w => rw [C115_vm h v addrs w hp]; rw [hp] at hr; exact hr
      cases hsd : res.stateDiff with
      | none => rw [hsd] at hd; exact hvm _ _ hd
      | some d =>
        rw [hsd] at hd
        dsimp only at hd ⊢
        cases hp : populateStateDiff bad d state with
        | error e => rw [hp] at hd; cases hd
        | ok d1 =>
          rw [populate_same h state hc d d1 hp]
          rw [hp] at hd
          exact hvm _ _ hd

namespace Unreliable
/-- A contract whose code is kept apart from the account. -/
def contract : AccountInfo := ⟨7, 1, 0x1234, none⟩
/-- A database with that contract. -/
def good : DB String := ⟨fun a => .ok (if a = 0xa then some contract else none), fun _ => .ok [0x60, 0x01]⟩
/-- The same, but codes cannot be read. -/
def noCodes : DB String := ⟨good.basic, fun _ => .error "disk"⟩
/-- The same, but the account 0xb cannot be read. -/
def noAccount : DB String := ⟨fun a => if a = 0xb then .error "disk" else good.basic a, good.codeByHash⟩
/-- The contract is touched. -/
def touched : List (Address × Account) := [(0xa, ⟨contract, [], false, false⟩)]
/-- The contract was created. -/
def created : List (Address × Account) := [(0xa, ⟨contract, [], true, false⟩)]
end Unreliable

open Unreliable in
/-- **C115, refuted.** If the code of a contract cannot be read, its prestate is given without code and without
an error, and the state diff says that it was created with no code. -/
theorem C115_refuted :
    SometimesFails noCodes good ∧
    gethPrestateTraces noCodes touched {} = .ok (.default [(0xa, ⟨some 7, none, some 1, []⟩)]) ∧
    gethPrestateTraces good touched {} = .ok (.default [(0xa, ⟨some 7, some [0x60, 0x01], some 1, []⟩)]) ∧
    populateStateDiff noCodes [] created = .ok [(0xa, ⟨.added 7, .added [], .added 1, []⟩)] ∧
    populateStateDiff good [] created = .ok [(0xa, ⟨.added 7, .added [0x60, 0x01], .added 1, []⟩)] :=
  ⟨⟨fun _ => .inr rfl, fun _ => .inl ⟨_, rfl⟩⟩, rfl, rfl, rfl, rfl⟩

open Unreliable in
/-- A database that fails for the account 0xb meets the hypotheses of both theorems, and gives an answer about
the contract 0xa. -/
example : SometimesFails noAccount good ∧ (∃ a e, noAccount.basic a = .error e) ∧
    (∀ e ∈ touched, ∀ i, noAccount.account e.1 = .ok i → CodeReadable noAccount i) ∧
    (∀ e ∈ created, e.2.isCreated = true → CodeReadable noAccount e.2.info) ∧
    (∃ f, gethPrestateTraces noAccount touched {} = .ok f) ∧
    gethPrestateTraces noAccount [(0xb, ⟨contract, [], false, false⟩)] {} = .error "disk" := by
  refine ⟨⟨fun a => ?_, fun _ => .inr rfl⟩, ⟨0xb, "disk", rfl⟩, fun _ _ _ _ _ _ => ⟨_, rfl⟩, fun _ _ _ _ _ => ⟨_, rfl⟩,
    ⟨_, rfl⟩, rfl⟩
  unfold noAccount
  dsimp only
  split
  · exact .inl ⟨_, rfl⟩
  · exact .inr rfl

/-! ## Exactly which answers are right -/

/-- The code shown is the same exactly if it was not lost. -/
theorem shown_same {ε : Type} {bad good : DB ε} (h : SometimesFails bad good) (i : AccountInfo) :
    ((loadAccountCode bad i).filter (fun c => !c.isEmpty) =
      (loadAccountCode good i).filter (fun c => !c.isEmpty) ↔ ¬ CodeLost bad good i) ∧
    ((loadAccountCode bad i).getD [] = (loadAccountCode good i).getD [] ↔ ¬ CodeLost bad good i) := by
  unfold loadAccountCode CodeLost
  cases hi : i.code with
  | some c => simp
  | none =>
    dsimp only
    by_cases hk : i.codeHash = KECCAK_EMPTY
    · simp [hk]
    · rw [if_neg hk, if_neg hk]
      rcases h.codeByHash i.codeHash with ⟨e, he⟩ | he
      · cases hg : good.codeByHash i.codeHash with
        | error e' => simp [he]
        | ok c => cases c <;> simp [he, hk, Option.filter]
      · rw [← he]
        cases hb : bad.codeByHash i.codeHash <;> simp

theorem default_shown {ε : Type} {bad good : DB ε} (h : SometimesFails bad good)
    (state : List (Address × Account))
    (hc : ∀ e ∈ state, ∀ i, bad.account e.1 = .ok i → ¬ CodeLost bad good i) (m0 m : OMap Address AccountState)
    (hd : prestateDefault bad m0 state = .ok m) : prestateDefault good m0 state = .ok m := by
  induction state generalizing m0 with
  | nil => exact hd
  | cons e rest ih =>
    obtain ⟨a, acc⟩ := e
    rw [prestateDefault] at hd ⊢
    cases hacc : bad.account a with
    | error e => rw [hacc] at hd; cases hd
    | ok i =>
      rw [account_same h hacc]
      rw [hacc] at hd
      dsimp only [AccountState.fromAccountInfo] at hd ⊢
      rw [← (shown_same h i).1.2 (hc (a, acc) (by simp) i hacc)]
      exact ih (fun e he => hc e (List.mem_cons_of_mem _ he)) _ hd

/-- **C115, prestate, exactly.** Whatever reads fail: a prestate that is given without an error is the one the
database gives that does not fail if and only if no account of the state has code that only the latter can
read. -/
theorem C115_prestate_exact {ε : Type} {bad good : DB ε} (h : SometimesFails bad good)
    (state : List (Address × Account)) (hst : StateMap state) (cfg : PreStateConfig)
    (hcfg : cfg.diffMode ≠ some true) (f : PreStateFrame) (hd : gethPrestateTraces bad state cfg = .ok f) :
    gethPrestateTraces good state cfg = .ok f ↔
      ∀ e ∈ state, ∀ i, bad.account e.1 = .ok i → ¬ CodeLost bad good i := by
  have hm := default_of hcfg
  unfold gethPrestateTraces at hd ⊢
  rw [if_pos hm] at hd ⊢
  have hb := prestateDefault_spec bad (sorted_nil : Sorted ([] : OMap Address AccountState)) hst.addresses
  cases hr : prestateDefault bad [] state with
  | error e => rw [hr] at hd; cases hd
  | ok m =>
    rw [hr] at hd hb
    cases hd
    constructor
    · intro hg e he i hi
      have hgs := prestateDefault_spec good (sorted_nil : Sorted ([] : OMap Address AccountState)) hst.addresses
      cases hr' : prestateDefault good [] state with
      | error e => rw [hr'] at hg; cases hg
      | ok m' =>
        rw [hr'] at hg hgs
        cases hg
        obtain ⟨i1, h1, h2⟩ := hb.2.2 e.1 e.2 he
        obtain ⟨i2, h3, h4⟩ := hgs.2.2 e.1 e.2 he
        rw [hi] at h1; cases h1
        rw [account_same h hi] at h3; cases h3
        rw [h2] at h4
        apply (shown_same h i).1.1
        have := congrArg AccountState.code (Option.some.inj h4)
        exact this
    · intro hc
      rw [default_shown h state hc [] m hr]

theorem diff_shown {ε : Type} {bad good : DB ε} (h : SometimesFails bad good) (state : List (Address × Account))
    (hc : ∀ e ∈ state, ∀ i, bad.account e.1 = .ok i → ¬ CodeLost bad good i) (p0 q0 : OMap Address AccountState)
    (k0 : OMap Address (Bool × Bool)) (r)
    (hd : prestateDiffLoop bad p0 q0 k0 state = .ok r) : prestateDiffLoop good p0 q0 k0 state = .ok r := by
  induction state generalizing p0 q0 k0 with
  | nil => exact hd
  | cons e rest ih =>
    obtain ⟨a, acc⟩ := e
    rw [prestateDiffLoop] at hd ⊢
    cases hacc : bad.account a with
    | error e => rw [hacc] at hd; cases hd
    | ok i =>
      rw [account_same h hacc]
      rw [hacc] at hd
      dsimp only [AccountState.fromAccountInfo] at hd ⊢
      rw [← (shown_same h i).1.2 (hc (a, acc) (by simp) i hacc)]
      exact ih (fun e he => hc e (List.mem_cons_of_mem _ he)) _ _ _ hd

theorem before_account {ε : Type} {db : DB ε} {a : Address} {i : AccountInfo} (h : Before db a i) :
    db.account a = .ok i := by
  unfold DB.account
  cases h <;> simp_all
  rfl

theorem codeIs_lost {ε : Type} {bad good : DB ε} {i : AccountInfo} (h : CodeLost bad good i) {c c' : Option Bytes}
    (hb : CodeIs bad i c) (hg : CodeIs good i c') : shownCode c = none ∧ shownCode c' ≠ none := by
  obtain ⟨h1, h2, ⟨e, h3⟩, x, h4, h5⟩ := h
  cases hb <;> cases hg <;> simp_all
  cases x <;> simp_all [shownCode]

/-- **C115, prestate diff, exactly.** The same for diff mode, if no account that was created had code before. -/
theorem C115_prestate_diff_exact {ε : Type} {bad good : DB ε} (h : SometimesFails bad good)
    (state : List (Address × Account)) (hst : StateMap state) (cfg : PreStateConfig)
    (hcfg : cfg.diffMode = some true) (f : PreStateFrame) (hd : gethPrestateTraces bad state cfg = .ok f)
    (hcr : ∀ e ∈ state, e.2.isCreated = true → ∀ i, bad.account e.1 = .ok i → ¬ CodeLost bad good i) :
    gethPrestateTraces good state cfg = .ok f ↔
      ∀ e ∈ state, ∀ i, bad.account e.1 = .ok i → ¬ CodeLost bad good i := by
  constructor
  · intro hg e he i hi hlost
    obtain ⟨pre, post, rfl, hb⟩ := C34_exact bad state cfg f hst hcfg hd
    obtain ⟨pre', post', heq, hb'⟩ := C34_exact good state cfg _ hst hcfg hg
    cases heq
    obtain ⟨old, o1, ⟨c, c1, c2, _, _⟩, o3⟩ := hb.touched e.1 e.2 he
    obtain ⟨old', p1, ⟨c', d1, d2, _, _⟩, p3⟩ := hb'.touched e.1 e.2 he
    have e1 := before_account o1
    rw [hi] at e1; cases e1
    have e2 := before_account p1
    rw [account_same h hi] at e2; cases e2
    obtain ⟨s1, s2⟩ := codeIs_lost hlost c1 d1
    have hnc : e.2.isCreated = false := by
      cases hx : e.2.isCreated with
      | false => rfl
      | true => exact absurd hlost (hcr e he hx i hi)
    have hlisted : ∃ s, get? pre e.1 = some s := by
      by_cases hp : shownCode c = shownCode e.2.info.code
      · exact d2.2 ⟨hnc, .inr (.inr (.inl (fun hq => s2 (by rw [hq, ← hp, s1]))))⟩
      · exact c2.2 ⟨hnc, .inr (.inr (.inl hp))⟩
    obtain ⟨s, hs⟩ := hlisted
    obtain ⟨x, x1, x2⟩ := (o3 s hs).code
    obtain ⟨y, y1, y2⟩ := (p3 s hs).code
    obtain ⟨z1, z2⟩ := codeIs_lost hlost x1 y1
    rw [x2, z1] at y2
    exact z2 y2.symm
  · intro hc
    have hm : ¬ cfg.isDefaultMode = true := by
      simp [PreStateConfig.isDefaultMode, PreStateConfig.isDiffMode, hcfg]
    unfold gethPrestateTraces at hd ⊢
    rw [if_neg hm] at hd ⊢
    cases hr : prestateDiffLoop bad [] [] [] state with
    | error e => rw [hr] at hd; cases hd
    | ok r =>
      rw [diff_shown h state hc [] [] [] r hr]
      rw [hr] at hd
      exact hd

/-- **C115, state diff, exactly.** Whatever reads fail: a state diff that is given without an error is the one
the database gives that does not fail if and only if no account that was created, and not destroyed again, has
code that only the latter can read. -/
theorem C115_state_diff_exact {ε : Type} {bad good : DB ε} (h : SometimesFails bad good)
    (state : List (Address × Account)) (hst : StateMap state) (d : StateDiff)
    (hd : populateStateDiff bad [] state = .ok d) :
    populateStateDiff good [] state = .ok d ↔
      ∀ e ∈ state, e.2.isCreated = true → e.2.isSelfdestructed = false → ¬ CodeLost bad good e.2.info := by
  have hb := populateStateDiff_spec bad (sorted_nil : Sorted ([] : StateDiff)) hst.addresses
  constructor
  · intro hg e he hcr hsd
    have hgs := populateStateDiff_spec good (sorted_nil : Sorted ([] : StateDiff)) hst.addresses
    rw [hd] at hb
    rw [hg] at hgs
    have h1 := hb.2.2 e.1 e.2 he
    have h2 := hgs.2.2 e.1 e.2 he
    simp only [entryAfter, hcr, hsd, Bool.false_and, Bool.false_eq_true, if_false, if_true,
      Except.ok.injEq] at h1 h2
    rw [← h1] at h2
    have h3 := congrArg AccountDiff.code (Option.some.inj h2)
    simp only [Delta.added.injEq] at h3
    exact (shown_same h _).2.1 h3.symm
  · intro hc
    clear hb hst
    generalize ([] : StateDiff) = d0 at hd ⊢
    induction state generalizing d0 with
    | nil => exact hd
    | cons e rest ih =>
      obtain ⟨a, acc⟩ := e
      rw [populateStateDiff] at hd ⊢
      have hstep : ∀ d1, populateAccount bad d0 a acc = .ok d1 → populateAccount good d0 a acc = .ok d1 := by
        intro d1 h1
        unfold populateAccount at h1 ⊢
        by_cases hs : (acc.isSelfdestructed && acc.isCreated) = true
        · rw [if_pos hs] at h1 ⊢; exact h1
        rw [if_neg hs] at h1 ⊢
        dsimp only at h1 ⊢
        by_cases hcr : acc.isCreated = true
        · rw [if_pos hcr] at h1 ⊢
          rw [← (shown_same h _).2.2 (hc (a, acc) (by simp) hcr (by simpa [hcr] using hs))]
          exact h1
        rw [if_neg hcr] at h1 ⊢
        cases hacc : bad.account a with
        | error e => rw [hacc] at h1; cases h1
        | ok i => rw [account_same h hacc]; rw [hacc] at h1; exact h1
      cases h1 : populateAccount bad d0 a acc with
      | error e => rw [h1] at hd; cases hd
      | ok d1 =>
        rw [hstep d1 h1]
        rw [h1] at hd
        exact ih (fun e he => hc e (List.mem_cons_of_mem _ he)) d1 hd

open Unreliable in
/-- Both outcomes occur: the code of 0xa is lost if codes cannot be read, and not if another account cannot. -/
example : StateMap touched ∧ CodeLost noCodes good contract ∧ ¬ CodeLost noAccount good contract ∧
    (∃ d, populateStateDiff noCodes [] created = .ok d) ∧
    (∃ f, gethPrestateTraces noCodes touched { diffMode := some true } = .ok f) ∧
    (∀ e ∈ touched, e.2.isCreated = false) := by
  refine ⟨⟨?_, ?_⟩, ⟨rfl, by decide, ⟨_, rfl⟩, _, by decide, rfl⟩, ?_, ⟨_, rfl⟩, ⟨_, rfl⟩, by simp [touched]⟩
  · simp [touched, Distinct]
  · intro a acc hm
    simp only [touched, List.mem_singleton] at hm
    cases hm
    exact List.Pairwise.nil
  · rintro ⟨_, _, ⟨e, he⟩, _⟩
    cases he

end Verif.Props
