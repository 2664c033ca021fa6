import Verif.Spec.JsDb
import Verif.Props.JsValues
/-! C59: the database object of JavaScript tracers. -/
namespace Verif.Props
open Spec

theorem denotes_address {v : JsBuf} {a : Bytes} (h : Denotes v 20 a) :
    ∃ b, fromBuf v = some b ∧ bytesToAddress b = .ok a := by
  obtain ⟨b, h1, h2, h3⟩ := h
  obtain ⟨x, hx, hl, hn⟩ := (C46_conversions b).1
  refine ⟨b, h1, ?_⟩
  rw [hx]
  rw [show (256 : Nat) ^ 20 = 2 ^ 160 by decide] at h3
  rw [beNat_inj x a (by rw [hl, h2]) (by rw [hn, h3])]

theorem denotes_hash {v : JsBuf} {a : Bytes} (h : Denotes v 32 a) :
    ∃ b, fromBuf v = some b ∧ bytesToHash b = .ok a := by
  obtain ⟨b, h1, h2, h3⟩ := h
  obtain ⟨x, hx, hl, hn⟩ := (C46_conversions b).2
  refine ⟨b, h1, ?_⟩
  rw [hx]
  rw [show (256 : Nat) ^ 32 = 2 ^ 256 by decide] at h3
  rw [beNat_inj x a (by rw [hl, h2]) (by rw [hn, h3])]

theorem readBasic_live (st : JsState) (d : JsDatabase) (v : JsBuf) (a : Bytes)
    (hv : Denotes v 20 a) : jsReadBasic (some st) (some d) v =
      .ok (match st.account a with
        | some acc => some (some acc)
        | none => d.basic a) := by
  obtain ⟨b, h1, h2⟩ := denotes_address hv
  simp only [jsReadBasic, h1, h2, stateRefAccount]
  cases st.account a with
  | some acc => rfl
  | none => cases d.basic a <;> rfl

/-- C59, partial: balance and nonce are those of the current state (zero for an account that does not
exist), and an error is thrown only if the database fails; `exists`, `getCode` and `getState` are right
if the account was not looked for in vain, if the code hash refers to code that the database has
without zeros behind it, and if the slot was not loaded or still has the database's value. What is missing: see `C59_refuted`. -/
theorem C59_current_partial (st : JsState) (d : JsDatabase) (hst : StateOK st) (v : JsBuf) (a : Bytes)
    (hv : Denotes v 20 a) :
    jsGetBalance (some st) (some d) v =
      .ok ((accountNow st d a).map (fun acc => (acc.map JsAccount.balance).getD 0)) ∧
    jsGetNonce (some st) (some d) v =
      .ok ((accountNow st d a).map (fun acc => (acc.map JsAccount.nonce).getD 0)) ∧
    ((∀ acc, st.account a = some acc → acc.notExisting = false) →
      jsExists (some st) (some d) v = .ok ((accountNow st d a).map Option.isSome)) ∧
    ((∀ acc, accountNow st d a = some (some acc) →
        (∀ code, acc.code = some code → ∃ b, d.codeByHash acc.codeHash = some b ∧ b.bytecode = code) ∧
        (∀ b, d.codeByHash acc.codeHash = some b → b.bytecode = b.originalBytes)) →
      jsGetCode (some st) (some d) v = .ok (codeNow st d a)) ∧
    (∀ (w : JsBuf) (k : Bytes), Denotes w 32 k →
      (∀ x, st.slot a k = some x → d.storage a k = some x) →
      jsGetState (some d) v w = .ok (slotNow st d a k)) := by
  have hb := readBasic_live st d v a hv
  refine ⟨?_, ?_, ?_, ?_, ?_⟩
  · simp only [jsGetBalance, hb, accountNow]
    cases ha : st.account a with
    | none => cases d.basic a <;> rfl
    | some acc =>
      simp only
      cases hn : acc.notExisting with
      | false => rfl
      | true => simp [(hst a acc ha hn).1]
  · simp only [jsGetNonce, hb, accountNow]
    cases ha : st.account a with
    | none => cases d.basic a <;> rfl
    | some acc =>
      simp only
      cases hn : acc.notExisting with
      | false => rfl
      | true => simp [(hst a acc ha hn).2.1]
  · intro hne
    simp only [jsExists, hb, accountNow]
    cases ha : st.account a with
    | none => cases d.basic a <;> rfl
    | some acc => simp [hne acc ha]
  · intro hcode
    simp only [jsGetCode, hb, codeNow]
    have fin : ∀ acc : JsAccount, accountNow st d a = some (some acc) →
        (if acc.codeHash = keccakEmpty then (.ok (some []) : R (Option Bytes))
          else .ok ((d.codeByHash acc.codeHash).map JsBytecode.bytecode)) =
        .ok (if acc.codeHash = keccakEmpty then some [] else
          match acc.code with
          | some code => some code
          | none => (d.codeByHash acc.codeHash).map JsBytecode.originalBytes) := by
      intro acc hacc
      by_cases he : acc.codeHash = keccakEmpty
      · simp [he]
      · rw [if_neg he, if_neg he]
        cases hc : acc.code with
        | none =>
          cases hb : d.codeByHash acc.codeHash with
          | none => rfl
          | some b => simp [(hcode acc hacc).2 b hb]
        | some code =>
          obtain ⟨b, h1, h2⟩ := (hcode acc hacc).1 code hc
          simp [h1, h2]
    cases ha : st.account a with
    | none =>
      cases hbas : d.basic a with
      | none => simp [accountNow, ha, hbas]
      | some o =>
        cases o with
        | none => simp [accountNow, ha, hbas]
        | some acc =>
          have hnow : accountNow st d a = some (some acc) := by simp [accountNow, ha, hbas]
          rw [hnow]
          simp only [Option.map_some, Option.getD_some]
          exact fin acc hnow
    | some acc =>
      cases hn : acc.notExisting with
      | true =>
        have hnow : accountNow st d a = some none := by simp [accountNow, ha, hn]
        rw [hnow]
        simp [(hst a acc ha hn).2.2]
      | false =>
        have hnow : accountNow st d a = some (some acc) := by simp [accountNow, ha, hn]
        rw [hnow]
        simp only [Option.map_some, Option.getD_some]
        exact fin acc hnow
  · intro w k hw hk
    obtain ⟨b, h1, h2⟩ := denotes_address hv
    obtain ⟨b', h3, h4⟩ := denotes_hash hw
    simp only [jsGetState, h1, h2, h3, h4, slotNow]
    cases hs : st.slot a k with
    | none => rfl
    | some x => rw [hk x hs]

/-- A state in which the transaction created a contract and wrote a slot of it, and looked for an
account in vain. -/
def busyState : JsState where
  account a :=
    if a = List.replicate 20 0 then some ⟨5, 1, [1], some [0x60], false⟩
    else if a = List.replicate 19 0 ++ [1] then some ⟨0, 0, keccakEmpty, none, true⟩
    else none
  slot a _ := if a = List.replicate 20 0 then some 7 else none

/-- An empty database. -/
def emptyDb : JsDatabase where
  basic _ := some none
  codeByHash _ := none
  storage _ _ := some 0

/-- A database with an account whose code `PUSH1 7` is analysed. -/
def analyzedDb : JsDatabase where
  basic _ := some (some ⟨5, 1, [1], none, false⟩)
  codeByHash _ := some (JsBytecode.raw [0x60, 7]).analyze
  storage _ _ := some 0

/-- A state with no accounts loaded. -/
def noState : JsState where
  account _ := none
  slot _ _ := none

/-- Analysing keeps the original code, but the code that is run has 33 zeros behind it. -/
theorem C59_analyzed (code : Bytes) :
    (JsBytecode.raw code).analyze.originalBytes = code ∧
    (JsBytecode.raw code).analyze.bytecode = code ++ List.replicate 33 0 := by
  simp [JsBytecode.analyze, JsBytecode.originalBytes, JsBytecode.bytecode]

/-- C59 fails: `getState` gives the old value of a slot that the transaction wrote; `getCode` throws
for a contract that the transaction created, and gives 33 zeros behind the code of a contract if the
database keeps code analysed (as revm's `CacheDB` does); `exists` says that an account exists which the
transaction looked for in vain. -/
theorem C59_refuted :
    Denotes (.ofBytes []) 20 (List.replicate 20 0) ∧ StateOK busyState ∧
    (jsGetState (some emptyDb) (.ofBytes []) (.ofBytes []) = .ok (some 0) ∧
      slotNow busyState emptyDb (List.replicate 20 0) (List.replicate 32 0) = some 7) ∧
    (jsGetCode (some busyState) (some emptyDb) (.ofBytes []) = .ok none ∧
      codeNow busyState emptyDb (List.replicate 20 0) = some [0x60]) ∧
    (jsGetCode (some noState) (some analyzedDb) (.ofBytes []) =
        .ok (some ([0x60, 7] ++ List.replicate 33 0)) ∧
      codeNow noState analyzedDb (List.replicate 20 0) = some [0x60, 7]) ∧
    (jsExists (some busyState) (some emptyDb) (.ofBytes [1]) = .ok (some true) ∧
      accountNow busyState emptyDb (List.replicate 19 0 ++ [1]) = some none) := by
  refine ⟨⟨[], rfl, rfl, rfl⟩, ?_, ⟨rfl, rfl⟩, ⟨rfl, rfl⟩, ⟨rfl, rfl⟩, ⟨rfl, rfl⟩⟩
  intro a acc h hn
  simp only [busyState] at h
  split at h
  · simp only [Option.some.injEq] at h; subst h; cases hn
  · split at h
    · simp only [Option.some.injEq] at h; subst h; exact ⟨rfl, rfl, rfl⟩
    · cases h

/-- Balances and nonces of the busy state. -/
example : jsGetBalance (some busyState) (some emptyDb) (.ofBytes []) = .ok (some 5) ∧
    jsGetNonce (some busyState) (some emptyDb) (.ofBytes [1]) = .ok (some 0) := ⟨rfl, rfl⟩

end Verif.Props
