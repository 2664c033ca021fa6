import Verif.Spec.Apply
import Verif.Props.StateAgree
import Verif.Props.StateExamples
/-! C85: the reported differences lead from the state before to the state after. -/
namespace Verif.Props
open OMap Spec

theorem applyDelta_isDelta {α : Type} {zero old new : α} {d : Delta α} (h : IsDelta d old new) :
    applyDelta zero old d = new := by
  rcases h with ⟨h1, h2⟩ | ⟨_, h2⟩
  · rw [h2]; exact h1
  · rw [h2]; rfl

/-- Two views of slots that are right for the touched slots and for the others agree. -/
theorem slots_eq {acc : Account} {f g f0 : U256 → U256}
    (hf : ∀ (k : U256) (s : Slot), (k, s) ∈ acc.storage → f k = s.present)
    (hf' : ∀ k : U256, (∀ s : Slot, (k, s) ∉ acc.storage) → f k = f0 k)
    (hg : ∀ (k : U256) (s : Slot), (k, s) ∈ acc.storage → g k = s.present)
    (hg' : ∀ k : U256, (∀ s : Slot, (k, s) ∉ acc.storage) → g k = f0 k) : f = g := by
  funext k
  by_cases h : ∃ s : Slot, (k, s) ∈ acc.storage
  · obtain ⟨s, hs⟩ := h
    rw [hf k s hs, hg k s hs]
  · have h' : ∀ s : Slot, (k, s) ∉ acc.storage := fun s hs => h ⟨s, hs⟩
    rw [hf' k h', hg' k h']

/-- The slots that an entry of a parity diff leads to. -/
theorem paritySlots {acc : Account} {v0 : View} {m : OMap U256 (Delta U256)} {f : Slot → Delta U256}
    (hd : Distinct acc.storage)
    (h0 : ∀ (k : U256) (s : Slot), (k, s) ∈ acc.storage → v0.slot k = s.original)
    (hf : ∀ s old, applyDelta 0 old (f s) = s.present)
    (hm : ∀ (k : U256) (v : Delta U256), get? m k = some v ↔
      ∃ s : Slot, (k, s) ∈ acc.storage ∧ s.original ≠ s.present ∧ v = f s) :
    (∀ (k : U256) (s : Slot), (k, s) ∈ acc.storage →
      (match get? m k with | none => v0.slot k | some d => applyDelta 0 (v0.slot k) d) = s.present) ∧
    (∀ k : U256, (∀ s : Slot, (k, s) ∉ acc.storage) →
      (match get? m k with | none => v0.slot k | some d => applyDelta 0 (v0.slot k) d) = v0.slot k) := by
  refine ⟨fun k s hs => ?_, fun k hk => ?_⟩
  · cases hg : get? m k with
    | none =>
      simp only
      rw [h0 k s hs]
      by_cases he : s.original = s.present
      · exact he
      · have := (hm k (f s)).mpr ⟨s, hs, he, rfl⟩
        rw [hg] at this
        cases this
    | some d =>
      simp only
      obtain ⟨s', hs', _, rfl⟩ := (hm k d).mp hg
      have : s = s' := by
        have h1 := get?_of_mem_distinct hd hs
        rw [get?_of_mem_distinct hd hs'] at h1
        simpa using h1.symm
      rw [this]
      exact hf _ _
  · cases hg : get? m k with
    | none => rfl
    | some d =>
      obtain ⟨s', hs', _⟩ := (hm k d).mp hg
      exact absurd hs' (hk s')

/-- **C85, parity, exactly.** Applying the entry of an account to the account as it was before gives the
account as it is after, in these cases and no others: it was not destroyed, and was created or has the code it
had; it was destroyed, and the state shows it empty, without code before and with all slots zero; or it was
created and destroyed and had not existed. -/
theorem C85_parity_exact {ε : Type} (db : DB ε) (state : List (Address × Account)) (diff : StateDiff)
    (hst : StateMap state) (h : populateStateDiff db [] state = .ok diff)
    (a : Address) (acc : Account) (hm : (a, acc) ∈ state) (v0 v : View)
    (h0 : IsBefore db a acc v0) (h1 : IsAfter db acc v0 v) :
    (acc.isSelfdestructed = false →
      (applyParity v0 (get? diff a) = v ↔ acc.isCreated = true ∨ v0.code = v.code)) ∧
    (acc.isSelfdestructed = true → acc.isCreated = true → (applyParity v0 (get? diff a) = v ↔ v0 = View.empty)) ∧
    (acc.isSelfdestructed = true → acc.isCreated = false →
      (applyParity v0 (get? diff a) = v ↔ acc.info.balance = 0 ∧ acc.info.nonce = 0 ∧ v0.code = [] ∧
        (∀ (k : U256) (s : Slot), (k, s) ∈ acc.storage → s.present = 0) ∧
        ∀ k : U256, (∀ s : Slot, (k, s) ∉ acc.storage) → v0.slot k = 0)) := by
  have hd := C32_state_diff db state diff hst h
  obtain ⟨⟨old, c, hb, hc, b1, b2, b3⟩, b4⟩ := h0
  have hslots := hst.slots a acc hm
  have hexist : acc.isCreated = false → (¬ Changed old acc ∧ get? diff a = none) ∨
      (Changed old acc ∧ ∃ e, get? diff a = some e ∧ ChangedEntry old acc e) := by
    intro hcr
    obtain ⟨old', hb', hh⟩ := hd.existing a acc hm hcr
    rwa [before_unique hb hb']
  -- what the diff makes of an account that was not created
  have happ : acc.isCreated = false →
      ∃ f, applyParity v0 (get? diff a) = ⟨acc.info.balance, acc.info.nonce, v0.code, f⟩ ∧
        (∀ (k : U256) (s : Slot), (k, s) ∈ acc.storage → f k = s.present) ∧
        (∀ k : U256, (∀ s : Slot, (k, s) ∉ acc.storage) → f k = v0.slot k) := by
    intro hcr
    rcases hexist hcr with ⟨hn, hg⟩ | ⟨_, e, hg, he⟩
    · refine ⟨v0.slot, ?_, ?_, fun _ _ => rfl⟩
      · rw [hg, applyParity]
        unfold Changed at hn
        ext1
        · rw [b1]; exact Classical.byContradiction fun hne => hn (.inr (.inl hne))
        · rw [b2]; exact Classical.byContradiction fun hne => hn (.inr (.inr (.inl hne)))
        · rfl
        · rfl
      · intro k s hs
        rw [b4 k s hs]
        exact Classical.byContradiction fun hne => hn (.inr (.inr (.inr (.inr ⟨k, s, hs, hne⟩))))
    · obtain ⟨s1, s2⟩ := paritySlots (f := fun s => .changed s.original s.present) hslots b4
        (fun _ _ => rfl) he.slots
      refine ⟨_, ?_, s1, s2⟩
      rw [hg, applyParity]
      ext1
      · rw [b1]; exact applyDelta_isDelta he.balance
      · rw [b2]; exact applyDelta_isDelta he.nonce
      · simp only [he.code]; rfl
      · rfl
  refine ⟨fun hx => ?_, fun hx hcr => ?_, fun hx hcr => ?_⟩
  · obtain ⟨c', hc', hv⟩ := h1.code hx
    by_cases hcr : acc.isCreated = true
    · simp only [hcr, true_or, iff_true]
      obtain ⟨e, hg, he⟩ := hd.created a acc hm hcr hx
      obtain ⟨s1, s2⟩ := paritySlots (f := fun s => .added s.present) hslots b4 (fun _ _ => rfl) he.slots
      rw [hg, applyParity]
      ext1
      · rw [h1.balance hx, he.balance]; rfl
      · rw [h1.nonce hx, he.nonce]; rfl
      · obtain ⟨c2, k1, k2⟩ := he.code
        simp only [k2, hv, codeIs_unique hc' k1]
        rfl
      · exact slots_eq s1 s2 (h1.slots hx) (h1.others hx)
    · have hcr : acc.isCreated = false := by simpa using hcr
      obtain ⟨f, k1, k2, k3⟩ := happ hcr
      rw [k1]
      simp only [hcr, Bool.false_eq_true, false_or]
      constructor
      · intro hh; rw [← hh]
      · intro hh
        ext1
        · exact (h1.balance hx).symm
        · exact (h1.nonce hx).symm
        · exact hh
        · exact slots_eq k2 k3 (h1.slots hx) (h1.others hx)
  · rw [hd.ephemeral a acc hm hcr hx, h1.destroyed hx]
    exact Iff.rfl
  · obtain ⟨f, k1, k2, k3⟩ := happ hcr
    rw [k1, h1.destroyed hx]
    constructor
    · intro hh
      have e1 := congrArg View.balance hh
      have e2 := congrArg View.nonce hh
      have e3 := congrArg View.code hh
      have e4 := congrArg View.slot hh
      simp only [View.empty] at e1 e2 e3 e4
      refine ⟨e1, e2, e3, fun k s hs => ?_, fun k hk => ?_⟩
      · rw [← k2 k s hs, e4]
      · rw [← k3 k hk, e4]
    · rintro ⟨e1, e2, e3, e4, e5⟩
      ext1
      · exact e1
      · exact e2
      · exact e3
      · funext k
        by_cases hk : ∃ s : Slot, (k, s) ∈ acc.storage
        · obtain ⟨s, hs⟩ := hk
          exact (k2 k s hs).trans (e4 k s hs)
        · have h' : ∀ s : Slot, (k, s) ∉ acc.storage := fun s hs => hk ⟨s, hs⟩
          exact (k3 k h').trans (e5 k h')

/-- **C85, parity, in part.** For every account that was not destroyed, and was created or has the code it
had, the reported difference leads from the account before to the account after. -/
theorem C85_parity_partial {ε : Type} (db : DB ε) (state : List (Address × Account)) (diff : StateDiff)
    (hst : StateMap state) (h : populateStateDiff db [] state = .ok diff)
    (a : Address) (acc : Account) (hm : (a, acc) ∈ state) (v0 v : View)
    (h0 : IsBefore db a acc v0) (h1 : IsAfter db acc v0 v) (hx : acc.isSelfdestructed = false)
    (hc : acc.isCreated = true ∨ v0.code = v.code) : applyParity v0 (get? diff a) = v :=
  ((C85_parity_exact db state diff hst h a acc hm v0 v h0 h1).1 hx).mpr hc

theorem getD_shownIfNew {α : Type} {old new : Option α} {s : Option α} {o n : α} (h : shownIfNew old new s)
    (hn : new = some n) (ho : old = new → o = n) : s.getD o = n := by
  rcases h with ⟨h1, h2⟩ | ⟨_, h2⟩
  · rw [h2]; exact ho h1
  · rw [h2, hn]; rfl

theorem shownCode_getD {c : Option Bytes} : (shownCode c).getD [] = c.getD [] := by
  rcases c with _ | _ | ⟨b, bs⟩ <;> rfl

theorem shownCode_eq_iff {c d : Option Bytes} : shownCode c = shownCode d ↔ c.getD [] = d.getD [] := by
  rcases c with _ | _ | ⟨b, bs⟩ <;> rcases d with _ | _ | ⟨b', bs'⟩ <;> simp [shownCode]

theorem shownNonce_eq_iff {m n : Nat} : shownNonce m = shownNonce n ↔ m = n := by
  cases m <;> cases n <;> simp [shownNonce]

/-- The nonce that a post state leads to. -/
theorem applied_nonce {m n : Nat} {s : Option Nat} (h : shownIfNew (shownNonce m) (shownNonce n) s) :
    s.getD m = n ↔ n ≠ 0 ∨ m = 0 := by
  rcases h with ⟨h1, h2⟩ | ⟨h1, h2⟩
  · rw [shownNonce_eq_iff] at h1
    subst h1; subst h2
    simp only [Option.getD_none, true_iff]
    omega
  · rw [Ne, shownNonce_eq_iff] at h1
    subst h2
    cases n with
    | zero => simp [shownNonce]
    | succ n => simp [shownNonce]

/-- The code that a post state leads to, `d` being the code that comes with the account and `x` its code. -/
theorem applied_code {c d : Option Bytes} {s : Option Bytes} {x : Bytes} (hx : d.getD [] ≠ [] → x = d.getD [])
    (h : shownIfNew (shownCode c) (shownCode d) s) :
    s.getD (c.getD []) = x ↔ d.getD [] ≠ [] ∨ c.getD [] = x := by
  rcases h with ⟨h1, h2⟩ | ⟨h1, h2⟩
  · rw [shownCode_eq_iff] at h1
    subst h2
    simp only [Option.getD_none]
    constructor
    · exact .inr
    · rintro (hd | hd)
      · rw [hx hd, h1]
      · exact hd
  · subst h2
    rcases d with _ | _ | ⟨b, bs⟩
    · simp [shownCode]
    · simp [shownCode]
    · simp only [shownCode, Option.getD_some]
      have := hx (by simp)
      simp [this]

/-- The code after an account is the one that comes with it, if any does. -/
theorem code_of_inline {ε : Type} {db : DB ε} {i : AccountInfo} {c : Option Bytes} (h : CodeIs db i c)
    (hne : i.code.getD [] ≠ []) : c.getD [] = i.code.getD [] := by
  cases h with
  | inline c h => rw [h]
  | empty h _ => rw [h] at hne; exact absurd rfl hne
  | stored c h _ _ => rw [h] at hne; exact absurd rfl hne
  | unreadable e h _ _ => rw [h] at hne; exact absurd rfl hne

/-- The account as the prestate tracer shows it before differs from the account as it shows it after. -/
def Differs (v0 : View) (acc : Account) : Prop :=
  v0.balance ≠ acc.info.balance ∨ v0.nonce ≠ acc.info.nonce ∨ v0.code ≠ acc.info.code.getD [] ∨ SlotChanged acc

/-- **C85, geth, exactly.** Applying what diff mode shows of an account to the account as it was before gives
the account as it is after, in these cases and no others. Not destroyed: the nonce did not become zero, the
code that comes with the account is not empty or it is the code from before, and no slot of an account that
was created became zero. Created and destroyed: the account had not existed. Destroyed otherwise: the account
in the state differs from the one before, or it had not existed. -/
theorem C85_geth_exact {ε : Type} (db : DB ε) (state : List (Address × Account)) (cfg : PreStateConfig)
    (pre post : OMap Address AccountState) (hst : StateMap state) (hcfg : cfg.diffMode = some true)
    (h : gethPrestateTraces db state cfg = .ok (.diff pre post))
    (a : Address) (acc : Account) (hm : (a, acc) ∈ state) (v0 v : View)
    (h0 : IsBefore db a acc v0) (h1 : IsAfter db acc v0 v) :
    (acc.isSelfdestructed = false →
      (applyGeth v0 (get? pre a) (get? post a) = v ↔
        (acc.info.nonce ≠ 0 ∨ v0.nonce = 0) ∧ (acc.info.code.getD [] ≠ [] ∨ v0.code = v.code) ∧
        (acc.isCreated = false ∨
          ∀ (k : U256) (s : Slot), (k, s) ∈ acc.storage → s.present = 0 → s.original = 0))) ∧
    (acc.isSelfdestructed = true → acc.isCreated = true →
      (applyGeth v0 (get? pre a) (get? post a) = v ↔ v0 = View.empty)) ∧
    (acc.isSelfdestructed = true → acc.isCreated = false →
      (applyGeth v0 (get? pre a) (get? post a) = v ↔ Differs v0 acc ∨ v0 = View.empty)) := by
  obtain ⟨pre', post', hf, hdiff⟩ := C34_exact db state cfg _ hst hcfg h
  simp only [PreStateFrame.diff.injEq] at hf
  obtain ⟨rfl, rfl⟩ := hf
  obtain ⟨⟨old, c, hb, hc, b1, b2, b3⟩, b4⟩ := h0
  have hslots := hst.slots a acc hm
  obtain ⟨old', hb', ⟨⟨c', hc', hpre, hpost, hafter⟩, hbefore⟩⟩ := hdiff.touched a acc hm
  obtain rfl : old = old' := before_unique hb hb'
  obtain rfl : c = c' := codeIs_unique hc hc'
  have hsd : ShownDiffers old c acc ↔ Differs v0 acc := by
    unfold ShownDiffers Differs
    rw [b1, b2, b3, Ne, Ne, Ne, Ne, shownCode_eq_iff]
  rw [hsd] at hpre hpost
  have hnone : ∀ m : OMap Address AccountState, (¬ ∃ s, get? m a = some s) → get? m a = none := by
    intro m hn
    cases hg : get? m a with
    | none => rfl
    | some s => exact absurd ⟨s, hg⟩ hn
  have uniq : ∀ (k : U256) (s s' : Slot), (k, s) ∈ acc.storage → (k, s') ∈ acc.storage → s = s' := by
    intro k s s' hs hs'
    have h1 := get?_of_mem_distinct hslots hs
    rw [get?_of_mem_distinct hslots hs'] at h1
    simpa using h1.symm
  refine ⟨fun hx => ?_, fun hx hcr => ?_, fun hx hcr => ?_⟩
  · obtain ⟨cv, hcv, hv⟩ := h1.code hx
    have hcode : acc.info.code.getD [] ≠ [] → v.code = acc.info.code.getD [] := by
      intro hne
      rw [hv, code_of_inline hcv hne]
    by_cases hD : Differs v0 acc
    · obtain ⟨s, hs⟩ := hpost.mpr ⟨hx, hD⟩
      have hA := hafter s hs
      -- the value that is applied to a slot
      have hval : ∀ (k : U256) (sl : Slot), (k, sl) ∈ acc.storage →
          ((applyGeth v0 (get? pre a) (get? post a)).slot k = sl.present ↔
            acc.isCreated = false ∨ (sl.present = 0 → sl.original = 0)) := by
        intro k sl hk
        rw [hs]
        simp only [applyGeth]
        cases hg : get? s.storage k with
        | some x =>
          obtain ⟨sl', hk', hne, hx', hnz⟩ := (hA.slots k x).mp hg
          obtain rfl := uniq k sl sl' hk hk'
          simp only
          rw [hx']
          simp only [true_iff]
          exact .inr fun h0 => absurd (hx'.trans h0) hnz
        | none =>
          simp only
          have hor : sl.original = sl.present ∨ sl.present = 0 := by
            by_cases e1 : sl.original = sl.present
            · exact .inl e1
            · by_cases e2 : sl.present = 0
              · exact .inr e2
              · have := (hA.slots k sl.present).mpr ⟨sl, hk, e1, rfl, e2⟩
                rw [hg] at this; cases this
          by_cases hcr : acc.isCreated = true
          · have hp : get? pre a = none := hnone pre fun hh => by
              have := (hpre.mp hh).1
              rw [hcr] at this; cases this
            simp only [hp, hcr, Option.bind_none]
            rw [b4 k sl hk]
            constructor
            · intro e; exact .inr fun e0 => by rw [e, e0]
            · rintro (e | e)
              · cases e
              · rcases hor with e' | e'
                · exact e'
                · rw [e', e e']
          · have hcr : acc.isCreated = false := by simpa using hcr
            obtain ⟨p, hp⟩ := hpre.mpr ⟨hcr, hD⟩
            have hB := hbefore p hp
            simp only [hp, hcr, Option.bind_some, true_or, iff_true]
            cases hq : get? p.storage k with
            | some y =>
              obtain ⟨sl', hk', ⟨hne, hnz⟩, _⟩ := (hB.slots k y).mp hq
              obtain rfl := uniq k sl sl' hk hk'
              simp only
              rcases hor with e | e
              · exact absurd e hne
              · exact e.symm
            | none =>
              simp only
              rw [b4 k sl hk]
              by_cases e1 : sl.original = sl.present
              · exact e1
              · by_cases e2 : sl.original = 0
                · rcases hor with e | e
                  · exact e
                  · rw [e2, e]
                · have := (hB.slots k sl.original).mpr ⟨sl, hk, ⟨e1, e2⟩, rfl⟩
                  rw [hq] at this; cases this
      have hother : ∀ k : U256, (∀ sl : Slot, (k, sl) ∉ acc.storage) →
          (applyGeth v0 (get? pre a) (get? post a)).slot k = v0.slot k := by
        intro k hk
        rw [hs]
        simp only [applyGeth]
        cases hg : get? s.storage k with
        | some x =>
          obtain ⟨sl', hk', _⟩ := (hA.slots k x).mp hg
          exact absurd hk' (hk sl')
        | none =>
          simp only
          cases hp : get? pre a with
          | none => rfl
          | some p =>
            simp only [Option.bind_some]
            cases hq : get? p.storage k with
            | none => rfl
            | some y =>
              obtain ⟨sl', hk', _⟩ := ((hbefore p hp).slots k y).mp hq
              exact absurd hk' (hk sl')
      have hbal : (applyGeth v0 (get? pre a) (get? post a)).balance = v.balance := by
        rw [hs, h1.balance hx]
        simp only [applyGeth]
        refine getD_shownIfNew hA.balance rfl fun e => ?_
        rw [b1]
        simpa using e
      have hnon : (applyGeth v0 (get? pre a) (get? post a)).nonce = v.nonce ↔
          (acc.info.nonce ≠ 0 ∨ v0.nonce = 0) := by
        rw [hs, h1.nonce hx]
        simp only [applyGeth]
        rw [b2]
        exact applied_nonce hA.nonce
      have hcod : (applyGeth v0 (get? pre a) (get? post a)).code = v.code ↔
          (acc.info.code.getD [] ≠ [] ∨ v0.code = v.code) := by
        rw [hs]
        simp only [applyGeth]
        rw [b3]
        exact applied_code hcode hA.code
      constructor
      · intro hh
        refine ⟨hnon.mp (by rw [hh]), hcod.mp (by rw [hh]), ?_⟩
        by_cases hcr : acc.isCreated = false
        · exact .inl hcr
        · refine .inr fun k sl hk e0 => ?_
          rcases (hval k sl hk).mp (by rw [hh]; exact h1.slots hx k sl hk) with e | e
          · exact absurd e hcr
          · exact e e0
      · rintro ⟨e1, e2, e3⟩
        ext1
        · exact hbal
        · exact hnon.mpr e1
        · exact hcod.mpr e2
        · refine slots_eq (fun k sl hk => (hval k sl hk).mpr ?_) hother (h1.slots hx) (h1.others hx)
          rcases e3 with e | e
          · exact .inl e
          · exact .inr (e k sl hk)
    · have hp : get? post a = none := hnone post fun hh => hD (hpost.mp hh).2
      have hq : get? pre a = none := hnone pre fun hh => hD (hpre.mp hh).2
      rw [hp, hq]
      simp only [applyGeth]
      simp only [Differs, not_or, Classical.not_not] at hD
      obtain ⟨d1, d2, d3, d4⟩ := hD
      have d5 : ∀ (k : U256) (s : Slot), (k, s) ∈ acc.storage → s.original = s.present := fun k s hk =>
        Classical.byContradiction fun hne => d4 ⟨k, s, hk, hne⟩
      constructor
      · intro hh
        refine ⟨?_, .inr (by rw [hh]), .inr fun k s hk e => by rw [d5 k s hk, e]⟩
        rw [d2]
        omega
      · rintro ⟨_, e2, _⟩
        ext1
        · rw [d1, h1.balance hx]
        · rw [d2, h1.nonce hx]
        · rcases e2 with e2 | e2
          · rw [hcode e2, d3]
          · exact e2
        · exact slots_eq (fun k s hk => by rw [b4 k s hk, d5 k s hk]) (fun _ _ => rfl) (h1.slots hx) (h1.others hx)
  · have hp : get? post a = none := hnone post fun hh => by
      have := (hpost.mp hh).1
      rw [hx] at this; cases this
    have hq : get? pre a = none := hnone pre fun hh => by
      have := (hpre.mp hh).1
      rw [hcr] at this; cases this
    rw [hp, hq, h1.destroyed hx]
    exact Iff.rfl
  · have hp : get? post a = none := hnone post fun hh => by
      have := (hpost.mp hh).1
      rw [hx] at this; cases this
    rw [hp, h1.destroyed hx]
    by_cases hD : Differs v0 acc
    · obtain ⟨p, hq⟩ := hpre.mpr ⟨hcr, hD⟩
      rw [hq]
      simp [applyGeth, hD]
    · have hq : get? pre a = none := hnone pre fun hh => hD (hpre.mp hh).2
      rw [hq]
      simp [applyGeth, hD]

/-- **C85, geth, in part.** For every account that was not created and not destroyed, whose nonce did not
become zero and whose code, if it changed, was not removed, what diff mode shows leads from the account before
to the account after. -/
theorem C85_geth_partial {ε : Type} (db : DB ε) (state : List (Address × Account)) (cfg : PreStateConfig)
    (pre post : OMap Address AccountState) (hst : StateMap state) (hcfg : cfg.diffMode = some true)
    (h : gethPrestateTraces db state cfg = .ok (.diff pre post))
    (a : Address) (acc : Account) (hm : (a, acc) ∈ state) (v0 v : View)
    (h0 : IsBefore db a acc v0) (h1 : IsAfter db acc v0 v) (hx : acc.isSelfdestructed = false)
    (hcr : acc.isCreated = false) (hn : acc.info.nonce = 0 → v0.nonce = 0)
    (hc : acc.info.code.getD [] = [] → v0.code = v.code) :
    applyGeth v0 (get? pre a) (get? post a) = v := by
  refine ((C85_geth_exact db state cfg pre post hst hcfg h a acc hm v0 v h0 h1).1 hx).mpr
    ⟨?_, ?_, .inl hcr⟩
  · by_cases e : acc.info.nonce = 0
    · exact .inr (hn e)
    · exact .inl e
  · by_cases e : acc.info.code.getD [] = []
    · exact .inr (hc e)
    · exact .inl e

/-- Accounts that are not in the state of the transaction are in neither difference. -/
theorem C85_untouched {ε : Type} (db : DB ε) (state : List (Address × Account)) (cfg : PreStateConfig)
    (diff : StateDiff) (pre post : OMap Address AccountState) (hst : StateMap state)
    (hcfg : cfg.diffMode = some true) (h : populateStateDiff db [] state = .ok diff)
    (h' : gethPrestateTraces db state cfg = .ok (.diff pre post)) (a : Address)
    (ha : ∀ acc : Account, (a, acc) ∉ state) (v : View) :
    applyParity v (get? diff a) = v ∧ applyGeth v (get? pre a) (get? post a) = v := by
  rw [(C32_state_diff db state diff hst h).untouched a ha]
  obtain ⟨pre', post', hf, hdiff⟩ := C34_exact db state cfg _ hst hcfg h'
  simp only [PreStateFrame.diff.injEq] at hf
  obtain ⟨rfl, rfl⟩ := hf
  rw [(hdiff.untouched a ha).1, (hdiff.untouched a ha).2]
  exact ⟨rfl, rfl⟩

end Verif.Props
