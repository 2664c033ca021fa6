import Verif.Props.State
/-! C33, C34: prestate traces. -/
namespace Verif.Props
open OMap Spec

theorem filter_code (c : Option Bytes) : c.filter (fun c => !c.isEmpty) = shownCode c := by
  rcases c with _ | _ | ⟨b, bs⟩ <;> rfl

theorem ite_nonce (n : Nat) : (if n ≠ 0 then some n else none) = shownNonce n := by
  cases n <;> simp [shownNonce]

theorem get?_insertSlots {l : List (U256 × Slot)} (hd : Distinct l) (f : Slot → U256) (k v : U256) :
    get? (insertSlots f [] l) k = some v ↔ ∃ sl : Slot, (k, sl) ∈ l ∧ v = f sl := by
  rw [insertSlots_eq, get?_insertIf _ sorted_nil hd]
  simp only [get?, Option.or_none, Option.bind_eq_some_iff, Option.some.injEq]
  constructor
  · rintro ⟨s, hs, rfl⟩
    exact ⟨s, mem_of_get? hs, rfl⟩
  · rintro ⟨s, hs, rfl⟩
    exact ⟨s, get?_of_mem_distinct hd hs, rfl⟩

theorem sorted_insertSlots (f : Slot → U256) (l : List (U256 × Slot)) :
    Sorted (insertSlots f [] l) := by
  rw [insertSlots_eq]; exact sorted_insertIf _ sorted_nil _

theorem default_of {c : PreStateConfig} (h : c.diffMode ≠ some true) : c.isDefaultMode = true := by
  obtain ⟨_ | _ | _⟩ := c
  · rfl
  · rfl
  · exact absurd rfl h

theorem diff_of {c : PreStateConfig} (h : c.diffMode = some true) : c.isDefaultMode = false := by
  unfold PreStateConfig.isDefaultMode PreStateConfig.isDiffMode
  rw [h]
  rfl

/-- C33: in default mode the trace lists exactly the touched accounts as they were before. -/
theorem C33_prestate {ε : Type} (db : DB ε) (state : List (Address × Account)) (cfg : PreStateConfig)
    (f : PreStateFrame) (hst : StateMap state) (hcfg : cfg.diffMode ≠ some true)
    (h : gethPrestateTraces db state cfg = .ok f) :
    ∃ m, f = .default m ∧ IsPrestate db state m := by
  replace hcfg := default_of hcfg
  unfold gethPrestateTraces at h
  rw [if_pos hcfg] at h
  have hp := prestateDefault_spec db (sorted_nil : Sorted ([] : OMap Address AccountState))
    hst.addresses
  cases hm : prestateDefault db [] state with
  | error e => simp [hm] at h
  | ok m =>
    simp only [hm, Except.ok.injEq] at h
    rw [hm] at hp
    obtain ⟨hs, hout, hin⟩ := hp
    refine ⟨m, h.symm, hs, ?_, ?_⟩
    · intro a ha
      rw [hout a (get?_eq_none_iff.2 ha)]; rfl
    · intro a acc hmem
      obtain ⟨i, hi, hg⟩ := hin a acc hmem
      refine ⟨i, _, before_of_account hi, hg, rfl, ite_nonce _,
        ⟨_, codeIs_load db i, filter_code _⟩, ?_, sorted_insertSlots _ _⟩
      intro k v
      simp only [true_and]
      exact get?_insertSlots (hst.slots a acc hmem) Slot.original k v

/-- C33, C34: the only errors of either mode are those of reading an account, and each is reported. -/
theorem C33_errors {ε : Type} (db : DB ε) (state : List (Address × Account)) (cfg : PreStateConfig)
    (hst : StateMap state) :
    (∀ e, gethPrestateTraces db state cfg = .error e →
      ∃ (a : Address) (acc : Account), (a, acc) ∈ state ∧ db.basic a = .error e) ∧
    ((∃ (a : Address) (acc : Account) (e : ε), (a, acc) ∈ state ∧ db.basic a = .error e) →
      ∃ e, gethPrestateTraces db state cfg = .error e) := by
  have hp := prestateDefault_spec db (sorted_nil : Sorted ([] : OMap Address AccountState))
    hst.addresses
  have hp2 := prestateDiffLoop_spec db (sorted_nil : Sorted ([] : OMap Address AccountState))
    (sorted_nil : Sorted ([] : OMap Address AccountState))
    (sorted_nil : Sorted ([] : OMap Address (Bool × Bool))) hst.addresses
  unfold gethPrestateTraces
  cases cfg.isDefaultMode with
  | true =>
    simp only [if_true]
    cases hm : prestateDefault db [] state with
    | error e =>
      rw [hm] at hp
      obtain ⟨a, acc, h1, h2⟩ := hp
      refine ⟨?_, fun _ => ⟨e, rfl⟩⟩
      intro e' he
      simp only [Except.error.injEq] at he
      subst he
      exact ⟨a, acc, h1, account_error.1 h2⟩
    | ok m =>
      rw [hm] at hp
      refine ⟨by simp, ?_⟩
      rintro ⟨a, acc, e, h1, h2⟩
      obtain ⟨i, hi, _⟩ := hp.2.2 a acc h1
      rw [account_error.2 h2] at hi
      simp at hi
  | false =>
    simp only [Bool.false_eq_true, if_false]
    cases hm : prestateDiffLoop db [] [] [] state with
    | error e =>
      rw [hm] at hp2
      obtain ⟨a, acc, h1, h2⟩ := hp2
      refine ⟨?_, fun _ => ⟨e, rfl⟩⟩
      intro e' he
      simp only [Except.error.injEq] at he
      subst he
      exact ⟨a, acc, h1, account_error.1 h2⟩
    | ok m =>
      obtain ⟨p, q, r⟩ := m
      rw [hm] at hp2
      refine ⟨by simp, ?_⟩
      rintro ⟨a, acc, e, h1, h2⟩
      obtain ⟨i, hi, _⟩ := hp2.2.2.2.2 a acc h1
      rw [account_error.2 h2] at hi
      simp at hi

theorem mem_changedSlots (acc : Account) (k : U256) (sl : Slot) :
    (k, sl) ∈ acc.changedSlots ↔ (k, sl) ∈ acc.storage ∧ sl.original ≠ sl.present := by
  unfold Account.changedSlots
  simp [List.mem_filter, isChanged_iff]

theorem distinct_changedSlots {acc : Account} (hd : Distinct acc.storage) :
    Distinct acc.changedSlots := List.Pairwise.filter _ hd

theorem get?_dropZero (s : AccountState) (hs : Sorted s.storage) (k v : U256) :
    get? (dropZero s).storage k = some v ↔ get? s.storage k = some v ∧ v ≠ 0 := by
  unfold dropZero
  simp only
  rw [get?_filter hs]
  cases hg : get? s.storage k with
  | none => simp
  | some w =>
    by_cases hw : w = 0
    · simp [Option.filter, hw]
      intro h; exact h.symm
    · simp only [Option.filter, ne_eq, hw, not_false_eq_true, decide_true, if_true,
        Option.some.injEq]
      constructor
      · rintro rfl; exact ⟨rfl, hw⟩
      · exact fun h => h.1

/-- The two states of the loop are equal exactly if nothing shown differs. -/
theorem states_eq_iff {ε : Type} (db : DB ε) (i : AccountInfo) (acc : Account)
    (hd : Distinct acc.storage) :
    preStateOf db i acc = postStateOf acc ↔ ¬ ShownDiffers i (loadAccountCode db i) acc := by
  have hinj : ∀ m n : Nat, shownNonce m = shownNonce n ↔ m = n := by
    intro m n
    cases m <;> cases n <;> simp [shownNonce]
  have hst : insertSlots Slot.original [] acc.changedSlots
      = insertSlots Slot.present [] acc.changedSlots ↔ ¬ SlotChanged acc := by
    constructor
    · rintro he ⟨k, sl, hm, hc⟩
      have hmem : (k, sl) ∈ acc.changedSlots := (mem_changedSlots acc k sl).2 ⟨hm, hc⟩
      have h1 := (get?_insertSlots (distinct_changedSlots hd) Slot.original k sl.original).2
        ⟨sl, hmem, rfl⟩
      have h2 := (get?_insertSlots (distinct_changedSlots hd) Slot.present k sl.present).2
        ⟨sl, hmem, rfl⟩
      rw [he, h2] at h1
      simp only [Option.some.injEq] at h1
      exact hc h1.symm
    · intro hn
      have : acc.changedSlots = [] := by
        apply List.eq_nil_iff_forall_not_mem.2
        rintro ⟨k, sl⟩ hm
        have := (mem_changedSlots acc k sl).1 hm
        exact hn ⟨k, sl, this.1, this.2⟩
      rw [this]; rfl
  unfold preStateOf postStateOf AccountState.fromAccountInfo ShownDiffers
  simp only [filter_code, ite_nonce, AccountState.mk.injEq, Option.some.injEq, hinj, hst, not_or,
    Decidable.not_not, ne_eq]
  constructor
  · rintro ⟨h1, h2, h3, h4⟩; exact ⟨h1, h3, h2, h4⟩
  · rintro ⟨h1, h2, h3, h4⟩; exact ⟨h1, h3, h2, h4⟩

theorem shownIfNew_ite {α : Type} [DecidableEq α] (old new : Option α) :
    shownIfNew old new (if new = old then none else new) := by
  by_cases h : new = old
  · exact Or.inl ⟨h.symm, by simp [h]⟩
  · exact Or.inr ⟨fun e => h e.symm, by simp [h]⟩

/-- C34: what diff mode shows, exactly. -/
theorem C34_exact {ε : Type} (db : DB ε) (state : List (Address × Account)) (cfg : PreStateConfig)
    (f : PreStateFrame) (hst : StateMap state) (hcfg : cfg.diffMode = some true)
    (h : gethPrestateTraces db state cfg = .ok f) :
    ∃ pre post, f = .diff pre post ∧ IsPrestateDiff db state pre post := by
  have hdm := diff_of hcfg
  unfold gethPrestateTraces at h
  rw [if_neg (by simp [hdm])] at h
  have hp := prestateDiffLoop_spec db (sorted_nil : Sorted ([] : OMap Address AccountState))
    (sorted_nil : Sorted ([] : OMap Address AccountState))
    (sorted_nil : Sorted ([] : OMap Address (Bool × Bool))) hst.addresses
  cases hm : prestateDiffLoop db [] [] [] state with
  | error e => simp [hm] at h
  | ok m =>
    obtain ⟨p, q, ks⟩ := m
    simp only [hm, Except.ok.injEq] at h
    rw [hm] at hp
    obtain ⟨hsp, hsq, hsk, hout, hin⟩ := hp
    have hr := get?_retainChanged hsp hsq
    generalize retainChanged p q = pq at h hr
    obtain ⟨p1, q1⟩ := pq
    have hs1 := (hr 0).2.2.1
    have hs2 := (hr 0).2.2.2
    have hd := get?_diffTraces (kinds := ks) (sorted_removeZero hs1) (sorted_removeZero hs2)
    simp only at h hr hd
    refine ⟨_, _, h.symm, ⟨(hd 0).2.2.1, (hd 0).2.2.2⟩, ?_, ?_⟩
    · intro a ha
      have h1 := hout a (get?_eq_none_iff.2 ha)
      have h2 := hr a
      simp only [h1.1, h1.2.1, get?, Option.filter] at h2
      rw [(hd a).1, (hd a).2.1, get?_removeZero, get?_removeZero, h2.1, h2.2.1]
      exact ⟨rfl, rfl⟩
    · intro a acc hmem
      obtain ⟨i, hi, h1, h2, h3⟩ := hin a acc hmem
      have hdist := hst.slots a acc hmem
      have hreq := states_eq_iff db i acc hdist
      have hra := hr a
      rw [h1, h2] at hra
      have hda := hd a
      rw [get?_removeZero, get?_removeZero, hra.1, hra.2.1, h3] at hda
      refine ⟨i, before_of_account hi, ?_⟩
      by_cases hne : preStateOf db i acc = postStateOf acc
      · -- equal: in neither
        have hn := hreq.1 hne
        have hpre : get? (diffTraces (removeZero p1) (removeZero q1) ks).1 a = none := by
          rw [hda.1]; simp [Option.filter, hne]
        have hpost : get? (diffTraces (removeZero p1) (removeZero q1) ks).2 a = none := by
          rw [hda.2.1]; simp [Option.filter, hne]
        refine ⟨⟨_, codeIs_load db i, ?_, ?_, ?_⟩, ?_⟩
        · rw [hpre]; simp [hn]
        · rw [hpost]; simp [hn]
        · rw [hpost]; simp
        · rw [hpre]; simp
      · have hn : ShownDiffers i (loadAccountCode db i) acc :=
          Classical.byContradiction (fun hc => hne (hreq.2 hc))
        have hpre : get? (diffTraces (removeZero p1) (removeZero q1) ks).1 a
            = if acc.isCreated then none else some (dropZero (preStateOf db i acc)) := by
          rw [hda.1]
          cases acc.isCreated <;> simp [Option.filter, Ne.symm hne]
        have hmp : matchPost (removeZero p1) a (dropZero (postStateOf acc))
            = (dropZero (postStateOf acc)).removeMatching (dropZero (preStateOf db i acc)) := by
          unfold matchPost
          rw [get?_removeZero, hra.1]
          simp [Option.filter, Ne.symm hne]
        have hpost : get? (diffTraces (removeZero p1) (removeZero q1) ks).2 a
            = if acc.isSelfdestructed then none else
              some ((dropZero (postStateOf acc)).removeMatching (dropZero (preStateOf db i acc))) := by
          rw [hda.2.1, ← hmp]
          cases acc.isSelfdestructed <;> simp [Option.filter, hne]
        refine ⟨⟨_, codeIs_load db i, ?_, ?_, ?_⟩, ?_⟩
        · rw [hpre]; cases acc.isCreated <;> simp [hn]
        · rw [hpost]; cases acc.isSelfdestructed <;> simp [hn]
        · rw [hpost]
          intro s hs
          split at hs
          · simp at hs
          · simp only [Option.some.injEq] at hs
            subst hs
            refine ⟨?_, ?_, ?_, ?_, ?_⟩
            · exact shownIfNew_ite _ _
            · have := shownIfNew_ite (preStateOf db i acc).nonce (postStateOf acc).nonce
              simp only [preStateOf, postStateOf, AccountState.fromAccountInfo, ite_nonce] at this
              simp only [AccountState.removeMatching, dropZero, preStateOf, postStateOf,
                AccountState.fromAccountInfo, ite_nonce]
              exact this
            · have := shownIfNew_ite (preStateOf db i acc).code (postStateOf acc).code
              simp only [preStateOf, postStateOf, AccountState.fromAccountInfo, filter_code] at this
              simp only [AccountState.removeMatching, dropZero, preStateOf, postStateOf,
                AccountState.fromAccountInfo, filter_code]
              exact this
            · intro k v
              show get? (dropZero (postStateOf acc)).storage k = some v ↔ _
              rw [get?_dropZero _ (sorted_insertSlots _ _)]
              show get? (insertSlots Slot.present [] acc.changedSlots) k = some v ∧ _ ↔ _
              rw [get?_insertSlots (distinct_changedSlots hdist)]
              simp only [mem_changedSlots]
              constructor
              · rintro ⟨⟨sl, ⟨h5, h6⟩, h7⟩, h8⟩; exact ⟨sl, h5, h6, h7, h8⟩
              · rintro ⟨sl, h5, h6, h7, h8⟩; exact ⟨⟨sl, ⟨h5, h6⟩, h7⟩, h8⟩
            · exact sorted_filter (sorted_insertSlots _ _) _
        · rw [hpre]
          intro s hs
          split at hs
          · simp at hs
          · simp only [Option.some.injEq] at hs
            subst hs
            refine ⟨rfl, ?_, ⟨_, codeIs_load db i, ?_⟩, ?_, ?_⟩
            · exact ite_nonce _
            · exact filter_code _
            · intro k v
              rw [get?_dropZero _ (sorted_insertSlots _ _)]
              show get? (insertSlots Slot.original [] acc.changedSlots) k = some v ∧ _ ↔ _
              rw [get?_insertSlots (distinct_changedSlots hdist)]
              simp only [mem_changedSlots]
              constructor
              · rintro ⟨⟨sl, ⟨h5, h6⟩, h7⟩, h8⟩; exact ⟨sl, h5, ⟨h6, h7 ▸ h8⟩, h7⟩
              · rintro ⟨sl, h5, ⟨h6, h8⟩, h7⟩; exact ⟨⟨sl, ⟨h5, h6⟩, h7⟩, h7 ▸ h8⟩
            · exact sorted_filter (sorted_insertSlots _ _) _

theorem insertSlots_perm (f : Slot → U256) {l l' : List (U256 × Slot)} (hd : Distinct l)
    (hp : l.Perm l') : insertSlots f [] l = insertSlots f [] l' := by
  rw [insertSlots_eq, insertSlots_eq, insertIf_perm _ hd hp]

theorem same_none {s s' : List (Address × Account)} (hsame : SameState s s') {a : Address}
    (h : get? s a = none) : get? s' a = none := by
  rw [get?_eq_none_iff] at h ⊢
  intro acc' hm'
  obtain ⟨acc, hm, _⟩ := hsame.right a acc' hm'
  exact h acc hm

theorem prestate_order {ε : Type} (db : DB ε) (s s' : List (Address × Account))
    (cfg : PreStateConfig) (hs : StateMap s) (hs' : StateMap s') (hsame : SameState s s')
    (f : PreStateFrame) (h : gethPrestateTraces db s cfg = .ok f) :
    gethPrestateTraces db s' cfg = .ok f := by
  unfold gethPrestateTraces at h ⊢
  cases hc : cfg.isDefaultMode with
  | true =>
    rw [hc] at h
    simp only [if_true] at h ⊢
    have hp := prestateDefault_spec db (sorted_nil : Sorted ([] : OMap Address AccountState))
      hs.addresses
    have hp' := prestateDefault_spec db (sorted_nil : Sorted ([] : OMap Address AccountState))
      hs'.addresses
    cases hm : prestateDefault db [] s with
    | error e => simp [hm] at h
    | ok m =>
      rw [hm] at hp h
      cases hm' : prestateDefault db [] s' with
      | error e =>
        rw [hm'] at hp'
        obtain ⟨a, acc', h1, h2⟩ := hp'
        obtain ⟨acc, h3, _⟩ := hsame.right a acc' h1
        obtain ⟨i, hi, _⟩ := hp.2.2 a acc h3
        rw [h2] at hi
        simp at hi
      | ok m' =>
        rw [hm'] at hp'
        have : m' = m := by
          apply OMap.ext hp'.1 hp.1
          intro a
          cases hg : get? s a with
          | none => rw [hp.2.1 a hg, hp'.2.1 a (same_none hsame hg)]
          | some acc =>
            have hmem := mem_of_get? hg
            obtain ⟨acc', hmem', _, _, _, h4⟩ := hsame.left a acc hmem
            obtain ⟨i, hi, he⟩ := hp.2.2 a acc hmem
            obtain ⟨i', hi', he'⟩ := hp'.2.2 a acc' hmem'
            rw [hi] at hi'
            simp only [Except.ok.injEq] at hi'
            subst hi'
            rw [he, he', insertSlots_perm _ (hs.slots a acc hmem) h4]
        rw [this]; exact h
  | false =>
    rw [hc] at h
    simp only [Bool.false_eq_true, if_false] at h ⊢
    have hp := prestateDiffLoop_spec db (sorted_nil : Sorted ([] : OMap Address AccountState))
      (sorted_nil : Sorted ([] : OMap Address AccountState))
      (sorted_nil : Sorted ([] : OMap Address (Bool × Bool))) hs.addresses
    have hp' := prestateDiffLoop_spec db (sorted_nil : Sorted ([] : OMap Address AccountState))
      (sorted_nil : Sorted ([] : OMap Address AccountState))
      (sorted_nil : Sorted ([] : OMap Address (Bool × Bool))) hs'.addresses
    cases hm : prestateDiffLoop db [] [] [] s with
    | error e => simp [hm] at h
    | ok m =>
      obtain ⟨p, q, r⟩ := m
      rw [hm] at hp h
      cases hm' : prestateDiffLoop db [] [] [] s' with
      | error e =>
        rw [hm'] at hp'
        obtain ⟨a, acc', h1, h2⟩ := hp'
        obtain ⟨acc, h3, _⟩ := hsame.right a acc' h1
        obtain ⟨i, hi, _⟩ := hp.2.2.2.2 a acc h3
        rw [h2] at hi
        simp at hi
      | ok m' =>
        obtain ⟨p', q', r'⟩ := m'
        rw [hm'] at hp'
        have hall : ∀ a, get? p' a = get? p a ∧ get? q' a = get? q a ∧ get? r' a = get? r a := by
          intro a
          cases hg : get? s a with
          | none =>
            obtain ⟨e1, e2, e3⟩ := hp.2.2.2.1 a hg
            obtain ⟨e1', e2', e3'⟩ := hp'.2.2.2.1 a (same_none hsame hg)
            rw [e1, e2, e3, e1', e2', e3']
            exact ⟨rfl, rfl, rfl⟩
          | some acc =>
            have hmem := mem_of_get? hg
            obtain ⟨acc', hmem', g1, g2, g3, h4⟩ := hsame.left a acc hmem
            obtain ⟨i, hi, e1, e2, e3⟩ := hp.2.2.2.2 a acc hmem
            obtain ⟨i', hi', e1', e2', e3'⟩ := hp'.2.2.2.2 a acc' hmem'
            rw [hi] at hi'
            simp only [Except.ok.injEq] at hi'
            subst hi'
            have hd := distinct_changedSlots (hs.slots a acc hmem)
            have hperm : acc.changedSlots.Perm acc'.changedSlots := h4.filter _
            rw [e1, e2, e3, e1', e2', e3']
            unfold preStateOf postStateOf
            rw [g1, g2, g3, insertSlots_perm _ hd hperm, insertSlots_perm _ hd hperm]
            exact ⟨rfl, rfl, rfl⟩
        have ep : p' = p := OMap.ext hp'.1 hp.1 (fun a => (hall a).1)
        have eq : q' = q := OMap.ext hp'.2.1 hp.2.1 (fun a => (hall a).2.1)
        have er : r' = r := OMap.ext hp'.2.2.1 hp.2.2.1 (fun a => (hall a).2.2)
        rw [ep, eq, er]; exact h

/-- C33, C34: in both modes the iteration order of the maps is irrelevant. -/
theorem C33_order {ε : Type} (db : DB ε) (s s' : List (Address × Account)) (cfg : PreStateConfig)
    (hs : StateMap s) (hs' : StateMap s') (hsame : SameState s s') (f : PreStateFrame) :
    gethPrestateTraces db s cfg = .ok f ↔ gethPrestateTraces db s' cfg = .ok f :=
  ⟨prestate_order db s s' cfg hs hs' hsame f,
   prestate_order db s' s cfg hs' hs (stateMap_same hsame) f⟩

/-- The statement of C34 for one account. -/
structure DiffStatement {ε : Type} (db : DB ε) (a : Address) (old : AccountInfo) (acc : Account)
    (pre post : OMap Address AccountState) : Prop where
  /-- no created account before -/
  created : acc.isCreated = true → get? pre a = none
  /-- no destroyed account after -/
  destroyed : acc.isSelfdestructed = true → get? post a = none
  /-- an account that did not change is not listed -/
  unchanged : ¬ Changed old acc → get? pre a = none ∧ get? post a = none
  /-- what is listed before is as it was -/
  before : ∀ s, get? pre a = some s → s.balance = some old.balance ∧
    s.nonce = shownNonce old.nonce ∧ ∃ c, CodeIs db old c ∧ s.code = shownCode c
  /-- nothing is repeated -/
  fresh : ∀ s t, get? pre a = some s → get? post a = some t →
    (∀ b, t.balance = some b → s.balance ≠ some b ∧ b = acc.info.balance) ∧
    (∀ n, t.nonce = some n → s.nonce ≠ some n ∧ n = acc.info.nonce) ∧
    (∀ c, t.code = some c → s.code ≠ some c ∧ acc.info.code = some c)
  /-- changed balances and nonces are listed -/
  changes : ∀ t, get? post a = some t →
    (old.balance ≠ acc.info.balance → t.balance = some acc.info.balance) ∧
    (old.nonce ≠ acc.info.nonce → acc.info.nonce ≠ 0 → t.nonce = some acc.info.nonce)
  /-- no slot with value zero -/
  zero : ∀ s, get? pre a = some s ∨ get? post a = some s → ∀ k, get? s.storage k ≠ some 0
  /-- every changed slot on its side -/
  slots : ∀ (k : U256) (sl : Slot), (k, sl) ∈ acc.storage → sl.original ≠ sl.present →
    (acc.isCreated = false → sl.original ≠ 0 →
      ∃ s, get? pre a = some s ∧ get? s.storage k = some sl.original) ∧
    (acc.isSelfdestructed = false → sl.present ≠ 0 →
      ∃ s, get? post a = some s ∧ get? s.storage k = some sl.present)

theorem shownNonce_some {n m : Nat} (h : shownNonce n = some m) : m = n := by
  cases n <;> simp [shownNonce] at h; exact h.symm

theorem shownCode_some {c : Option Bytes} {b : Bytes} (h : shownCode c = some b) : c = some b := by
  rcases c with _ | _ | ⟨x, xs⟩ <;> simp [shownCode] at h
  subst h; rfl

theorem codeIs_unique {ε : Type} {db : DB ε} {i : AccountInfo} {c c' : Option Bytes}
    (h : CodeIs db i c) (h' : CodeIs db i c') : c = c' := by
  cases h <;> cases h' <;> simp_all

/-- C34. Missing from the full statement: that an account that did not change is not listed, when
its code was not loaded with it (`hcode`); `C34_refuted` shows that it can then be listed. -/
theorem C34_prestate_diff_partial {ε : Type} (db : DB ε) (state : List (Address × Account))
    (cfg : PreStateConfig) (f : PreStateFrame) (hst : StateMap state)
    (hcfg : cfg.diffMode = some true)
    (hcode : ∀ (a : Address) (acc : Account) (old : AccountInfo) (c : Option Bytes),
      (a, acc) ∈ state → Before db a old → CodeIs db old c →
      acc.info.codeHash = old.codeHash → shownCode acc.info.code = shownCode c)
    (h : gethPrestateTraces db state cfg = .ok f) :
    ∃ pre post, f = .diff pre post ∧ Sorted pre ∧ Sorted post ∧
      (∀ a : Address, (∀ acc : Account, (a, acc) ∉ state) →
        get? pre a = none ∧ get? post a = none) ∧
      ∀ (a : Address) (acc : Account), (a, acc) ∈ state →
        ∃ old, Before db a old ∧ DiffStatement db a old acc pre post := by
  obtain ⟨pre, post, hf, hd⟩ := C34_exact db state cfg f hst hcfg h
  refine ⟨pre, post, hf, hd.sorted.1, hd.sorted.2, hd.untouched, ?_⟩
  intro a acc hm
  obtain ⟨old, hb, ⟨⟨c, hc, hpre, hpost, hafter⟩, hbefore⟩⟩ := hd.touched a acc hm
  refine ⟨old, hb, ?_, ?_, ?_, ?_, ?_, ?_, ?_, ?_⟩
  · intro hcr
    cases hg : get? pre a with
    | none => rfl
    | some s =>
      have := (hpre.1 ⟨s, hg⟩).1
      rw [hcr] at this; simp at this
  · intro hcr
    cases hg : get? post a with
    | none => rfl
    | some s =>
      have := (hpost.1 ⟨s, hg⟩).1
      rw [hcr] at this; simp at this
  · intro hn
    unfold Changed at hn
    simp only [not_or, Decidable.not_not] at hn
    obtain ⟨h1, h2, h3, h4, h5⟩ := hn
    have hnd : ¬ ShownDiffers old c acc := by
      rintro (hx | hx | hx | hx)
      · exact hx h2
      · exact hx h3
      · exact hx (hcode a acc old c hm hb hc h4.symm).symm
      · exact h5 hx
    constructor
    · cases hg : get? pre a with
      | none => rfl
      | some s => exact absurd (hpre.1 ⟨s, hg⟩).2 hnd
    · cases hg : get? post a with
      | none => rfl
      | some s => exact absurd (hpost.1 ⟨s, hg⟩).2 hnd
  · intro s hs
    have := hbefore s hs
    exact ⟨this.balance, this.nonce, this.code⟩
  · intro s t hs ht
    have hA := hafter t ht
    have hB := hbefore s hs
    refine ⟨?_, ?_, ?_⟩
    · intro b hb'
      rcases hA.balance with ⟨_, h2⟩ | ⟨h1, h2⟩
      · rw [h2] at hb'; simp at hb'
      · rw [h2] at hb'
        rw [hB.balance]
        simp only [Option.some.injEq] at hb' h1
        subst hb'
        simp only [ne_eq, Option.some.injEq]
        exact ⟨fun e => h1 (by rw [e]), trivial⟩
    · intro n hn
      rcases hA.nonce with ⟨_, h2⟩ | ⟨h1, h2⟩
      · rw [h2] at hn; simp at hn
      · rw [h2] at hn
        rw [hB.nonce]
        exact ⟨fun e => h1 (by rw [e, hn]), shownNonce_some hn⟩
    · intro cc hcc
      rcases hA.code with ⟨_, h2⟩ | ⟨h1, h2⟩
      · rw [h2] at hcc; simp at hcc
      · rw [h2] at hcc
        obtain ⟨c', hc', he⟩ := hB.code
        rw [codeIs_unique hc' hc] at he
        rw [he]
        exact ⟨fun e => h1 (by rw [e, hcc]), shownCode_some hcc⟩
  · intro t ht
    have hA := hafter t ht
    constructor
    · intro hne
      rcases hA.balance with ⟨h1, _⟩ | ⟨_, h2⟩
      · simp only [Option.some.injEq] at h1; exact absurd h1 hne
      · exact h2
    · intro hne hz
      rcases hA.nonce with ⟨h1, _⟩ | ⟨_, h2⟩
      · exfalso
        apply hne
        revert h1
        generalize old.nonce = m
        generalize acc.info.nonce = n
        cases m <;> cases n <;> simp [shownNonce]
      · rw [h2]
        revert hz
        generalize acc.info.nonce = n
        cases n <;> simp [shownNonce]
  · intro s hs k hk
    rcases hs with hs | hs
    · obtain ⟨sl, _, ⟨_, h2⟩, h3⟩ := ((hbefore s hs).slots k 0).1 hk
      exact h2 h3.symm
    · obtain ⟨sl, _, _, _, h3⟩ := ((hafter s hs).slots k 0).1 hk
      exact h3 rfl
  · intro k sl hk hne
    have hdiff : ShownDiffers old c acc := Or.inr (Or.inr (Or.inr ⟨k, sl, hk, hne⟩))
    constructor
    · intro hcr hz
      obtain ⟨s, hs⟩ := hpre.2 ⟨hcr, hdiff⟩
      exact ⟨s, hs, ((hbefore s hs).slots k _).2 ⟨sl, hk, ⟨hne, hz⟩, rfl⟩⟩
    · intro hcr hz
      obtain ⟨s, hs⟩ := hpost.2 ⟨hcr, hdiff⟩
      exact ⟨s, hs, ((hafter s hs).slots k _).2 ⟨sl, hk, hne, rfl, hz⟩⟩

/-- C57. An account that existed and was destroyed is in `pre`, if its balance, nonce, code or a slot
changed as well. Missing: destruction without such a change, which `C57_refuted` shows to be lost. -/
theorem C57_destroyed_partial {ε : Type} (db : DB ε) (state : List (Address × Account))
    (cfg : PreStateConfig) (pre post : OMap Address AccountState) (hst : StateMap state)
    (hcfg : cfg.diffMode = some true)
    (h : gethPrestateTraces db state cfg = .ok (.diff pre post))
    (a : Address) (acc : Account) (hm : (a, acc) ∈ state) (old : AccountInfo)
    (hb : Before db a old) (hcr : acc.isCreated = false) (hd : acc.isSelfdestructed = true)
    (hch : old.balance ≠ acc.info.balance ∨ old.nonce ≠ acc.info.nonce ∨ SlotChanged acc) :
    ∃ s, get? pre a = some s ∧ s.balance = some old.balance ∧ get? post a = none := by
  obtain ⟨pre', post', hf, hdiff⟩ := C34_exact db state cfg _ hst hcfg h
  simp only [PreStateFrame.diff.injEq] at hf
  obtain ⟨rfl, rfl⟩ := hf
  obtain ⟨old', hb', ⟨⟨c, hc, hpre, hpost, hafter⟩, hbefore⟩⟩ := hdiff.touched a acc hm
  have : old' = old := by
    have h1 := account_of_before hb
    have h2 := account_of_before hb'
    rw [h1] at h2
    simpa using h2.symm
  subst this
  have hsd : ShownDiffers old' c acc := by
    rcases hch with hx | hx | hx
    · exact Or.inl hx
    · exact Or.inr (Or.inl hx)
    · exact Or.inr (Or.inr (Or.inr hx))
  obtain ⟨s, hs⟩ := hpre.2 ⟨hcr, hsd⟩
  refine ⟨s, hs, (hbefore s hs).balance, ?_⟩
  cases hg : get? post a with
  | none => rfl
  | some t =>
    have := (hpost.1 ⟨t, hg⟩).1
    rw [hd] at this; simp at this

/-- **C57, exact**: an account that existed and was destroyed is never in `post`; it is in `pre` exactly
if its balance, its nonce, a slot or the code that is shown differ, and then as it was before. -/
theorem C57_exact {ε : Type} (db : DB ε) (state : List (Address × Account))
    (cfg : PreStateConfig) (pre post : OMap Address AccountState) (hst : StateMap state)
    (hcfg : cfg.diffMode = some true)
    (h : gethPrestateTraces db state cfg = .ok (.diff pre post))
    (a : Address) (acc : Account) (hm : (a, acc) ∈ state) (old : AccountInfo)
    (hb : Before db a old) (hcr : acc.isCreated = false) (hd : acc.isSelfdestructed = true) :
    get? post a = none ∧ (∃ c, CodeIs db old c ∧
      (get? pre a ≠ none ↔ old.balance ≠ acc.info.balance ∨ old.nonce ≠ acc.info.nonce ∨
        SlotChanged acc ∨ shownCode c ≠ shownCode acc.info.code)) ∧
    ∀ s, get? pre a = some s →
      AsBefore db old acc (fun sl => sl.original ≠ sl.present ∧ sl.original ≠ 0) s := by
  obtain ⟨pre', post', hf, hdiff⟩ := C34_exact db state cfg _ hst hcfg h
  simp only [PreStateFrame.diff.injEq] at hf
  obtain ⟨rfl, rfl⟩ := hf
  obtain ⟨old', hb', ⟨⟨c, hc, hpre, hpost, hafter⟩, hbefore⟩⟩ := hdiff.touched a acc hm
  have : old' = old := by
    have h1 := account_of_before hb
    have h2 := account_of_before hb'
    rw [h1] at h2
    simpa using h2.symm
  subst this
  refine ⟨?_, ⟨c, hc, ?_⟩, hbefore⟩
  · cases hg : get? post a with
    | none => rfl
    | some t =>
      have := (hpost.1 ⟨t, hg⟩).1
      rw [hd] at this; simp at this
  · have e : get? pre a ≠ none ↔ ∃ s, get? pre a = some s := by
      cases get? pre a <;> simp
    rw [e, hpre]
    unfold ShownDiffers
    constructor
    · rintro ⟨_, hx | hx | hx | hx⟩ <;> simp [hx]
    · rintro (hx | hx | hx | hx) <;> simp [hx, hcr]

end Verif.Props
