import Verif.Model.State
/-! Lemmas on maps filled from the entries of another map, and on the loops over state maps. -/
namespace Verif

namespace OMap
variable {κ ν ν' : Type} [Key κ]

/-- No key occurs twice (the entries of a `HashMap` in some order). -/
def Distinct (l : List (κ × ν)) : Prop := l.Pairwise (fun a b => Key.num a.1 ≠ Key.num b.1)

theorem get?_eq_none_of_ne {l : List (κ × ν)} {k : κ}
    (h : ∀ e ∈ l, Key.num k ≠ Key.num e.1) : get? l k = none := by
  induction l with
  | nil => rfl
  | cons e l ih =>
    obtain ⟨k', v⟩ := e
    have h1 := h (k', v) (by simp)
    simp only [get?]
    rw [if_neg h1]
    exact ih (fun e he => h e (by simp [he]))

theorem get?_of_mem_distinct {l : List (κ × ν)} (hd : Distinct l) {k : κ} {v : ν}
    (h : (k, v) ∈ l) : get? l k = some v := by
  induction l with
  | nil => simp at h
  | cons e l ih =>
    obtain ⟨k1, v1⟩ := e
    unfold Distinct at hd
    rw [List.pairwise_cons] at hd
    simp only [List.mem_cons, Prod.mk.injEq] at h
    simp only [get?]
    rcases h with ⟨rfl, rfl⟩ | h
    · simp
    · have := hd.1 _ h
      rw [if_neg (fun e => this e.symm)]
      exact ih hd.2 h

theorem get?_iff {l : List (κ × ν)} (hd : Distinct l) {k : κ} {v : ν} :
    get? l k = some v ↔ (k, v) ∈ l :=
  ⟨mem_of_get?, get?_of_mem_distinct hd⟩

theorem get?_eq_none_iff {l : List (κ × ν)} {k : κ} : get? l k = none ↔ ∀ v, (k, v) ∉ l := by
  constructor
  · intro h v hv
    induction l with
    | nil => simp at hv
    | cons e l ih =>
      obtain ⟨k1, v1⟩ := e
      simp only [get?] at h
      split at h
      · simp at h
      · rename_i hne
        simp only [List.mem_cons, Prod.mk.injEq] at hv
        rcases hv with ⟨rfl, rfl⟩ | hv
        · exact hne rfl
        · exact ih h hv
  · intro h
    apply get?_eq_none_of_ne
    intro e he heq
    have := Key.inj _ _ heq
    subst this
    exact h e.2 he

theorem Distinct.perm {l l' : List (κ × ν)} (hd : Distinct l) (hp : l.Perm l') : Distinct l' :=
  hp.pairwise hd (fun h e => h e.symm)

theorem get?_perm {l l' : List (κ × ν)} (hd : Distinct l) (hp : l.Perm l') (k : κ) :
    get? l k = get? l' k := by
  have hd' := hd.perm hp
  cases h : get? l' k with
  | none =>
    rw [get?_eq_none_iff] at h ⊢
    intro v hv
    exact h v (hp.mem_iff.1 hv)
  | some v =>
    rw [get?_iff hd'] at h
    rw [get?_iff hd]
    exact hp.mem_iff.2 h

/-- Insert the images of the entries for which there is one. -/
def insertIf (g : ν → Option ν') (st : OMap κ ν') : List (κ × ν) → OMap κ ν'
  | [] => st
  | (k, v) :: rest =>
    insertIf g (match g v with | some w => insert st k w | none => st) rest

theorem sorted_insertIf (g : ν → Option ν') {st : OMap κ ν'} (hs : Sorted st)
    (l : List (κ × ν)) : Sorted (insertIf g st l) := by
  induction l generalizing st with
  | nil => exact hs
  | cons e l ih =>
    obtain ⟨k, v⟩ := e
    simp only [insertIf]
    apply ih
    split
    · exact sorted_insert _ _ hs
    · exact hs

theorem get?_insertIf (g : ν → Option ν') {st : OMap κ ν'} (hs : Sorted st) {l : List (κ × ν)}
    (hd : Distinct l) (k : κ) :
    get? (insertIf g st l) k = ((get? l k).bind g).or (get? st k) := by
  induction l generalizing st with
  | nil => simp [insertIf, get?]
  | cons e l ih =>
    obtain ⟨k1, v⟩ := e
    unfold Distinct at hd
    rw [List.pairwise_cons] at hd
    simp only [insertIf]
    rw [ih (by split; exact sorted_insert _ _ hs; exact hs) hd.2]
    simp only [get?]
    by_cases heq : Key.num k = Key.num k1
    · have hk := Key.inj _ _ heq
      subst hk
      rw [get?_eq_none_of_ne (fun e he => hd.1 e he)]
      cases hg : g v with
      | none => simp [hg]
      | some w => simp [hg, get?_insert _ _ _ _ hs]
    · simp only [if_neg heq]
      cases hg : g v with
      | none => simp
      | some w => simp [get?_insert _ _ _ _ hs, heq]

theorem get?_remove {m : OMap κ ν} (hs : Sorted m) (k k' : κ) :
    get? (remove m k) k' = if Key.num k' = Key.num k then none else get? m k' := by
  unfold remove
  rw [get?_filter hs]
  by_cases h : Key.num k' = Key.num k
  · cases get? m k' <;> simp [h, Option.filter]
  · cases get? m k' <;> simp [h, Option.filter]

theorem sorted_remove {m : OMap κ ν} (hs : Sorted m) (k : κ) : Sorted (remove m k) :=
  sorted_filter hs _

theorem isEmpty_iff {m : OMap κ ν} : m.isEmpty = true ↔ ∀ k, get? m k = none := by
  cases m with
  | nil => simp [get?]
  | cons e m =>
    obtain ⟨k, v⟩ := e
    simp only [List.isEmpty_cons, Bool.false_eq_true, false_iff]
    intro h
    have := h k
    simp [get?] at this

theorem Sorted.distinct {m : OMap κ ν} (hs : Sorted m) : Distinct m :=
  List.Pairwise.imp (fun h => Nat.ne_of_lt h) hs

end OMap

open OMap

theorem addedStorage_eq (st : OMap U256 (Delta U256)) (l : List (U256 × Slot)) :
    addedStorage st l
      = insertIf (fun s : Slot => if s.isChanged then some (Delta.added s.present) else none) st l := by
  induction l generalizing st with
  | nil => rfl
  | cons e l ih =>
    obtain ⟨k, s⟩ := e
    simp only [addedStorage, insertIf]
    rw [ih]
    cases s.isChanged <;> rfl

theorem changedStorage_eq (st : OMap U256 (Delta U256)) (l : List (U256 × Slot)) :
    changedStorage st l
      = insertIf (fun s : Slot => if s.isChanged then some (Delta.changed s.original s.present)
          else none) st l := by
  induction l generalizing st with
  | nil => rfl
  | cons e l ih =>
    obtain ⟨k, s⟩ := e
    simp only [changedStorage, insertIf]
    rw [ih]
    cases s.isChanged <;> rfl

theorem insertSlots_eq (f : Slot → U256) (st : OMap U256 U256) (l : List (U256 × Slot)) :
    insertSlots f st l = insertIf (fun s => some (f s)) st l := by
  induction l generalizing st with
  | nil => rfl
  | cons e l ih =>
    obtain ⟨k, s⟩ := e
    simp only [insertSlots, insertIf]
    rw [ih]

/-! ### populate_state_diff -/

/-- What the iteration for an account makes of its entry. -/
def entryAfter {ε : Type} (db : DB ε) (entry : Option AccountDiff) (a : Address) (acc : Account) :
    Except ε (Option AccountDiff) :=
  if acc.isSelfdestructed && acc.isCreated then .ok entry
  else if acc.isCreated then
    .ok (some
      { balance := .added acc.info.balance
        nonce := .added acc.info.nonce
        code := .added ((loadAccountCode db acc.info).getD [])
        storage := addedStorage (entry.getD {}).storage acc.storage })
  else
    match db.account a with
    | .error e => .error e
    | .ok dbAcc =>
      let storage := changedStorage (entry.getD {}).storage acc.storage
      if storage.isEmpty && dbAcc.eq acc.info && !acc.isSelfdestructed then .ok none
      else
        .ok (some
          { balance := if dbAcc.balance = acc.info.balance then .unchanged
              else .changed dbAcc.balance acc.info.balance
            code := (entry.getD {}).code
            nonce := if dbAcc.nonce = acc.info.nonce then .unchanged
              else .changed dbAcc.nonce acc.info.nonce
            storage := storage })

theorem populateAccount_spec {ε : Type} (db : DB ε) {diff : StateDiff} (hs : Sorted diff)
    (a : Address) (acc : Account) :
    match populateAccount db diff a acc with
    | .error e => entryAfter db (get? diff a) a acc = .error e
    | .ok d => ∃ r, entryAfter db (get? diff a) a acc = .ok r ∧ Sorted d ∧
        ∀ k, get? d k = if k = a then r else get? diff k := by
  have hone : ∀ k : Address, (Key.num k = Key.num a) ↔ k = a :=
    fun k => ⟨Key.inj _ _, fun h => by rw [h]⟩
  unfold populateAccount entryAfter
  cases h1 : (acc.isSelfdestructed && acc.isCreated) with
  | true =>
    refine ⟨_, rfl, hs, ?_⟩
    intro k
    by_cases hk : k = a
    · simp [hk]
    · simp [hk]
  | false =>
    cases h2 : acc.isCreated with
    | true =>
      refine ⟨_, rfl, sorted_insert _ _ hs, ?_⟩
      intro k
      rw [get?_insert _ _ _ _ hs]
      simp only [hone]
    | false =>
      cases hdb : db.account a with
      | error e => rfl
      | ok old =>
        simp only [Bool.false_eq_true, if_false]
        cases hc : ((changedStorage ((get? diff a).getD {}).storage acc.storage).isEmpty
            && old.eq acc.info && !acc.isSelfdestructed) with
        | true =>
          refine ⟨_, rfl, sorted_remove hs _, ?_⟩
          intro k
          rw [get?_remove hs]
          simp only [hone]
        | false =>
          refine ⟨_, rfl, sorted_insert _ _ hs, ?_⟩
          intro k
          rw [get?_insert _ _ _ _ hs]
          simp only [hone]

theorem populateStateDiff_spec {ε : Type} (db : DB ε) {diff : StateDiff} (hs : Sorted diff)
    {state : List (Address × Account)} (hd : Distinct state) :
    match populateStateDiff db diff state with
    | .error e => ∃ a acc, (a, acc) ∈ state ∧ entryAfter db (get? diff a) a acc = .error e
    | .ok d => Sorted d ∧
        (∀ a, get? state a = none → get? d a = get? diff a) ∧
        ∀ a acc, (a, acc) ∈ state → entryAfter db (get? diff a) a acc = .ok (get? d a) := by
  induction state generalizing diff with
  | nil => simp [populateStateDiff, get?, hs]
  | cons e state ih =>
    obtain ⟨a0, acc0⟩ := e
    unfold Distinct at hd
    rw [List.pairwise_cons] at hd
    have h := populateAccount_spec db hs a0 acc0
    unfold populateStateDiff
    cases hp : populateAccount db diff a0 acc0 with
    | error e =>
      rw [hp] at h
      exact ⟨a0, acc0, by simp, h⟩
    | ok d1 =>
      rw [hp] at h
      obtain ⟨r, hr, hs1, hg⟩ := h
      have ih := ih hs1 hd.2
      simp only
      have hne : ∀ a acc, (a, acc) ∈ state → a ≠ a0 := by
        intro a acc hm he
        have := hd.1 (a, acc) hm
        simp [he] at this
      cases hp2 : populateStateDiff db d1 state with
      | error e =>
        rw [hp2] at ih
        obtain ⟨a, acc, hm, he⟩ := ih
        refine ⟨a, acc, by simp [hm], ?_⟩
        rw [hg, if_neg (hne a acc hm)] at he
        exact he
      | ok d =>
        rw [hp2] at ih
        obtain ⟨hsd, hout, hin⟩ := ih
        refine ⟨hsd, ?_, ?_⟩
        · intro a ha
          simp only [get?] at ha
          split at ha
          · simp at ha
          · rename_i hk
            rw [hout a ha, hg, if_neg (fun he => hk (by rw [he]))]
        · intro a acc hm
          simp only [List.mem_cons, Prod.mk.injEq] at hm
          rcases hm with ⟨rfl, rfl⟩ | hm
          · rw [hr, hout a (get?_eq_none_of_ne (fun e he => hd.1 e he)), hg, if_pos rfl]
          · have := hin a acc hm
            rw [hg, if_neg (hne a acc hm)] at this
            exact this

/-! ### geth_prestate_traces -/

/-- A loop that reads something for each account and inserts it; the readings of all accounts. -/
theorem prestateDefault_spec {ε : Type} (db : DB ε) {m : OMap Address AccountState}
    (hs : Sorted m) {state : List (Address × Account)} (hd : Distinct state) :
    match prestateDefault db m state with
    | .error e => ∃ a acc, (a, acc) ∈ state ∧ db.account a = .error e
    | .ok d => Sorted d ∧
        (∀ a, get? state a = none → get? d a = get? m a) ∧
        ∀ a acc, (a, acc) ∈ state → ∃ i, db.account a = .ok i ∧
          get? d a = some { AccountState.fromAccountInfo i.nonce i.balance (loadAccountCode db i) with
            storage := insertSlots Slot.original [] acc.storage } := by
  induction state generalizing m with
  | nil => simp [prestateDefault, get?, hs]
  | cons e state ih =>
    obtain ⟨a0, acc0⟩ := e
    unfold Distinct at hd
    rw [List.pairwise_cons] at hd
    unfold prestateDefault
    cases hdb : db.account a0 with
    | error e => exact ⟨a0, acc0, by simp, hdb⟩
    | ok i0 =>
      simp only
      generalize hv : ({ AccountState.fromAccountInfo i0.nonce i0.balance (loadAccountCode db i0) with
            storage := insertSlots Slot.original (AccountState.fromAccountInfo i0.nonce i0.balance (loadAccountCode db i0)).storage acc0.storage } : AccountState) = v
      have ih := ih (sorted_insert a0 v hs) hd.2
      cases hp : prestateDefault db (insert m a0 v) state with
      | error e =>
        rw [hp] at ih
        obtain ⟨a, acc, hm, he⟩ := ih
        exact ⟨a, acc, by simp [hm], he⟩
      | ok d =>
        rw [hp] at ih
        obtain ⟨hsd, hout, hin⟩ := ih
        refine ⟨hsd, ?_, ?_⟩
        · intro a ha
          simp only [get?] at ha
          split at ha
          · simp at ha
          · rename_i hk
            rw [hout a ha, get?_insert _ _ _ _ hs, if_neg hk]
        · intro a acc hm
          simp only [List.mem_cons, Prod.mk.injEq] at hm
          rcases hm with ⟨rfl, rfl⟩ | hm
          · refine ⟨i0, hdb, ?_⟩
            rw [hout a (get?_eq_none_of_ne (fun e he => hd.1 e he)), get?_insert _ _ _ _ hs,
              if_pos rfl, ← hv]
            rfl
          · exact hin a acc hm

/-- The first account state of the diff loop. -/
def preStateOf {ε : Type} (db : DB ε) (i : AccountInfo) (acc : Account) : AccountState :=
  { AccountState.fromAccountInfo i.nonce i.balance (loadAccountCode db i) with
    storage := insertSlots Slot.original [] acc.changedSlots }

/-- The second account state of the diff loop. -/
def postStateOf (acc : Account) : AccountState :=
  { AccountState.fromAccountInfo acc.info.nonce acc.info.balance acc.info.code with
    storage := insertSlots Slot.present [] acc.changedSlots }

theorem prestateDiffLoop_spec {ε : Type} (db : DB ε) {pre post : OMap Address AccountState}
    {kinds : OMap Address (Bool × Bool)} (hs : Sorted pre) (hs' : Sorted post)
    (hk : Sorted kinds) {state : List (Address × Account)} (hd : Distinct state) :
    match prestateDiffLoop db pre post kinds state with
    | .error e => ∃ a acc, (a, acc) ∈ state ∧ db.account a = .error e
    | .ok (pre', post', kinds') => Sorted pre' ∧ Sorted post' ∧ Sorted kinds' ∧
        (∀ a, get? state a = none → get? pre' a = get? pre a ∧ get? post' a = get? post a ∧
          get? kinds' a = get? kinds a) ∧
        ∀ a acc, (a, acc) ∈ state → ∃ i, db.account a = .ok i ∧
          get? pre' a = some (preStateOf db i acc) ∧ get? post' a = some (postStateOf acc) ∧
          get? kinds' a = some (acc.isCreated, acc.isSelfdestructed) := by
  induction state generalizing pre post kinds with
  | nil => simp [prestateDiffLoop, get?, hs, hs', hk]
  | cons e state ih =>
    obtain ⟨a0, acc0⟩ := e
    unfold Distinct at hd
    rw [List.pairwise_cons] at hd
    unfold prestateDiffLoop
    cases hdb : db.account a0 with
    | error e => exact ⟨a0, acc0, by simp, hdb⟩
    | ok i0 =>
      have ih := ih (sorted_insert a0 (preStateOf db i0 acc0) hs)
        (sorted_insert a0 (postStateOf acc0) hs')
        (sorted_insert a0 (acc0.isCreated, acc0.isSelfdestructed) hk) hd.2
      show match prestateDiffLoop db (insert pre a0 (preStateOf db i0 acc0))
        (insert post a0 (postStateOf acc0))
        (insert kinds a0 (acc0.isCreated, acc0.isSelfdestructed)) state with
        | .error e => _
        | .ok (pre', post', kinds') => _
      cases hp : prestateDiffLoop db (insert pre a0 (preStateOf db i0 acc0))
        (insert post a0 (postStateOf acc0))
        (insert kinds a0 (acc0.isCreated, acc0.isSelfdestructed)) state with
      | error e =>
        rw [hp] at ih
        obtain ⟨a, acc, hm, he⟩ := ih
        exact ⟨a, acc, by simp [hm], he⟩
      | ok d =>
        obtain ⟨d1, d2, d3⟩ := d
        rw [hp] at ih
        obtain ⟨h1, h2, h3, hout, hin⟩ := ih
        refine ⟨h1, h2, h3, ?_, ?_⟩
        · intro a ha
          simp only [get?] at ha
          split at ha
          · simp at ha
          · rename_i hk2
            have := hout a ha
            rw [get?_insert _ _ _ _ hs, get?_insert _ _ _ _ hs', get?_insert _ _ _ _ hk,
              if_neg hk2, if_neg hk2, if_neg hk2] at this
            exact this
        · intro a acc hm
          simp only [List.mem_cons, Prod.mk.injEq] at hm
          rcases hm with ⟨rfl, rfl⟩ | hm
          · refine ⟨i0, hdb, ?_⟩
            have := hout a (get?_eq_none_of_ne (fun e he => hd.1 e he))
            rw [get?_insert _ _ _ _ hs, get?_insert _ _ _ _ hs', get?_insert _ _ _ _ hk,
              if_pos rfl, if_pos rfl, if_pos rfl] at this
            exact this
          · exact hin a acc hm

/-- What the first `retain` of `diff_traces` leaves of an account state it keeps. -/
def matchPost (pre : OMap Address AccountState) (k : Address) (v : AccountState) : AccountState :=
  match get? pre k with
  | some p => v.removeMatching p
  | none => v

theorem diffTraces_eq (pre post : OMap Address AccountState) (kinds : OMap Address (Bool × Bool)) :
    diffTraces pre post kinds =
      (List.filter (fun e : Address × AccountState =>
          ((get? kinds e.1).map (fun k => !k.1)).getD true) pre,
       (List.filter (fun e : Address × AccountState =>
          !((get? kinds e.1).map (·.2)).getD false) post).map
            (fun e => (e.1, matchPost pre e.1 e.2))) := by
  unfold diffTraces
  simp only [Prod.mk.injEq, true_and]
  apply List.map_congr_left
  intro e _
  unfold matchPost
  cases h : get? pre e.1 <;> simp

theorem get?_diffTraces {pre post : OMap Address AccountState} {kinds : OMap Address (Bool × Bool)}
    (hs : Sorted pre) (hs' : Sorted post) (a : Address) :
    get? (diffTraces pre post kinds).1 a
        = (get? pre a).filter (fun _ => ((get? kinds a).map (fun k => !k.1)).getD true) ∧
    get? (diffTraces pre post kinds).2 a
        = ((get? post a).filter (fun _ => !((get? kinds a).map (·.2)).getD false)).map
            (matchPost pre a) ∧
    Sorted (diffTraces pre post kinds).1 ∧ Sorted (diffTraces pre post kinds).2 := by
  rw [diffTraces_eq]
  refine ⟨?_, ?_, sorted_filter hs _, sorted_map (sorted_filter hs' _) _⟩
  · simp only; rw [get?_filter hs]
  · simp only; rw [get?_map, get?_filter hs']

theorem sorted_removeZero {m : OMap Address AccountState} (hs : Sorted m) : Sorted (removeZero m) :=
  sorted_map hs (fun _ v => ({ v with storage := v.storage.filter (fun kv => kv.2 ≠ 0) } : AccountState))

/-- An account state without its zero slots. -/
def dropZero (s : AccountState) : AccountState :=
  { s with storage := s.storage.filter (fun kv => kv.2 ≠ 0) }

theorem get?_removeZero (m : OMap Address AccountState) (a : Address) :
    get? (removeZero m) a = (get? m a).map dropZero :=
  get?_map m (fun _ v => dropZero v) a

theorem get?_retainChanged {pre post : OMap Address AccountState} (hs : Sorted pre)
    (hs' : Sorted post) (a : Address) :
    get? (retainChanged pre post).1 a = (get? pre a).filter (fun v => get? post a ≠ some v) ∧
    get? (retainChanged pre post).2 a = (get? post a).filter (fun v => get? pre a ≠ some v) ∧
    Sorted (retainChanged pre post).1 ∧ Sorted (retainChanged pre post).2 := by
  unfold retainChanged
  refine ⟨?_, ?_, sorted_filter hs _, sorted_filter hs' _⟩
  · simp only; rw [get?_filter hs]
  · simp only; rw [get?_filter hs']

end Verif
