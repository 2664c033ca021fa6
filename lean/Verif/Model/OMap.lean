import Verif.Revm
/-!
Finite maps. Rust's `BTreeMap` iterates in key order, so it is represented by its list of entries in
key order. A `HashMap` is represented the same way where the code only looks up and inserts; where
the code iterates over a `HashMap` the model takes the list in the (arbitrary) iteration order as an
argument instead.
-/
namespace Verif

/-- Keys are ordered like numbers. -/
class Key (κ : Type) where
  num : κ → Nat
  inj : ∀ a b, num a = num b → a = b

instance {w : Nat} : Key (BitVec w) := ⟨BitVec.toNat, fun _ _ h => BitVec.eq_of_toNat_eq h⟩
instance : Key UInt8 := ⟨UInt8.toNat, fun _ _ h => UInt8.toNat_inj.1 h⟩

/-- Entries in key order. std, e.g. /repo/src/tracing/builder/geth.rs:281-282. -/
abbrev OMap (κ ν : Type) := List (κ × ν)

namespace OMap
variable {κ ν : Type} [Key κ]

/-- `map.get(&k)`. std, e.g. /repo/src/tracing/builder/geth.rs:281-282. -/
def get? (m : OMap κ ν) (k : κ) : Option ν :=
  match m with
  | [] => none
  | (k', v) :: rest => if Key.num k = Key.num k' then some v else get? rest k

/-- `map.insert(k, v)`. std, e.g. /repo/src/tracing/builder/geth.rs:281-282. -/
def insert (m : OMap κ ν) (k : κ) (v : ν) : OMap κ ν :=
  match m with
  | [] => [(k, v)]
  | (k', v') :: rest =>
    if Key.num k < Key.num k' then (k, v) :: (k', v') :: rest
    else if Key.num k = Key.num k' then (k, v) :: rest
    else (k', v') :: insert rest k v

/-- The entries are in strictly increasing key order. std, e.g. /repo/src/tracing/builder/geth.rs:281-282. -/
def Sorted (m : OMap κ ν) : Prop := m.Pairwise (fun a b => Key.num a.1 < Key.num b.1)

theorem sorted_nil : Sorted ([] : OMap κ ν) := List.Pairwise.nil

theorem get?_eq_none_of_lt {m : OMap κ ν} {k : κ}
    (h : ∀ e ∈ m, Key.num k < Key.num e.1) : get? m k = none := by
  induction m with
  | nil => rfl
  | cons e m ih =>
    obtain ⟨k', v⟩ := e
    have h1 := h (k', v) (by simp)
    simp only [get?]
    rw [if_neg (by simp at h1; omega)]
    exact ih (fun e he => h e (by simp [he]))

theorem get?_insert (m : OMap κ ν) (k k' : κ) (v : ν) (hs : Sorted m) :
    get? (insert m k v) k' = if Key.num k' = Key.num k then some v else get? m k' := by
  induction m with
  | nil => simp [insert, get?]
  | cons e m ih =>
    obtain ⟨k1, v1⟩ := e
    unfold Sorted at hs
    rw [List.pairwise_cons] at hs
    simp only [insert]
    split
    · simp only [get?]
    · split
      · simp only [get?]
        split
        · rfl
        · rw [if_neg (by omega)]
      · simp only [get?]
        rw [ih hs.2]
        split
        · rw [if_neg (by omega)]
        · rfl

theorem get?_insert_eq [DecidableEq κ] (m : OMap κ ν) (k k' : κ) (v : ν) (hs : Sorted m) :
    get? (insert m k v) k' = if k' = k then some v else get? m k' := by
  rw [get?_insert m k k' v hs]
  by_cases h : k' = k
  · simp [h]
  · have : ¬ Key.num k' = Key.num k := fun e => h (Key.inj _ _ e)
    simp [h, this]

theorem mem_insert_num {m : OMap κ ν} {k : κ} {v : ν} {e : κ × ν} (h : e ∈ insert m k v) :
    e = (k, v) ∨ e ∈ m := by
  induction m with
  | nil => simpa [insert] using h
  | cons e' m ih =>
    obtain ⟨k1, v1⟩ := e'
    simp only [insert] at h
    split at h
    · simpa using h
    · split at h
      · simp only [List.mem_cons] at h ⊢
        rcases h with h | h
        · exact Or.inl h
        · exact Or.inr (Or.inr h)
      · simp only [List.mem_cons] at h ⊢
        rcases h with h | h
        · exact Or.inr (Or.inl h)
        · rcases ih h with h | h
          · exact Or.inl h
          · exact Or.inr (Or.inr h)

theorem sorted_insert {m : OMap κ ν} (k : κ) (v : ν) (hs : Sorted m) : Sorted (insert m k v) := by
  induction m with
  | nil => simp [insert, Sorted]
  | cons e m ih =>
    obtain ⟨k1, v1⟩ := e
    unfold Sorted at *
    rw [List.pairwise_cons] at hs
    simp only [insert]
    split
    · rename_i hlt
      rw [List.pairwise_cons, List.pairwise_cons]
      refine ⟨?_, hs⟩
      intro e he
      simp only [List.mem_cons] at he
      rcases he with rfl | he
      · exact hlt
      · exact Nat.lt_trans hlt (hs.1 e he)
    · split
      · rename_i heq
        rw [List.pairwise_cons]
        refine ⟨?_, hs.2⟩
        intro e he
        have := hs.1 e he
        simp only at this ⊢
        omega
      · rw [List.pairwise_cons]
        refine ⟨?_, ih hs.2⟩
        intro e he
        rcases mem_insert_num he with rfl | he
        · simp only; omega
        · exact hs.1 e he

theorem get?_of_mem {m : OMap κ ν} (hs : Sorted m) {k : κ} {v : ν} (h : (k, v) ∈ m) :
    get? m k = some v := by
  induction m with
  | nil => simp at h
  | cons e m ih =>
    obtain ⟨k1, v1⟩ := e
    unfold Sorted at hs
    rw [List.pairwise_cons] at hs
    simp only [List.mem_cons, Prod.mk.injEq] at h
    simp only [get?]
    rcases h with ⟨rfl, rfl⟩ | h
    · simp
    · have := hs.1 _ h
      rw [if_neg (by simp at this; omega)]
      exact ih hs.2 h

theorem mem_of_get? {m : OMap κ ν} {k : κ} {v : ν} (h : get? m k = some v) : (k, v) ∈ m := by
  induction m with
  | nil => simp [get?] at h
  | cons e m ih =>
    obtain ⟨k1, v1⟩ := e
    simp only [get?] at h
    split at h
    · rename_i heq
      simp only [Option.some.injEq] at h
      have := Key.inj _ _ heq
      subst this; subst h; simp
    · simp [ih h]

/-- A map is determined by its lookups. -/
theorem ext {m m' : OMap κ ν} (hs : Sorted m) (hs' : Sorted m') (h : ∀ k, get? m k = get? m' k) :
    m = m' := by
  induction m generalizing m' with
  | nil =>
    cases m' with
    | nil => rfl
    | cons e m' =>
      obtain ⟨k1, v1⟩ := e
      have := h k1
      simp [get?] at this
  | cons e m ih =>
    obtain ⟨k1, v1⟩ := e
    cases m' with
    | nil =>
      have := h k1
      simp [get?] at this
    | cons e' m' =>
      obtain ⟨k2, v2⟩ := e'
      unfold Sorted at hs hs'
      rw [List.pairwise_cons] at hs hs'
      have hk : Key.num k1 = Key.num k2 := by
        rcases Nat.lt_trichotomy (Key.num k1) (Key.num k2) with hlt | heq | hlt
        · have := h k1
          simp only [get?, if_true, if_neg (Nat.ne_of_lt hlt)] at this
          rw [get?_eq_none_of_lt (fun e he => Nat.lt_trans hlt (hs'.1 e he))] at this
          simp at this
        · exact heq
        · have := h k2
          simp only [get?, if_true, if_neg (Nat.ne_of_lt hlt)] at this
          rw [get?_eq_none_of_lt (fun e he => Nat.lt_trans hlt (hs.1 e he))] at this
          simp at this
      have hk' := Key.inj _ _ hk
      subst hk'
      have hv := h k1
      simp only [get?, if_true, Option.some.injEq] at hv
      subst hv
      congr 1
      apply ih hs.2 hs'.2
      intro k
      have := h k
      simp only [get?] at this
      by_cases hkk : Key.num k = Key.num k1
      · rw [get?_eq_none_of_lt (fun e he => by rw [hkk]; exact hs.1 e he),
          get?_eq_none_of_lt (fun e he => by rw [hkk]; exact hs'.1 e he)]
      · simpa [hkk] using this

/-- The lookup of a map without the entries failing a test (`retain`). -/
theorem get?_filter {m : OMap κ ν} (hs : Sorted m) (p : κ × ν → Bool) (k : κ) :
    get? (m.filter p) k = (get? m k).filter (fun v => p (k, v)) := by
  induction m with
  | nil => rfl
  | cons e m ih =>
    obtain ⟨k1, v1⟩ := e
    unfold Sorted at hs
    rw [List.pairwise_cons] at hs
    simp only [get?, List.filter_cons]
    by_cases heq : Key.num k = Key.num k1
    · have hk := Key.inj _ _ heq
      subst hk
      cases hp : p (k, v1)
      · simp only [Bool.false_eq_true, if_false, if_true, Option.filter, hp]
        rw [ih hs.2, get?_eq_none_of_lt (fun e he => hs.1 e he)]; rfl
      · simp [get?, Option.filter, hp]
    · simp only [if_neg heq]
      cases hp : p (k1, v1)
      · simp [ih hs.2]
      · simp [get?, heq, ih hs.2]

theorem sorted_filter {m : OMap κ ν} (hs : Sorted m) (p : κ × ν → Bool) : Sorted (m.filter p) :=
  List.Pairwise.filter _ hs

/-- Mapping over the values. -/
theorem get?_map {ν' : Type} (m : OMap κ ν) (f : κ → ν → ν') (k : κ) :
    get? (m.map (fun e => (e.1, f e.1 e.2)) : OMap κ ν') k = (get? m k).map (f k) := by
  induction m with
  | nil => rfl
  | cons e m ih =>
    obtain ⟨k1, v1⟩ := e
    simp only [get?, List.map_cons]
    by_cases heq : Key.num k = Key.num k1
    · have hk := Key.inj _ _ heq
      subst hk; simp
    · simp [heq, ih]

theorem sorted_map {ν' : Type} {m : OMap κ ν} (hs : Sorted m) (f : κ → ν → ν') :
    Sorted (m.map (fun e => (e.1, f e.1 e.2)) : OMap κ ν') := by
  unfold Sorted at *
  rw [List.pairwise_map]
  exact hs

end OMap
end Verif
