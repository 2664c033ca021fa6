import Verif.Revm
/-! `HashMap`s that are only looked up and updated: association lists without a meaningful order. -/
namespace Verif

/-- Entries, each key at most once. std, e.g. /repo/src/opcode.rs:12-14. -/
abbrev AMap (κ ν : Type) := List (κ × ν)

namespace AMap
variable {κ ν : Type} [DecidableEq κ]

/-- `map.get(&k)`. std, e.g. /repo/src/opcode.rs:12-14. -/
def get? (m : AMap κ ν) (k : κ) : Option ν :=
  match m with
  | [] => none
  | (k', v) :: rest => if k = k' then some v else get? rest k

/-- `map.insert(k, v)`. std, e.g. /repo/src/opcode.rs:12-14. -/
def insert (m : AMap κ ν) (k : κ) (v : ν) : AMap κ ν :=
  match m with
  | [] => [(k, v)]
  | (k', v') :: rest => if k = k' then (k, v) :: rest else (k', v') :: insert rest k v

/-- `iter.collect()` into a map: later entries replace earlier ones with the same key.
std, e.g. /repo/src/opcode.rs:12-14. -/
def collect (l : List (κ × ν)) : AMap κ ν := l.foldl (fun m e => insert m e.1 e.2) []

theorem get?_insert (m : AMap κ ν) (k k' : κ) (v : ν) :
    get? (insert m k v) k' = if k' = k then some v else get? m k' := by
  induction m with
  | nil => simp [insert, get?]
  | cons e m ih =>
    obtain ⟨k1, v1⟩ := e
    simp only [insert]
    split
    · rename_i h
      subst h
      simp only [get?]
      split <;> rfl
    · rename_i h
      simp only [get?]
      split
      · rename_i h2
        subst h2
        rw [if_neg (fun e => h e.symm)]
      · exact ih

/-- Each key occurs once. std, e.g. /repo/src/opcode.rs:12-14. -/
def Nodup (m : AMap κ ν) : Prop := (m.map Prod.fst).Nodup

theorem mem_keys_insert (m : AMap κ ν) (k k' : κ) (v : ν) :
    k' ∈ (insert m k v).map Prod.fst ↔ k' = k ∨ k' ∈ m.map Prod.fst := by
  induction m with
  | nil => simp [insert]
  | cons e m ih =>
    obtain ⟨k1, v1⟩ := e
    simp only [insert]
    split
    · rename_i h
      subst h
      simp
    · simp only [List.map_cons, List.mem_cons, ih]
      constructor
      · rintro (h | h | h)
        · exact Or.inr (Or.inl h)
        · exact Or.inl h
        · exact Or.inr (Or.inr h)
      · rintro (h | h | h)
        · exact Or.inr (Or.inl h)
        · exact Or.inl h
        · exact Or.inr (Or.inr h)

theorem nodup_insert {m : AMap κ ν} (k : κ) (v : ν) (h : Nodup m) : Nodup (insert m k v) := by
  induction m with
  | nil => simp [insert, Nodup]
  | cons e m ih =>
    obtain ⟨k1, v1⟩ := e
    unfold Nodup at *
    simp only [List.map_cons, List.nodup_cons] at h
    simp only [insert]
    split
    · rename_i heq
      subst heq
      simpa using h
    · rename_i hne
      simp only [List.map_cons, List.nodup_cons]
      refine ⟨?_, ih h.2⟩
      rw [mem_keys_insert]
      rintro (h2 | h2)
      · exact hne h2.symm
      · exact h.1 h2

theorem get?_eq_some_iff {m : AMap κ ν} (h : Nodup m) {k : κ} {v : ν} :
    get? m k = some v ↔ (k, v) ∈ m := by
  induction m with
  | nil => simp [get?]
  | cons e m ih =>
    obtain ⟨k1, v1⟩ := e
    unfold Nodup at h
    simp only [List.map_cons, List.nodup_cons] at h
    simp only [get?, List.mem_cons, Prod.mk.injEq]
    split
    · rename_i heq
      subst heq
      simp only [Option.some.injEq, true_and]
      constructor
      · intro h2; exact Or.inl h2.symm
      · rintro (h2 | h2)
        · exact h2.symm
        · exact absurd (List.mem_map_of_mem h2) h.1
    · rename_i hne
      rw [ih h.2]
      simp [hne]

theorem get?_eq_none_iff {m : AMap κ ν} {k : κ} : get? m k = none ↔ k ∉ m.map Prod.fst := by
  induction m with
  | nil => simp [get?]
  | cons e m ih =>
    obtain ⟨k1, v1⟩ := e
    simp only [get?, List.map_cons, List.mem_cons, not_or]
    split
    · rename_i h; simp [h]
    · rename_i h; simp [h, ih]

end AMap
end Verif
