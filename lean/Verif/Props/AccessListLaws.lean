import Verif.Props.StandaloneExact
import Verif.Spec.Example
/-! C89: access lists that are handed to the next run. -/
namespace Verif.Props
open Spec

/-- Lists that contain the same, each address once and its slots in order, are the same up to order. -/
theorem isAccessList_perm {P P' : List (Address × List U256)} {X X' : List Address} {es es' : List Event}
    {r r' : List (Address × List U256)} (h : IsAccessList P X es r) (h' : IsAccessList P' X' es' r')
    (ha : ∀ a, a ∈ r.map Prod.fst ↔ a ∈ r'.map Prod.fst)
    (hs : ∀ a k, ((∃ ks, (a, ks) ∈ P ∧ k ∈ ks) ∨ SlotTouched es a k) ↔
      ((∃ ks, (a, ks) ∈ P' ∧ k ∈ ks) ∨ SlotTouched es' a k)) : r.Perm r' := by
  have nd : ∀ {l : List (Address × List U256)}, (l.map Prod.fst).Nodup → l.Nodup := by
    intro l hl
    rw [List.Nodup, List.pairwise_map] at hl
    exact hl.imp fun h e => h (by rw [e])
  have key : ∀ {P P' : List (Address × List U256)} {X X' : List Address} {es es' : List Event}
      {r r' : List (Address × List U256)}, IsAccessList P X es r → IsAccessList P' X' es' r' →
      (∀ a, a ∈ r.map Prod.fst ↔ a ∈ r'.map Prod.fst) →
      (∀ a k, ((∃ ks, (a, ks) ∈ P ∧ k ∈ ks) ∨ SlotTouched es a k) ↔
        ((∃ ks, (a, ks) ∈ P' ∧ k ∈ ks) ∨ SlotTouched es' a k)) →
      ∀ item, item ∈ r → item ∈ r' := by
    intro P P' X X' es es' r r' h h' ha hs item hm
    obtain ⟨a, ks⟩ := item
    obtain ⟨⟨a', ks'⟩, hm', rfl⟩ := List.mem_map.1 ((ha a).1 (List.mem_map_of_mem hm))
    have : ks = ks' := by
      apply sorted_slots_ext (h.sorted _ _ hm) (h'.sorted _ _ hm')
      intro k
      rw [h.slots _ _ hm, h'.slots _ _ hm', hs]
    rw [this]; exact hm'
  rw [List.perm_ext_iff_of_nodup (nd h.once) (nd h'.once)]
  intro item
  exact ⟨key h h' ha hs item, key h' h (fun a => (ha a).symm) (fun a k => (hs a k).symm) item⟩

theorem slotTouched_append (es es' : List Event) (a : Address) (k : U256) :
    SlotTouched (es ++ es') a k ↔ SlotTouched es a k ∨ SlotTouched es' a k := by
  unfold SlotTouched
  simp only [List.mem_append, or_and_right, exists_or]

theorem addressNamed_append (es es' : List Event) (a : Address) :
    AddressNamed (es ++ es') a ↔ AddressNamed es a ∨ AddressNamed es' a := by
  unfold AddressNamed
  simp only [List.mem_append, or_and_right, exists_or]

/-- **C89, carrying on.** Whatever list was provided first: if the list found in one history is provided, in
any order, for a second one, the list found then is that of both histories one after the other. -/
theorem C89_carry_on (provided given : List (Address × List U256)) (frm to : Address)
    (precompiles : List Address) (es es' : List Event) :
    ∃ s s' s'', runHooks AccessList.hook (AccessList.new provided frm to precompiles) es = .ok s ∧
      runHooks AccessList.hook (AccessList.new provided frm to precompiles) (es ++ es') = .ok s'' ∧
      runHooks AccessList.hook (AccessList.new given frm to precompiles) es' = .ok s' ∧
      (given.Perm s.result → s'.result.Perm s''.result) := by
  obtain ⟨s, h1, h2⟩ := C38_exact provided frm to precompiles es
  obtain ⟨s'', h1'', h2''⟩ := C38_exact provided frm to precompiles (es ++ es')
  obtain ⟨s', h1', h2'⟩ := C38_exact given frm to precompiles es'
  refine ⟨s, s', s'', h1, h1'', h1', ?_⟩
  intro hp
  have hnd : (given.map Prod.fst).Nodup := (hp.map Prod.fst).nodup_iff.2 h2.once
  obtain ⟨t', g1, g2⟩ := C38_access_list_partial given frm to precompiles es' hnd
  rw [h1'] at g1
  obtain rfl := Except.ok.inj g1
  have hmem : ∀ a, a ∈ given.map Prod.fst ↔ a ∈ s.result.map Prod.fst := fun a => (hp.map Prod.fst).mem_iff
  refine isAccessList_perm g2 h2'' ?_ ?_
  · intro a
    rw [g2.addresses, h2''.addresses, hmem, h2.addresses, addressNamed_append]
    simp only [slotTouched_append, exists_or]
    constructor
    · rintro ((h | h | ⟨h, h'⟩) | h | ⟨h, h'⟩)
      · exact .inl h
      · exact .inr (.inl (.inl h))
      · exact .inr (.inr ⟨.inl h, h'⟩)
      · exact .inr (.inl (.inr h))
      · exact .inr (.inr ⟨.inr h, h'⟩)
    · rintro (h | (h | h) | ⟨h | h, h'⟩)
      · exact .inl (.inl h)
      · exact .inl (.inr (.inl h))
      · exact .inr (.inl h)
      · exact .inl (.inr (.inr ⟨h, h'⟩))
      · exact .inr (.inr ⟨h, h'⟩)
  · intro a k
    rw [slotTouched_append]
    have : (∃ ks, (a, ks) ∈ given ∧ k ∈ ks) ↔
        (∃ ks', (a, ks') ∈ lastWins provided ∧ k ∈ ks') ∨ SlotTouched es a k := by
      constructor
      · rintro ⟨ks, hm, hk⟩
        exact (h2.slots a ks (hp.mem_iff.1 hm) k).1 hk
      · intro h
        have ha : a ∈ s.result.map Prod.fst := by
          rw [h2.addresses]
          rcases h with ⟨ks', hm, _⟩ | h
          · exact .inl (List.mem_map_of_mem hm)
          · exact .inr (.inl ⟨k, h⟩)
        obtain ⟨⟨a', ks⟩, hm, rfl⟩ := List.mem_map.1 ha
        exact ⟨ks, hp.mem_iff.2 hm, (h2.slots _ _ hm k).2 h⟩
    rw [this, or_assoc]

/-- **C89, stable.** Providing the list that was found, in any order, and running the same history again gives
the same list. -/
theorem C89_stable (provided given : List (Address × List U256)) (frm to : Address)
    (precompiles : List Address) (es : List Event) :
    ∃ s s', runHooks AccessList.hook (AccessList.new provided frm to precompiles) es = .ok s ∧
      runHooks AccessList.hook (AccessList.new given frm to precompiles) es = .ok s' ∧
      (given.Perm s.result → s'.result.Perm s.result) := by
  obtain ⟨s, s', s'', h1, h2, h3, h4⟩ := C89_carry_on provided given frm to precompiles es es
  refine ⟨s, s', h1, h3, fun hp => (h4 hp).trans ?_⟩
  obtain ⟨t, g1, g2⟩ := C38_exact provided frm to precompiles es
  rw [h1] at g1
  obtain rfl := Except.ok.inj g1
  obtain ⟨t'', g1, g2''⟩ := C38_exact provided frm to precompiles (es ++ es)
  rw [h2] at g1
  obtain rfl := Except.ok.inj g1
  refine isAccessList_perm g2'' g2 ?_ ?_
  · intro a
    rw [g2.addresses, g2''.addresses]
    simp only [slotTouched_append, addressNamed_append, or_self]
  · intro a k
    simp only [slotTouched_append, or_self]

/-- **C89, growing.** A list found in the beginning of a history is part of the one found in all of it: every
address is there with at least the same slots. -/
theorem C89_grows (provided : List (Address × List U256)) (frm to : Address) (precompiles : List Address)
    (es es' : List Event) :
    ∃ s s', runHooks AccessList.hook (AccessList.new provided frm to precompiles) es = .ok s ∧
      runHooks AccessList.hook (AccessList.new provided frm to precompiles) (es ++ es') = .ok s' ∧
      ∀ a ks, (a, ks) ∈ s.result → ∃ ks', (a, ks') ∈ s'.result ∧ ∀ k ∈ ks, k ∈ ks' := by
  obtain ⟨s, h1, h2⟩ := C38_exact provided frm to precompiles es
  obtain ⟨s', h1', h2'⟩ := C38_exact provided frm to precompiles (es ++ es')
  refine ⟨s, s', h1, h1', ?_⟩
  intro a ks hm
  have ha : a ∈ s'.result.map Prod.fst := by
    have := (h2.addresses a).1 (List.mem_map_of_mem hm)
    rw [h2'.addresses]
    simp only [slotTouched_append, addressNamed_append, exists_or]
    rcases this with h | h | ⟨h, h'⟩
    · exact .inl h
    · exact .inr (.inl (.inl h))
    · exact .inr (.inr ⟨.inl h, h'⟩)
  obtain ⟨⟨a', ks'⟩, hm', rfl⟩ := List.mem_map.1 ha
  refine ⟨ks', hm', fun k hk => ?_⟩
  rw [h2'.slots _ _ hm', slotTouched_append]
  rcases (h2.slots _ _ hm k).1 hk with h | h
  · exact .inl h
  · exact .inr (.inl h)

/-- A history that touches two slots, and names an account. -/
def accessHistory : List Event :=
  [.step { Example.interp Op.SLOAD 0 100 .Continue with stack := [3], contract := 7 } Example.ctx,
   .step { Example.interp Op.SSTORE 0 100 .Continue with stack := [3, 1], contract := 7 } Example.ctx,
   .step { Example.interp Op.BALANCE 0 100 .Continue with stack := [9] } Example.ctx]

example : ∃ s, runHooks AccessList.hook (AccessList.new [(5, [2])] 1 2 []) accessHistory = .ok s ∧
    s.result.Perm [(5, [2]), (7, [1, 3]), (9, [])] := ⟨_, rfl, by decide⟩

end Verif.Props
