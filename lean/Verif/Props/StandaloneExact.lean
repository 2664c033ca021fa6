import Verif.Props.Standalone
/-!
# C35, C38: what the inspectors report, without conditions
-/
namespace Verif.Props
open Spec

/-! ### C35 -/

theorem addEntry_inv {κ : Type} [DecidableEq κ] {m m' : AMap κ Nat} {k : κ} {n : Nat}
    (h : addEntry m k n = .ok m') :
    (AMap.get? m k).getD 0 + n < 2 ^ 64 ∧ m' = AMap.insert m k ((AMap.get? m k).getD 0 + n) := by
  unfold addEntry addU64 at h
  by_cases hlt : (AMap.get? m k).getD 0 + n < 2 ^ 64
  · rw [if_pos hlt] at h
    cases h
    exact ⟨hlt, rfl⟩
  · rw [if_neg hlt] at h
    cases h

/-- A run that does not panic had room for all totals. -/
theorem opcodeGas_bounds (known : OpCode → Bool) {es : List Event} {ps : List (Interp × Interp)}
    (hp : Paired es ps) (s s' : OpcodeGas) (hl : s.last = none)
    (hc : ∀ op, (AMap.get? s.counts op).getD 0 < 2 ^ 64)
    (hg : ∀ op, (AMap.get? s.gas op).getD 0 < 2 ^ 64)
    (hr : runHooks (OpcodeGas.hook known) s es = .ok s') (op : OpCode) (hk : known op = true) :
    (AMap.get? s.counts op).getD 0 + countOf op ps < 2 ^ 64 ∧
      (AMap.get? s.gas op).getD 0 + gasOf op ps < 2 ^ 64 := by
  induction hp generalizing s with
  | nil => exact ⟨by simpa [countOf] using hc op, by simpa [gasOf] using hg op⟩
  | instr i i' c c' hp ih =>
    rename_i es ps
    simp only [runHooks, OpcodeGas.hook] at hr
    simp only [countOf_cons, gasOf_cons]
    by_cases hki : known i.op = true
    · simp only [hki, if_true] at hr
      cases h1 : addEntry s.counts i.op 1 with
      | error e => simp [h1] at hr
      | ok m1 =>
        simp only [h1] at hr
        cases h2 : addEntry s.gas i.op (i.gas.remaining - i'.gas.remaining) with
        | error e => simp [h2] at hr
        | ok m2 =>
          simp only [h2] at hr
          obtain ⟨b1, rfl⟩ := addEntry_inv h1
          obtain ⟨b2, rfl⟩ := addEntry_inv h2
          have := ih _ rfl
            (by
              intro o
              simp only [AMap.get?_insert]
              by_cases h : o = i.op
              · rw [if_pos h]; exact b1
              · rw [if_neg h]; exact hc o)
            (by
              intro o
              simp only [AMap.get?_insert]
              by_cases h : o = i.op
              · rw [if_pos h]; exact b2
              · rw [if_neg h]; exact hg o) hr
          simp only [AMap.get?_insert] at this
          by_cases h : op = i.op
          · subst h
            simp only [if_true, Option.getD_some] at this ⊢
            omega
          · simp only [if_neg h] at this
            rw [if_neg (fun e => h e.symm), if_neg (fun e => h e.symm)]
            omega
    · simp only [if_neg hki, hl] at hr
      have := ih s hl hc hg hr
      have h : ¬ i.op = op := fun e => hki (e ▸ hk)
      rw [if_neg h, if_neg h]
      omega
  | log _ _ _ ih => exact ih s hl hc hg hr
  | call _ _ _ ih => exact ih s hl hc hg hr
  | callEnd _ _ _ _ ih => exact ih s hl hc hg hr
  | create _ _ _ ih => exact ih s hl hc hg hr
  | createEnd _ _ _ _ _ ih => exact ih s hl hc hg hr
  | selfdestruct _ _ _ _ ih => exact ih s hl hc hg hr

/-- **C35, exact**: the inspector gets through a history without an overflow if and only if the number
of executions and the summed gas of every opcode revm knows fit in 64 bits. (What it then reports is
`C35_opcode_gas_partial`.) -/
theorem C35_overflow_iff (known : OpCode → Bool) (es : List Event) (ps : List (Interp × Interp))
    (hp : Paired es ps) :
    (∃ s, runHooks (OpcodeGas.hook known) {} es = .ok s) ↔
      ∀ op, known op = true → countOf op ps < 2 ^ 64 ∧ gasOf op ps < 2 ^ 64 := by
  constructor
  · rintro ⟨s, hr⟩ op hk
    have := opcodeGas_bounds known hp {} s rfl (by simp [AMap.get?]) (by simp [AMap.get?]) hr op hk
    simpa [AMap.get?] using this
  · intro h
    obtain ⟨s, hr, _⟩ := C35_opcode_gas_partial known es ps hp (fun op hk => (h op hk).1)
      (fun op hk => (h op hk).2)
    exact ⟨s, hr⟩

/-! ### C38 -/

/-- The entries that no later entry of the same key follows. -/
def lastWins {κ ν : Type} [DecidableEq κ] : List (κ × ν) → List (κ × ν)
  | [] => []
  | e :: l => if e.1 ∈ l.map Prod.fst then lastWins l else e :: lastWins l

theorem lastWins_keys {κ ν : Type} [DecidableEq κ] (l : List (κ × ν)) (k : κ) :
    k ∈ (lastWins l).map Prod.fst ↔ k ∈ l.map Prod.fst := by
  induction l with
  | nil => rfl
  | cons e l ih =>
    unfold lastWins
    split
    · rename_i h
      rw [ih, List.map_cons, List.mem_cons]
      constructor
      · exact Or.inr
      · rintro (rfl | h')
        · exact h
        · exact h'
    · rw [List.map_cons, List.map_cons, List.mem_cons, List.mem_cons, ih]

theorem lastWins_nodup {κ ν : Type} [DecidableEq κ] (l : List (κ × ν)) :
    ((lastWins l).map Prod.fst).Nodup := by
  induction l with
  | nil => exact List.nodup_nil
  | cons e l ih =>
    unfold lastWins
    split
    · exact ih
    · rename_i h
      rw [List.map_cons, List.nodup_cons, lastWins_keys]
      exact ⟨h, ih⟩

theorem collect_lastWins {κ ν : Type} [DecidableEq κ] (l : List (κ × ν)) (m : AMap κ ν) (k : κ) :
    AMap.get? (l.foldl (fun m e => AMap.insert m e.1 e.2) m) k =
      AMap.get? ((lastWins l).foldl (fun m e => AMap.insert m e.1 e.2) m) k := by
  induction l generalizing m with
  | nil => rfl
  | cons e l ih =>
    unfold lastWins
    split
    · rename_i h
      rw [← ih, List.foldl_cons]
      -- the entry is replaced later
      have key : ∀ (l : List (κ × ν)) (m m' : AMap κ ν),
          (∀ k, k ∉ l.map Prod.fst → AMap.get? m k = AMap.get? m' k) →
          ∀ k, AMap.get? (l.foldl (fun m e => AMap.insert m e.1 e.2) m) k =
            AMap.get? (l.foldl (fun m e => AMap.insert m e.1 e.2) m') k := by
        intro l
        induction l with
        | nil => intro m m' h k; exact h k (by simp)
        | cons e l ih =>
          intro m m' h k
          simp only [List.foldl_cons]
          apply ih
          intro k hk
          simp only [AMap.get?_insert]
          by_cases he : k = e.1
          · rw [if_pos he, if_pos he]
          · rw [if_neg he, if_neg he]
            exact h k (by simp only [List.map_cons, List.mem_cons]; exact fun h' => h'.elim he hk)
      apply key
      intro k hk
      rw [AMap.get?_insert, if_neg]
      intro he
      rw [he] at hk
      exact hk h
    · rw [List.foldl_cons, List.foldl_cons, ih]

theorem new_lastWins (provided : List (Address × List U256)) (frm to : Address)
    (pre : List Address) (a : Address) :
    AMap.get? (AccessList.new provided frm to pre).list a =
      AMap.get? (AccessList.new (lastWins provided) frm to pre).list a := by
  have : ∀ l : List (Address × List U256), lastWins (l.map (fun e => (e.1, Slots.ofList e.2))) =
      (lastWins l).map (fun e => (e.1, Slots.ofList e.2)) := by
    intro l
    induction l with
    | nil => rfl
    | cons e l ih =>
      simp only [List.map_cons, lastWins, List.map_map, ih]
      have : (List.map (Prod.fst ∘ fun e : Address × List U256 => (e.1, Slots.ofList e.2)) l) =
        l.map Prod.fst := rfl
      rw [this]
      split <;> rfl
  show AMap.get? (AMap.collect _) a = AMap.get? (AMap.collect _) a
  unfold AMap.collect
  rw [collect_lastWins, this]

/-- **C38, exact**: for any provided list the result is the access list of the provided list in which
of the entries of an address only the last one counts, plus what was touched. -/
theorem C38_exact (provided : List (Address × List U256)) (frm to : Address)
    (precompiles : List Address) (es : List Event) :
    ∃ s, runHooks AccessList.hook (AccessList.new provided frm to precompiles) es = .ok s ∧
      IsAccessList (lastWins provided) ([frm, to] ++ precompiles) es s.result := by
  obtain ⟨n1, n2, n3⟩ := new_spec (lastWins provided) frm to precompiles (lastWins_nodup provided)
  have hget := new_lastWins provided frm to precompiles
  have n1' : ListOk (AccessList.new provided frm to precompiles).list :=
    ⟨nodup_collect_aux _ _ (by simp [AMap.Nodup]), fun a m hm => n1.2 a m (by rw [← hget]; exact hm)⟩
  obtain ⟨s, h1, h2, h3, h4⟩ := accessList_run es _ n1'
  have n2' : ∀ a, HasAddr (AccessList.new provided frm to precompiles).list a ↔
      a ∈ (lastWins provided).map Prod.fst := by
    intro a; rw [← n2]; unfold HasAddr; rw [hget]
  have n3' : ∀ a k, HasSlot (AccessList.new provided frm to precompiles).list a k ↔
      ∃ ks, (a, ks) ∈ lastWins provided ∧ k ∈ ks := by
    intro a k; rw [← n3]; unfold HasSlot; rw [hget]
  refine ⟨s, h1, ?_, ?_, ?_, ?_⟩
  · unfold AccessList.result
    rw [List.map_map]
    exact h2.1
  · intro a
    have := h3 a
    rw [n2'] at this
    have hh : HasAddr s.list a ↔ a ∈ s.result.map Prod.fst := by
      unfold HasAddr AccessList.result
      rw [ne_eq, AMap.get?_eq_none_iff, List.map_map]
      simp only [Decidable.not_not]
      exact Iff.rfl
    rw [← hh]
    exact this
  · intro a ks hm k
    unfold AccessList.result at hm
    simp only [List.mem_map, Prod.mk.injEq, Prod.exists] at hm
    obtain ⟨a', m, hm, rfl, rfl⟩ := hm
    have hg := (AMap.get?_eq_some_iff h2.1).2 hm
    have := h4 a' k
    rw [n3'] at this
    rw [← this, ← get?_unit_iff (h2.2 _ _ hg)]
    unfold HasSlot
    constructor
    · intro h; exact ⟨m, hg, h⟩
    · rintro ⟨m', h5, h6⟩
      rw [hg] at h5
      simp only [Option.some.injEq] at h5
      subst h5
      exact h6
  · intro a ks hm
    unfold AccessList.result at hm
    simp only [List.mem_map, Prod.mk.injEq, Prod.exists] at hm
    obtain ⟨a', m, hm, rfl, rfl⟩ := hm
    have hs := h2.2 _ _ ((AMap.get?_eq_some_iff h2.1).2 hm)
    rw [List.pairwise_map]
    exact hs

example : lastWins [((1 : Address), [(1 : U256)]), (2, [3]), (1, [4])] = [(2, [3]), (1, [4])] := by decide

end Verif.Props
