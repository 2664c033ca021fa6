import Verif.Spec.FlatTree
import Verif.Props.Parity
/-! C93: the flat parity traces and the tree of calls. -/
namespace Verif.Props
open Spec Rec Parity Par

/-- The tree at an address, as far as it can be looked up in a list of traces. -/
inductive Reads (ts : List TransactionTrace) : List Nat → TraceTree → Prop
  | mk {tr : TransactionTrace} {below : List TraceTree} : tr ∈ ts → tr.subtraces = below.length →
      (∀ i c, below[i]? = some c → Reads ts (tr.traceAddress ++ [i]) c) →
      Reads ts tr.traceAddress (.node tr.action tr.error tr.result below)

/-- What can be looked up in a list with distinct addresses is unique. -/
theorem reads_unique {ts : List TransactionTrace} (hnd : (ts.map (·.traceAddress)).Nodup) {path : List Nat}
    {a b : TraceTree} (ha : Reads ts path a) (hb : Reads ts path b) : a = b := by
  induction ha generalizing b with
  | @mk tr below hm hl hbel ih =>
    generalize hp : tr.traceAddress = path at hb
    cases hb with
    | @mk tr' below' hm' hl' hbel' =>
      have : tr = tr' := by
        obtain ⟨i, hi, rfl⟩ := List.mem_iff_getElem.1 hm
        obtain ⟨j, hj, rfl⟩ := List.mem_iff_getElem.1 hm'
        have hi' : i < (ts.map (·.traceAddress)).length := by simpa using hi
        have hj' : j < (ts.map (·.traceAddress)).length := by simpa using hj
        have heq : (ts.map (·.traceAddress))[i] = (ts.map (·.traceAddress))[j] := by
          rw [List.getElem_map, List.getElem_map]; exact hp
        have : i = j := (List.getElem_inj hnd).1 heq
        subst this; rfl
      subst this
      congr 1
      apply List.ext_getElem?
      intro i
      rcases Nat.lt_or_ge i below.length with h | h
      · have h' : i < below'.length := by omega
        rw [List.getElem?_eq_getElem h, List.getElem?_eq_getElem h', 
          ih i _ (List.getElem?_eq_getElem h) (hbel' i _ (List.getElem?_eq_getElem h'))]
      · rw [List.getElem?_eq_none h, List.getElem?_eq_none (by omega)]

mutual
theorem reads_flat {ts : List TransactionTrace} : ∀ (T : TraceTree) (path : List Nat),
    (∀ tr ∈ T.flat path, tr ∈ ts) → Reads ts path T
  | .node a e r below, path, h => by
    rw [TraceTree.flat] at h
    have hall := reads_flatAll below path 0 (fun tr htr => h tr (List.mem_cons_of_mem _ htr))
    have := Reads.mk (ts := ts) (tr := ⟨a, e, r, path, below.length⟩) (below := below)
      (h _ List.mem_cons_self) rfl (fun i c hc => by simpa using hall i c hc)
    exact this
theorem reads_flatAll {ts : List TransactionTrace} : ∀ (l : List TraceTree) (path : List Nat) (k : Nat),
    (∀ tr ∈ flatAll path k l, tr ∈ ts) → ∀ i c, l[i]? = some c → Reads ts (path ++ [k + i]) c
  | [], _, _, _ => by intro i c h; simp at h
  | T :: l, path, k, h => by
    rw [flatAll] at h
    intro i c hc
    cases i with
    | zero =>
      simp at hc; subst hc
      exact reads_flat T (path ++ [k]) (fun tr htr => h tr (List.mem_append_left _ htr))
    | succ i =>
      have := reads_flatAll l path (k + 1) (fun tr htr => h tr (List.mem_append_right _ htr)) i c (by simpa using hc)
      rwa [Nat.add_assoc, Nat.add_comm 1 i] at this
end

mutual
theorem flat_addr : ∀ (T : TraceTree) (path : List Nat), ∀ tr ∈ T.flat path, ∃ q, tr.traceAddress = path ++ q
  | .node a e r below, path => by
    intro tr h
    rw [TraceTree.flat, List.mem_cons] at h
    rcases h with rfl | h
    · exact ⟨[], by simp⟩
    · obtain ⟨i, q, _, hq⟩ := flatAll_addr below path 0 tr h
      exact ⟨i :: q, hq⟩
theorem flatAll_addr : ∀ (l : List TraceTree) (path : List Nat) (k : Nat), ∀ tr ∈ flatAll path k l,
    ∃ i q, k ≤ i ∧ tr.traceAddress = path ++ i :: q
  | [], _, _ => by intro tr h; rw [flatAll] at h; simp at h
  | T :: l, path, k => by
    intro tr h
    rw [flatAll, List.mem_append] at h
    rcases h with h | h
    · obtain ⟨q, hq⟩ := flat_addr T (path ++ [k]) tr h
      exact ⟨k, q, Nat.le_refl _, by simpa using hq⟩
    · obtain ⟨i, q, hi, hq⟩ := flatAll_addr l path (k + 1) tr h
      exact ⟨i, q, by omega, hq⟩
end

mutual
theorem flat_sorted : ∀ (T : TraceTree) (path : List Nat),
    (T.flat path).Pairwise (fun a b => a.traceAddress < b.traceAddress)
  | .node a e r below, path => by
    rw [TraceTree.flat, List.pairwise_cons]
    refine ⟨?_, flatAll_sorted below path 0⟩
    intro tr h
    obtain ⟨i, q, _, hq⟩ := flatAll_addr below path 0 tr h
    rw [hq]
    exact lt_append_right path i q
theorem flatAll_sorted : ∀ (l : List TraceTree) (path : List Nat) (k : Nat),
    (flatAll path k l).Pairwise (fun a b => a.traceAddress < b.traceAddress)
  | [], _, _ => by rw [flatAll]; exact List.Pairwise.nil
  | T :: l, path, k => by
    rw [flatAll, List.pairwise_append]
    refine ⟨flat_sorted T (path ++ [k]), flatAll_sorted l path (k + 1), ?_⟩
    intro x hx y hy
    obtain ⟨q, hq⟩ := flat_addr T (path ++ [k]) x hx
    obtain ⟨i, q', hi, hq'⟩ := flatAll_addr l path (k + 1) y hy
    rw [hq, hq', List.append_assoc]
    exact append_lt_append path (List.Lex.rel (by omega))
end

theorem flatAll_append (path : List Nat) : ∀ (l m : List TraceTree) (k : Nat),
    flatAll path k (l ++ m) = flatAll path k l ++ flatAll path (k + l.length) m
  | [], m, k => by simp [flatAll]
  | T :: l, m, k => by
    simp only [List.cons_append, flatAll, flatAll_append path l m (k + 1), List.append_assoc, List.length_cons]
    rw [Nat.add_assoc, Nat.add_comm 1]

theorem forest_length (cfg : Config) (rootGas : Nat) (b : Body) (d p : Nat) (v : U256) (n : Nat) :
    (forest cfg rootGas d p v n b).length = (shownBelow cfg d p v n b).length := by
  induction b generalizing d p v n with
  | nil => rfl
  | act a rest ih => exact ih d p v n
  | sub h b o rest ihb ihr =>
    rw [forest, shownBelow]
    split
    · rw [ihr]; simp
    · simp [ihr]

theorem sd_flat (cfg : Config) (path : List Nat) (f : FrameCtx) :
    flatAll path (shownCalls cfg f).length (sdLeaf f) = sdTrace cfg path f := by
  unfold sdLeaf sdTrace
  split <;> simp [flatAll, TraceTree.flat]

theorem sdLeaf_length (f : FrameCtx) : (sdLeaf f).length = if selfdestructed f then 1 else 0 := by
  unfold sdLeaf; split <;> rfl

/-- The traces of located frames, as the trees of the body, up to order. -/
theorem locate_flat (cfg : Config) (rootGas : Nat) (b : Body) (d p : Nat) (v : U256) (n : Nat) (path : List Nat)
    (k : Nat) : ((locate cfg d p v n path k b).flatMap fun e => frameTrace cfg rootGas e.1 e.2 :: sdTrace cfg e.1 e.2).Perm
      (flatAll path k (forest cfg rootGas d p v n b)) := by
  induction b generalizing d p v n path k with
  | nil => rw [locate, forest, flatAll]; exact List.Perm.nil
  | act a rest ih => exact ih d p v n path k
  | sub h b o rest ihb ihr =>
    rw [locate, forest]
    split
    · exact ihr _ _ _ _ _ _
    · rw [List.flatMap_cons, List.flatMap_append, flatAll, TraceTree.flat, flatAll_append, Nat.zero_add]
      have hlen : (forest cfg rootGas (d + 1) n (valueInScope (some v) h) (n + 1) b).length =
          (shownCalls cfg ⟨n, some p, d, some v, h, b, o⟩).length := forest_length _ _ _ _ _ _ _
      rw [hlen, sd_flat]
      have hnode : (TransactionTrace.mk (action ⟨n, some p, d, some v, h, b, o⟩)
          (frameError ⟨n, some p, d, some v, h, b, o⟩) (outcome rootGas ⟨n, some p, d, some v, h, b, o⟩) (path ++ [k])
          (forest cfg rootGas (d + 1) n (valueInScope (some v) h) (n + 1) b ++
            sdLeaf ⟨n, some p, d, some v, h, b, o⟩).length) =
          frameTrace cfg rootGas (path ++ [k]) ⟨n, some p, d, some v, h, b, o⟩ := by
        rw [List.length_append, hlen, sdLeaf_length]; rfl
      rw [hnode]
      simp only [List.cons_append, List.append_assoc]
      refine List.Perm.cons _ ?_
      rw [← List.append_assoc, ← List.append_assoc]
      refine List.Perm.append ?_ (ihr _ _ _ _ _ _)
      exact (List.perm_append_comm).trans (List.Perm.append_right _ (ihb _ _ _ _ _ _))

theorem txTraces_flat (cfg : Config) (rootGas : Nat) (t : Tx) :
    (txTraces cfg rootGas t).Perm ((traceTree cfg rootGas t).flat []) := by
  rw [txTraces, located, traceTree, List.flatMap_cons, TraceTree.flat, flatAll_append, Nat.zero_add]
  have hlen : (forest cfg rootGas 1 0 (valueInScope none t.hdr) 1 t.body).length =
      (shownCalls cfg (rootOf t)).length := forest_length _ _ _ _ _ _ _
  rw [hlen, sd_flat, List.length_append, hlen, sdLeaf_length]
  refine List.Perm.cons _ ?_
  exact (List.perm_append_comm).trans (List.Perm.append_right _ (locate_flat _ _ _ _ _ _ _ _ _))

/-- **C93.** For every configuration and execution tree, the parity traces are the flat list of the tree of the
shown frames (below each its calls in call order and last its selfdestruct), up to order; they are that list
exactly if no selfdestructing frame made a shown call; and it is the only tree they can be the list of, so that
the tree can be rebuilt from the traces in any order. -/
theorem C93_flat_tree (cfg : Config) (t : Tx) (hwf : t.WF) (hsafe : Safe cfg t.body) :
    ∃ s root ts, TI.run cfg TI.new t.events = .ok s ∧ s.arena[0]? = some root ∧
      intoTransactionTraces s.arena = .ok ts ∧
      ts.Perm ((traceTree cfg root.trace.gasUsed t).flat []) ∧
      (ts = (traceTree cfg root.trace.gasUsed t).flat [] ↔
        ∀ f path, follow cfg (rootOf t) path = some f → selfdestructed f = true → shownCalls cfg f = []) ∧
      ∀ T : TraceTree, ts.Perm (T.flat []) → T = traceTree cfg root.trace.gasUsed t := by
  obtain ⟨s, root, hr, h0, _, htr⟩ := run_traces cfg t hwf hsafe
  have hperm := txTraces_flat cfg root.trace.gasUsed t
  refine ⟨s, root, _, hr, h0, htr, hperm, ?_, ?_⟩
  · obtain ⟨s', ts', hr', htr', _, hiff⟩ := C26_order_partial cfg t hwf hsafe
    obtain rfl := Except.ok.inj (hr.symm.trans hr')
    obtain rfl := Except.ok.inj (htr.symm.trans htr')
    rw [← hiff]
    constructor
    · intro h; rw [h]; exact flat_sorted _ _
    · intro h
      exact List.Perm.eq_of_pairwise (le := fun a b => a.traceAddress < b.traceAddress)
        (fun a b _ _ h1 h2 => absurd (List.lt_trans h1 h2) (lt_irrefl' _)) h (flat_sorted _ _) hperm
  · intro T hT
    obtain ⟨s', ts', hr', htr', _, _, hnd⟩ := C24_trace_addresses cfg t hwf hsafe
    obtain rfl := Except.ok.inj (hr.symm.trans hr')
    obtain rfl := Except.ok.inj (htr.symm.trans htr')
    exact reads_unique hnd (reads_flat T [] (fun tr h => hT.mem_iff.2 h))
      (reads_flat _ [] (fun tr h => hperm.mem_iff.2 h))

/-- **C93, for two executions:** if the traces of one are those of the other, in any order and whatever is
recorded, then so are the trees of their shown frames. -/
theorem C93_same_tree (cfg cfg' : Config) (t t' : Tx) (hwf : t.WF) (hsafe : Safe cfg t.body) (hwf' : t'.WF)
    (hsafe' : Safe cfg' t'.body) :
    ∃ s s' root root' ts ts', TI.run cfg TI.new t.events = .ok s ∧ TI.run cfg' TI.new t'.events = .ok s' ∧
      s.arena[0]? = some root ∧ s'.arena[0]? = some root' ∧
      intoTransactionTraces s.arena = .ok ts ∧ intoTransactionTraces s'.arena = .ok ts' ∧
      (ts.Perm ts' ↔ traceTree cfg root.trace.gasUsed t = traceTree cfg' root'.trace.gasUsed t') := by
  obtain ⟨s, root, ts, hr, h0, hts, hp, _, hu⟩ := C93_flat_tree cfg t hwf hsafe
  obtain ⟨s', root', ts', hr', h0', hts', hp', _, _⟩ := C93_flat_tree cfg' t' hwf' hsafe'
  refine ⟨s, s', root, root', ts, ts', hr, hr', h0, h0', hts, hts', ?_, ?_⟩
  · intro h; exact (hu _ (h.trans hp')).symm
  · intro h; exact hp.trans (h ▸ hp'.symm)

/-- The hypotheses are met by an execution with calls, a precompile, a creation and a selfdestruct; the list of its
tree has the selfdestruct after the call of its frame, while the traces have it before. -/
example : Example.tx.WF ∧ Safe Config.defaultParity Example.tx.body ∧
    ((traceTree Config.defaultParity 0 Example.tx).flat []).map (fun t => (t.traceAddress, t.subtraces)) =
      [([], 2), ([0], 2), ([0, 0], 0), ([0, 1], 0), ([1], 0)] ∧
    (txTraces Config.defaultParity 0 Example.tx).map (·.traceAddress) = [[], [0], [0, 1], [0, 0], [1]] :=
  ⟨Example.wf, Example.safe _, by decide +kernel, by decide⟩

end Verif.Props
