import Verif.Props.Unfused
import Verif.Props.Builders
import Verif.Spec.UnfusedTraces
/-! Trace addresses in the arena of two transactions: for C136. -/
namespace Verif.Props
open Spec Parity

theorem idxOf?_front {l m : List Nat} {a c : Nat} (h : l.idxOf? a = some c) : (l ++ m).idxOf? a = some c := by
  induction l generalizing c with
  | nil => simp at h
  | cons b l ih =>
    rw [List.cons_append, List.idxOf?_cons] at *
    split
    · rename_i hb; rw [if_pos hb] at h; exact h
    · rename_i hb
      rw [if_neg hb] at h
      cases hl : l.idxOf? a with
      | none => rw [hl] at h; simp at h
      | some d => rw [hl] at h; rw [ih hl]; exact h

theorem idxOf?_behind {l m : List Nat} {a c : Nat} (hl : a ∉ l) (h : m.idxOf? a = some c) :
    (l ++ m).idxOf? a = some (c + l.length) := by
  induction l with
  | nil => simpa using h
  | cons b l ih =>
    simp only [List.mem_cons, not_or] at hl
    rw [List.cons_append, List.idxOf?_cons, if_neg (by simp; exact fun h => hl.1 h.symm), ih hl.2]
    simp [Nat.add_assoc]

theorem movedTo_inj {n i j : Nat} (h : movedTo n i = movedTo n j) : i = j := by
  unfold movedTo at h
  split at h <;> split at h <;> omega

theorem idxOf?_moved (n a : Nat) (l : List Nat) : (l.map (movedTo n)).idxOf? (movedTo n a) = l.idxOf? a := by
  induction l with
  | nil => rfl
  | cons b l ih =>
    rw [List.map_cons, List.idxOf?_cons, List.idxOf?_cons, ih]
    by_cases h : b = a
    · simp [h]
    · have : movedTo n b ≠ movedTo n a := fun hc => h (movedTo_inj hc)
      simp [h, this]

/-- The last entry with `c` added. -/
def bumpLast (c : Nat) (g : List Nat) : List Nat := (laterPath c g.reverse).reverse

theorem bumpLast_append (c k : Nat) (g : List Nat) : bumpLast c (g ++ [k]) = g ++ [k + c] := by
  simp [bumpLast, laterPath]

/-- The walk up from a node of the first transaction. -/
theorem loop_first {o x : Node} {os xs : List Node} (fuel : Nat) :
    ∀ (fuel' : Nat) (y y' : Node) (graph g : List Nat), fuel ≤ fuel' → y'.parent = y.parent → y'.idx = y.idx →
    traceAddressLoop (o :: os) fuel y graph = .ok g →
    traceAddressLoop (together (o :: os) (x :: xs)) fuel' y' graph = .ok g := by
  induction fuel with
  | zero =>
    intro fuel' y y' graph g _ hp _ h
    unfold traceAddressLoop at h ⊢
    rw [hp]
    cases hy : y.parent with
    | none => rw [hy] at h; exact h
    | some p => rw [hy] at h; simp at h
  | succ fuel ih =>
    intro fuel' y y' graph g hf hp hi h
    unfold traceAddressLoop at h ⊢
    rw [hp]
    cases hy : y.parent with
    | none => rw [hy] at h; exact h
    | some p =>
      rw [hy] at h
      obtain ⟨f, rfl⟩ : ∃ f, fuel' = f + 1 := ⟨fuel' - 1, by omega⟩
      dsimp only at h ⊢
      cases hn : (o :: os)[p]? with
      | none => rw [hn] at h; simp at h
      | some next =>
        rw [hn] at h
        dsimp only at h
        cases hc : next.children.idxOf? y.idx with
        | none => rw [hc] at h; simp at h
        | some c =>
          rw [hc] at h
          dsimp only at h
          cases p with
          | zero =>
            simp only [List.getElem?_cons_zero, Option.some.injEq] at hn
            subst hn
            have h2 := ih f o (sharedRoot os.length o x) (graph ++ [c]) g (by omega) rfl rfl h
            simp only [together, List.getElem?_cons_zero, hi, sharedRoot, idxOf?_front hc] at h2 ⊢
            exact h2
          | succ p =>
            simp only [List.getElem?_cons_succ] at hn
            have hJ : (together (o :: os) (x :: xs))[p + 1]? = some next := by
              rw [together, List.getElem?_cons_succ,
                List.getElem?_append_left (List.getElem?_eq_some_iff.1 hn).1, hn]
            rw [hJ]
            simp only [hi, hc]
            exact ih f next next _ g (by omega) rfl rfl h

/-- The walk up from a node of the second transaction. -/
theorem loop_second {o x : Node} {os xs : List Node} (hA : Links (o :: os)) (hB : Links (x :: xs)) (fuel : Nat) :
    ∀ (fuel' i : Nat) (y y' : Node) (graph g : List Nat), fuel ≤ fuel' → (x :: xs)[i]? = some y → i ≠ 0 →
    y'.parent = y.parent.map (movedTo os.length) → y'.idx = movedTo os.length y.idx →
    traceAddressLoop (x :: xs) fuel y graph = .ok g →
    g ≠ [] ∧ traceAddressLoop (together (o :: os) (x :: xs)) fuel' y' graph =
      .ok (bumpLast o.children.length g) := by
  induction fuel with
  | zero =>
    intro fuel' i y y' graph g _ hy hi _ _ h
    obtain ⟨p, z, hp, -⟩ := hB.parent i y hy hi
    unfold traceAddressLoop at h
    rw [hp] at h
    simp at h
  | succ fuel ih =>
    intro fuel' i y y' graph g hf hy hi0 hpar hidx h
    obtain ⟨p, z, hp, hlt, hz, -⟩ := hB.parent i y hy hi0
    have hyi : y.idx = i := hB.idx i y hy
    unfold traceAddressLoop at h ⊢
    rw [hp] at h
    rw [hpar, hp]
    obtain ⟨f, rfl⟩ : ∃ f, fuel' = f + 1 := ⟨fuel' - 1, by omega⟩
    simp only [Option.map_some, hz] at h ⊢
    cases hc : z.children.idxOf? y.idx with
    | none => rw [hc] at h; simp at h
    | some c =>
      rw [hc] at h
      dsimp only at h
      rw [together_get hz]
      by_cases hp0 : p = 0
      · subst hp0
        simp only [List.getElem?_cons_zero, Option.some.injEq] at hz
        subst hz
        have hxp := (hB.root x rfl).1
        have hop := (hA.root o rfl).1
        have hg : g = graph ++ [c] := by
          unfold traceAddressLoop at h
          rw [hxp] at h
          simpa using h.symm
        have hnot : movedTo os.length y.idx ∉ o.children := by
          intro hmem
          rw [hA.children 0 o rfl, List.mem_filter, List.mem_range] at hmem
          have := hmem.1
          rw [hyi] at this
          unfold movedTo at this
          rw [if_neg hi0] at this
          simp at this
          omega
        have hk : (sharedRoot os.length o x).children.idxOf? y'.idx = some (c + o.children.length) := by
          rw [hidx]
          exact idxOf?_behind hnot (by rw [idxOf?_moved, hc])
        refine ⟨by rw [hg]; simp, ?_⟩
        simp only [place, if_true, hk]
        unfold traceAddressLoop
        simp only [sharedRoot, hop]
        rw [hg, bumpLast_append]
      · have hk : (movedNode os.length z).children.idxOf? y'.idx = some c := by
          rw [hidx]
          simp only [movedNode, idxOf?_moved, hc]
        simp only [place, if_neg hp0, hk]
        exact ih f p z (movedNode os.length z) _ g (by omega) hz hp0 rfl rfl h

theorem address_first {o x : Node} {os xs : List Node} {i : Nat} (hi : i < (o :: os).length)
    {a : List Nat} (h : traceAddress (o :: os) i = .ok a) :
    traceAddress (together (o :: os) (x :: xs)) i = .ok a := by
  unfold traceAddress at h ⊢
  by_cases h0 : i = 0
  · rw [if_pos h0] at h ⊢; exact h
  · rw [if_neg h0] at h ⊢
    obtain ⟨k, rfl⟩ : ∃ k, i = k + 1 := ⟨i - 1, by omega⟩
    have hk : k < os.length := by simpa using hi
    have hJ : (together (o :: os) (x :: xs))[k + 1]? = some os[k] := by
      rw [together, List.getElem?_cons_succ, List.getElem?_append_left hk, List.getElem?_eq_getElem hk]
    rw [List.getElem?_cons_succ, List.getElem?_eq_getElem hk] at h
    rw [hJ]
    dsimp only at h ⊢
    split
    · rename_i hp; rw [if_pos hp] at h; exact h
    · rename_i hp
      rw [if_neg hp] at h
      cases hl : traceAddressLoop (o :: os) (o :: os).length os[k] [] with
      | error e => rw [hl] at h; simp at h
      | ok g =>
        rw [hl] at h
        rw [loop_first (x := x) (xs := xs) _ (together (o :: os) (x :: xs)).length os[k] os[k] []
          g (by simp [together]) rfl rfl hl]
        exact h

theorem address_second {o x : Node} {os xs : List Node} (hA : Links (o :: os)) (hB : Links (x :: xs)) {k : Nat}
    (hk : k < xs.length) {a : List Nat} (h : traceAddress (x :: xs) (k + 1) = .ok a) :
    traceAddress (together (o :: os) (x :: xs)) (os.length + k + 1) = .ok (laterPath o.children.length a) ∧
      (xs[k].isPrecompile = false → a ≠ []) := by
  unfold traceAddress at h ⊢
  rw [if_neg (by omega)] at h ⊢
  have hy : (x :: xs)[k + 1]? = some xs[k] := by rw [List.getElem?_cons_succ, List.getElem?_eq_getElem hk]
  have hJ := together_get (o := o) (os := os) hy
  have e : movedTo os.length (k + 1) = os.length + k + 1 := by unfold movedTo; rw [if_neg (by omega)]; omega
  rw [e] at hJ
  rw [hy] at h
  rw [hJ]
  have hpl : place os.length o (k + 1) xs[k] = movedNode os.length xs[k] := by
    unfold place; rw [if_neg (by omega)]
  have hpre : (movedNode os.length xs[k]).isPrecompile = xs[k].isPrecompile := rfl
  simp only [hpl, hpre] at h ⊢
  cases hp : xs[k].isPrecompile with
  | true =>
    simp only [hp, if_true, Except.ok.injEq] at h ⊢
    subst h
    exact ⟨rfl, by simp⟩
  | false =>
    simp only [hp, Bool.false_eq_true, if_false] at h ⊢
    cases hl : traceAddressLoop (x :: xs) (x :: xs).length xs[k] [] with
    | error e => rw [hl] at h; simp at h
    | ok g =>
      rw [hl] at h
      simp only [Except.ok.injEq] at h
      obtain ⟨hg, h2⟩ := loop_second hA hB _ (together (o :: os) (x :: xs)).length (k + 1) xs[k]
        (movedNode os.length xs[k]) [] g (by simp [together]) hy (by omega) rfl rfl hl
      rw [h2]
      subst h
      exact ⟨by simp [bumpLast], fun _ => by simpa using hg⟩

theorem addressesOf_eq (A : List Node) (f : Nat → List Nat) (l : List Nat)
    (h : ∀ i ∈ l, traceAddress A i = .ok (f i)) : traceAddressesOf A l = .ok (l.map f) := by
  induction l with
  | nil => rfl
  | cons i l ih =>
    simp only [traceAddressesOf, h i (by simp), ih (fun j hj => h j (by simp [hj])), List.map_cons]

/-- The traces of nodes with their addresses. -/
def tracesOf (l : List (Node × List Nat)) : List TransactionTrace :=
  traceIter ((l.filter (fun p => !p.1.isPrecompile)).map (fun p => (p.1.parityTransactionTrace p.2, p.1)))

theorem traceIter_append (a b : List (TransactionTrace × Node)) :
    traceIter (a ++ b) = traceIter a ++ traceIter b := by
  induction a with
  | nil => rfl
  | cons e a ih =>
    obtain ⟨tr, n⟩ := e
    simp only [List.cons_append, traceIter]
    split <;> simp [ih]

theorem tracesOf_append (a b : List (Node × List Nat)) : tracesOf (a ++ b) = tracesOf a ++ tracesOf b := by
  simp [tracesOf, traceIter_append]

theorem tracesOf_later (n c : Nat) (l : List (Node × List Nat))
    (h : ∀ e ∈ l, e.1.isPrecompile = false → e.2 ≠ []) :
    tracesOf (l.map (fun e => (movedNode n e.1, laterPath c e.2))) = (tracesOf l).map (laterTrace c) := by
  induction l with
  | nil => rfl
  | cons e l ih =>
    obtain ⟨x, a⟩ := e
    have ih' := ih (fun e he => h e (by simp [he]))
    have ha := h (x, a) (by simp)
    rw [List.map_cons, ← List.singleton_append, ← List.singleton_append (l := l), tracesOf_append,
      tracesOf_append, List.map_append, ih']
    congr 1
    simp only [tracesOf, List.filter_cons, List.filter_nil]
    rw [show (movedNode n x).isPrecompile = x.isPrecompile from rfl]
    cases hp : x.isPrecompile with
    | true => rfl
    | false =>
      obtain ⟨k, a', rfl⟩ := List.exists_cons_of_ne_nil (ha hp)
      simp only [Bool.not_false, if_true, List.map_cons, List.map_nil, traceIter]
      rw [show (movedNode n x).isSelfdestruct = x.isSelfdestruct from rfl]
      cases hs : x.isSelfdestruct with
      | false =>
        simp [laterTrace, laterPath, Node.parityTransactionTrace, Node.parityAction, Node.parityTraceOutput,
          movedNode]
      | true =>
        have hs' : x.trace.isSelfdestruct = true := hs
        simp [laterTrace, laterPath, Node.parityTransactionTrace, Node.parityAction, Node.parityTraceOutput,
          Node.paritySelfdestructTrace, Node.paritySelfdestructAction, Node.isSelfdestruct, movedNode, hs']

/-- The traces of a root: its own, and that of its selfdestruct. -/
def rootTraces (n : Node) : List TransactionTrace :=
  if n.isSelfdestruct then
    { n.parityTransactionTrace [] with subtraces := n.children.length + 1 } ::
      (n.paritySelfdestructTrace [n.children.length]).toList
  else [n.parityTransactionTrace []]

theorem not_rootEnd (l : List (Node × List Nat)) (h : ∀ e ∈ l, e.1.isPrecompile = false → e.2 ≠ []) :
    ∀ tr ∈ tracesOf l, rootEnd tr = false := by
  induction l with
  | nil => intro tr h; simp [tracesOf, traceIter] at h
  | cons e l ih =>
    obtain ⟨x, a⟩ := e
    have ih' := ih (fun e he => h e (by simp [he]))
    have ha := h (x, a) (by simp)
    intro tr htr
    rw [← List.singleton_append, tracesOf_append, List.mem_append] at htr
    rcases htr with htr | htr
    · simp only [tracesOf, List.filter_cons, List.filter_nil] at htr
      cases hp : x.isPrecompile with
      | true => simp [hp, traceIter] at htr
      | false =>
        obtain ⟨k, a', rfl⟩ := List.exists_cons_of_ne_nil (ha hp)
        have hact : ∀ y : TransactionTrace, y.action = x.parityAction → rootEnd y = false := by
          intro y hy
          rw [rootEnd, hy, Node.parityAction]
          cases x.trace.kind <;> rfl
        simp only [hp, Bool.not_false, if_true, List.map_cons, List.map_nil, traceIter] at htr
        split at htr
        · simp only [List.mem_cons, List.append_nil, Option.mem_toList] at htr
          rcases htr with rfl | htr
          · exact hact _ rfl
          · simp only [Node.paritySelfdestructTrace] at htr
            obtain ⟨act, -, rfl⟩ := Option.map_eq_some_iff.1 htr
            simp only [rootEnd, Node.parityTransactionTrace]
            split <;> simp
        · simp only [List.mem_singleton] at htr
          subst htr
          exact hact _ rfl
    · exact ih' tr htr

theorem join_rootTraces {o x : Node} {n : Nat} {as bs : List TransactionTrace}
    (ha : ∀ tr ∈ as, rootEnd tr = false) (hb : ∀ tr ∈ bs, rootEnd tr = false) :
    rootTraces (sharedRoot n o x) ++ (as ++ bs.map (laterTrace o.children.length)) =
      joinTraces (rootTraces o ++ as) (rootTraces x ++ bs) := by
  have f0 : ∀ {l : List TransactionTrace}, (∀ tr ∈ l, rootEnd tr = false) → l.filter rootEnd = [] := fun h =>
    List.filter_eq_nil_iff.2 (fun tr htr => by simp [h tr htr])
  have f1 : ∀ {l : List TransactionTrace}, (∀ tr ∈ l, rootEnd tr = false) →
      l.filter (fun tr => !rootEnd tr) = l := fun h =>
    List.filter_eq_self.2 (fun tr htr => by simp [h tr htr])
  have hsd : ∀ (y : Node) (p : List Nat), y.isSelfdestruct = true → y.paritySelfdestructTrace p = some
      { action := .selfdestruct y.trace.address (y.trace.selfdestructRefundTarget.getD 0)
          (y.trace.selfdestructTransferredValue.getD 0), error := none, result := none, traceAddress := p,
        subtraces := 0 } := by
    intro y p hy
    simp [Node.paritySelfdestructTrace, Node.paritySelfdestructAction, hy]
  have hse : (sharedRoot n o x).isSelfdestruct = x.isSelfdestruct := rfl
  have hre : ∀ (a r : Address) (v : U256) (k : Nat), rootEnd
      (⟨.selfdestruct a r v, none, none, [k], 0⟩ : TransactionTrace) = true := fun _ _ _ _ => rfl
  cases hx : x.isSelfdestruct <;> cases ho : o.isSelfdestruct <;> rw [hx] at hse <;>
  simp only [rootTraces, hse, hx, ho, if_true, Bool.false_eq_true, if_false, hsd] <;>
  simp [joinTraces, f0 ha, f0 hb, f1 ha, f1 hb, hre, laterTrace, laterPath,
    Node.parityTransactionTrace, sharedRoot, Node.parityAction, Node.parityTraceOutput]
  all_goals omega

/-- The traces of a recording: those of its root, and others, none of which is the selfdestruct of a root. -/
theorem traces_form {o : Node} {os : List Node} (hA : Links (o :: os)) (ho : o.isPrecompile = false) :
    ∃ as, intoTransactionTraces (o :: os) = .ok (rootTraces o ++ as) ∧ ∀ tr ∈ as, rootEnd tr = false := by
  have hfa : ∀ i, ∃ a, i < (o :: os).length → traceAddress (o :: os) i = .ok a := fun i => by
    by_cases hi : i < (o :: os).length
    · obtain ⟨a, ha⟩ := traceAddress_ok hA i hi; exact ⟨a, fun _ => ha⟩
    · exact ⟨[], fun h => absurd h hi⟩
  obtain ⟨fa, hfa⟩ := Classical.axiomOfChoice hfa
  have ha0 : fa 0 = [] := by
    have := hfa 0 (by simp); rw [traceAddress, if_pos rfl] at this; simpa using this.symm
  refine ⟨tracesOf (os.zip ((List.range os.length).map (fun i => fa (i + 1)))), ?_, ?_⟩
  · rw [intoTransactionTraces, traceAddresses,
      addressesOf_eq _ fa _ (fun i hi => hfa i (List.mem_range.1 hi))]
    simp only [List.length_cons, List.range_succ_eq_map, List.map_cons, List.map_map, List.zip_cons_cons, ha0]
    rw [List.filter_cons_of_pos (by simp [ho]), List.map_cons, ← List.singleton_append, traceIter_append]
    rw [rootTraces]
    congr 2
    simp only [traceIter, List.append_nil]
    rfl
  · apply not_rootEnd
    intro e he hp
    obtain ⟨k, hk⟩ := List.mem_iff_getElem?.1 he
    obtain ⟨hk1, hk2⟩ := List.getElem?_eq_some_iff.1 hk
    have hkl : k < os.length := by simpa using hk1
    have hv := (address_second (o := o) (os := os) hA hA hkl (hfa (k + 1) (by simp; omega))).2
    rw [← hk2] at hp ⊢
    simp only [List.getElem_zip, List.getElem_map, List.getElem_range] at hp ⊢
    exact hv hp

/-- The traces of the arena of two transactions. -/
theorem traces_together {o x : Node} {os xs : List Node} (hA : Links (o :: os)) (hB : Links (x :: xs))
    (ho : o.isPrecompile = false) (hx : x.isPrecompile = false) :
    ∃ ta tb, intoTransactionTraces (o :: os) = .ok ta ∧ intoTransactionTraces (x :: xs) = .ok tb ∧
      intoTransactionTraces (together (o :: os) (x :: xs)) = .ok (joinTraces ta tb) := by
  have hfa : ∀ i, ∃ a, i < (o :: os).length → traceAddress (o :: os) i = .ok a := fun i => by
    by_cases hi : i < (o :: os).length
    · obtain ⟨a, ha⟩ := traceAddress_ok hA i hi; exact ⟨a, fun _ => ha⟩
    · exact ⟨[], fun h => absurd h hi⟩
  have hfb : ∀ i, ∃ a, i < (x :: xs).length → traceAddress (x :: xs) i = .ok a := fun i => by
    by_cases hi : i < (x :: xs).length
    · obtain ⟨a, ha⟩ := traceAddress_ok hB i hi; exact ⟨a, fun _ => ha⟩
    · exact ⟨[], fun h => absurd h hi⟩
  obtain ⟨fa, hfa⟩ := Classical.axiomOfChoice hfa
  obtain ⟨fb, hfb⟩ := Classical.axiomOfChoice hfb
  have ha0 : fa 0 = [] := by
    have := hfa 0 (by simp); rw [traceAddress, if_pos rfl] at this; simpa using this.symm
  have hb0 : fb 0 = [] := by
    have := hfb 0 (by simp); rw [traceAddress, if_pos rfl] at this; simpa using this.symm
  have hone : ∀ (n : Node) (ns : List Node) (f : Nat → List Nat), f 0 = [] →
      n.isPrecompile = false →
      (∀ i, i < (n :: ns).length → traceAddress (n :: ns) i = .ok (f i)) →
      intoTransactionTraces (n :: ns) = .ok (rootTraces n ++
        tracesOf (ns.zip ((List.range ns.length).map (fun i => f (i + 1))))) := by
    intro n ns f hf hn hall
    rw [intoTransactionTraces, traceAddresses,
      addressesOf_eq _ f _ (fun i hi => hall i (List.mem_range.1 hi))]
    simp only [List.length_cons, List.range_succ_eq_map, List.map_cons, List.map_map, List.zip_cons_cons, hf]
    rw [List.filter_cons_of_pos (by simp [hn]), List.map_cons, ← List.singleton_append, traceIter_append]
    rw [rootTraces]
    congr 2
    simp only [traceIter, List.append_nil]
    rfl
  have h1 := hone o os fa ha0 ho hfa
  have h2 := hone x xs fb hb0 hx hfb
  refine ⟨_, _, h1, h2, ?_⟩
  let fj : Nat → List Nat := fun i => if i < os.length + 1 then fa i else
    laterPath o.children.length (fb (i - os.length))
  have h3 := hone (sharedRoot os.length o x) (os ++ xs.map (movedNode os.length)) fj
    (by simp only [fj]; rw [if_pos (by omega), ha0]) hx (by
      intro i hi
      simp only [List.length_cons, List.length_append, List.length_map] at hi
      by_cases h : i < os.length + 1
      · simp only [fj, if_pos h]
        exact address_first (by simpa using h) (hfa i (by simpa using h))
      · simp only [fj, if_neg h]
        have hk : i - os.length - 1 < xs.length := by omega
        have := (address_second (o := o) (os := os) hA hB hk (hfb _ (by simp; omega))).1
        rw [show os.length + (i - os.length - 1) + 1 = i by omega,
          show i - os.length - 1 + 1 = i - os.length by omega] at this
        exact this)
  rw [show together (o :: os) (x :: xs) = sharedRoot os.length o x :: (os ++ xs.map (movedNode os.length)) from
    rfl, h3]
  have hna : ∀ tr ∈ tracesOf (os.zip ((List.range os.length).map (fun i => fa (i + 1)))), rootEnd tr = false := by
    apply not_rootEnd
    intro e he hp
    obtain ⟨k, hk⟩ := List.mem_iff_getElem?.1 he
    obtain ⟨hk1, hk2⟩ := List.getElem?_eq_some_iff.1 hk
    have hkl : k < os.length := by simpa using hk1
    have hv := (address_second (o := x) (os := xs) hB hA hkl (hfa (k + 1) (by simp; omega))).2
    rw [← hk2] at hp ⊢
    simp only [List.getElem_zip, List.getElem_map, List.getElem_range] at hp ⊢
    exact hv hp
  have hvb : ∀ e ∈ xs.zip ((List.range xs.length).map (fun i => fb (i + 1))), e.1.isPrecompile = false →
      e.2 ≠ [] := by
    intro e he hp
    obtain ⟨k, hk⟩ := List.mem_iff_getElem?.1 he
    obtain ⟨hk1, hk2⟩ := List.getElem?_eq_some_iff.1 hk
    have hkl : k < xs.length := by simpa using hk1
    have hv := (address_second (o := o) (os := os) hA hB hkl (hfb (k + 1) (by simp; omega))).2
    rw [← hk2] at hp ⊢
    simp only [List.getElem_zip, List.getElem_map, List.getElem_range] at hp ⊢
    exact hv hp
  have hnb := not_rootEnd _ hvb
  have hrest : tracesOf ((os ++ xs.map (movedNode os.length)).zip
        ((List.range (os ++ xs.map (movedNode os.length)).length).map (fun i => fj (i + 1)))) =
      tracesOf (os.zip ((List.range os.length).map (fun i => fa (i + 1)))) ++
      (tracesOf (xs.zip ((List.range xs.length).map (fun i => fb (i + 1))))).map
        (laterTrace o.children.length) := by
    rw [List.length_append, List.length_map, List.range_add, List.map_append,
      List.zip_append (by simp), tracesOf_append]
    congr 1
    · congr 2
      apply List.map_congr_left
      intro i hi
      have := List.mem_range.1 hi
      simp only [fj]
      rw [if_pos (by omega)]
    · have e : (xs.map (movedNode os.length)).zip
          (((List.range xs.length).map (os.length + ·)).map (fun i => fj (i + 1))) =
          (xs.zip ((List.range xs.length).map (fun i => fb (i + 1)))).map
            (fun e => (movedNode os.length e.1, laterPath o.children.length e.2)) := by
        rw [List.map_map, List.zip_map_left, List.zip_map_right, List.zip_map_right, List.map_map, List.map_map]
        apply List.map_congr_left
        intro e _
        simp only [Function.comp, Prod.map, fj, id_eq]
        rw [if_neg (by omega), show os.length + e.2 + 1 - os.length = e.2 + 1 by omega]
      rw [e, tracesOf_later]
      exact hvb
  rw [hrest, join_rootTraces hna hnb]

end Verif.Props
