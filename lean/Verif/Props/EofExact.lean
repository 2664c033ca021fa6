import Verif.Lemmas.Frames
import Verif.Props.Eof
import Verif.Spec.EofPlaces
/-!
# C96, exactly: which executions with EOFCREATE are recorded, and under which parents
-/
namespace Verif.Props
open Rec Spec

/-- `chain` are the last children of last children from the root on, with depths 0, 1, 2, …; `hist` are the
frames that were shown, the last first. -/
structure Chained (A : List Node) (chain : List Nat) (hist : List (Nat × Nat)) : Prop where
  root : chain[0]? = some 0
  len : chain.length ≤ A.length
  links : ∀ k e, chain[k]? = some e → ∃ x, A[e]? = some x ∧ x.trace.depth = k ∧
    x.children.getLast? = chain[k + 1]?
  deepest : ∃ i rest, hist = (chain.length - 1, i) :: rest
  found : ∀ k, k < chain.length → chain[k]? = (hist.find? (·.1 == k)).map (·.2)

theorem Chained.parent {A : List Node} {chain : List Nat} {hist : List (Nat × Nat)}
    (h : Chained A chain hist) {d : Nat} (hd : 0 < d) : parentAt hist d = chain[d - 1]? := by
  obtain ⟨i, rest, he⟩ := h.deepest
  have hpos : 0 < chain.length := (List.getElem?_eq_some_iff.1 h.root).1
  have hf := h.found (d - 1)
  rw [parentAt.eq_def, he]
  dsimp only
  split
  · rw [hf (by omega), he]
  · rw [List.getElem?_eq_none (by omega)]

theorem pushLoop_chain {A : List Node} {chain : List Nat} {hist : List (Nat × Nat)}
    (h : Chained A chain hist) {kind : PushTraceKind} {t : CallTrace} (hd : 0 < t.depth) :
    ∀ (fuel k e : Nat), chain[k]? = some e → k < t.depth → chain.length < fuel + k →
      match chain[t.depth - 1]? with
      | none => ∃ p, pushTraceLoop kind t fuel A e = .error p
      | some q => ∃ x, A[q]? = some x ∧ pushTraceLoop kind t fuel A e = .ok
          (A.set q (match kind with
            | .pushAndAttachToParent => x.attach A.length
            | .pushOnly => x) ++ [{ parent := some q, trace := t, idx := A.length }], A.length)
  | 0, k, e, hk, _, hf => by
    have := (List.getElem?_eq_some_iff.1 hk).1
    omega
  | fuel + 1, k, e, hk, hlt, hf => by
    obtain ⟨x, hx, hdx, hc⟩ := h.links k e hk
    rw [pushTraceLoop.eq_def]
    simp only [if_neg (show ¬ t.depth = 0 by omega), hx, hdx]
    by_cases hkd : k = t.depth - 1
    · rw [← hkd, hk]
      refine ⟨x, hx, ?_⟩
      cases kind
      · simp only [if_true]
        rw [set_self hx]
      · simp
    · rw [if_neg hkd]
      cases hn : chain[k + 1]? with
      | none =>
        rw [hc, hn]
        have hlen := List.getElem?_eq_none_iff.1 hn
        rw [List.getElem?_eq_none (by omega)]
        exact ⟨_, rfl⟩
      | some c =>
        rw [hc, hn]
        exact pushLoop_chain h hd fuel (k + 1) c hn (by omega) (by omega)

theorem Chained.set {A : List Node} {chain : List Nat} {hist : List (Nat × Nat)}
    (h : Chained A chain hist) {p : Nat} {x y : Node} (hx : A[p]? = some x)
    (hc : y.children = x.children) (hd : y.trace.depth = x.trace.depth) :
    Chained (A.set p y) chain hist := by
  refine ⟨h.root, by simpa using h.len, fun k e hk => ?_, h.deepest, h.found⟩
  obtain ⟨z, hz, hdz, hcz⟩ := h.links k e hk
  by_cases hpe : p = e
  · subst hpe
    rw [hz] at hx
    cases hx
    exact ⟨y, by rw [List.getElem?_set_self (List.getElem?_eq_some_iff.1 hz).1], hd.trans hdz, by rw [hc, hcz]⟩
  · exact ⟨z, by rw [List.getElem?_set_ne hpe, hz], hdz, hcz⟩

theorem Chained.hidden {A : List Node} {chain : List Nat} {hist : List (Nat × Nat)}
    (h : Chained A chain hist) (y : Node) : Chained (A ++ [y]) chain hist := by
  refine ⟨h.root, by have := h.len; simp; omega, fun k e hk => ?_, h.deepest, h.found⟩
  obtain ⟨z, hz, hdz, hcz⟩ := h.links k e hk
  exact ⟨z, by rw [List.getElem?_append_left (List.getElem?_eq_some_iff.1 hz).1, hz], hdz, hcz⟩

theorem Chained.shown {A : List Node} {chain : List Nat} {hist : List (Nat × Nat)}
    (h : Chained A chain hist) {d q : Nat} (hd : 0 < d) (hq : chain[d - 1]? = some q) {x y : Node}
    (hx : A[q]? = some x) (hy : y.trace.depth = d) (hyc : y.children = []) :
    Chained (A.set q (x.attach A.length) ++ [y]) (chain.take d ++ [A.length]) ((d, A.length) :: hist) := by
  have hlt := (List.getElem?_eq_some_iff.1 hq).1
  have hqa := (List.getElem?_eq_some_iff.1 hx).1
  have hlen := h.len
  have htl : (chain.take d).length = d := by simp; omega
  obtain ⟨x0, hx0, hdx, hcx⟩ := h.links (d - 1) q hq
  rw [hx] at hx0
  cases hx0
  have hat : ∀ k, k < d → (chain.take d ++ [A.length])[k]? = chain[k]? := fun k hk => by
    rw [List.getElem?_append_left (by omega), List.getElem?_take_of_lt hk]
  have hnew : (chain.take d ++ [A.length])[d]? = some A.length := by
    rw [List.getElem?_append_right (by omega), htl]; simp
  have hend : (chain.take d ++ [A.length])[d + 1]? = none := by
    rw [List.getElem?_eq_none]; simp; omega
  refine ⟨by rw [hat 0 hd]; exact h.root, by simp; omega, fun k e hk => ?_, ⟨A.length, hist, by simp; omega⟩,
    fun k hk => ?_⟩
  · by_cases hkd : k < d
    · rw [hat k hkd] at hk
      obtain ⟨z, hz, hdz, hcz⟩ := h.links k e hk
      have hze := (List.getElem?_eq_some_iff.1 hz).1
      rw [List.getElem?_append_left (by simpa using hze)]
      by_cases hqe : q = e
      · subst hqe
        rw [hx] at hz
        cases hz
        rw [List.getElem?_set_self hqa]
        refine ⟨_, rfl, hdz, ?_⟩
        have : k + 1 = d := by omega
        rw [this, hnew]
        simp [Node.attach]
      · rw [List.getElem?_set_ne hqe]
        refine ⟨z, hz, hdz, ?_⟩
        have hk1 : k + 1 ≠ d := by
          intro hkk
          have : k = d - 1 := by omega
          rw [this, hq] at hk
          exact hqe (Option.some.inj hk)
        rw [hat (k + 1) (by omega), hcz]
    · have hkl := (List.getElem?_eq_some_iff.1 hk).1
      simp only [List.length_append, htl, List.length_singleton] at hkl
      have : k = d := by omega
      subst this
      rw [hnew] at hk
      cases hk
      refine ⟨y, ?_, hy, ?_⟩
      · rw [List.getElem?_append_right (by simp)]; simp
      · rw [hend, hyc]; rfl
  · simp only [List.length_append, htl, List.length_singleton] at hk
    by_cases hkd : k = d
    · subst hkd
      rw [hnew]
      simp
    · rw [hat k (by omega), h.found k (by omega), List.find?_cons_of_neg (by simp; omega)]

/-- The parents found and the shown frames afterwards. -/
def placedTo : (hist : List (Nat × Nat)) → (n : Nat) → List Entered → Option (List Nat × List (Nat × Nat))
  | hist, _, [] => some ([], hist)
  | hist, n, e :: l =>
    match parentAt hist e.depth with
    | none => none
    | some p => (placedTo (if e.shown then (e.depth, n) :: hist else hist) (n + 1) l).map
        fun r => (p :: r.1, r.2)

theorem placed_eq : ∀ (l : List Entered) (hist : List (Nat × Nat)) (n : Nat),
    placed hist n l = (placedTo hist n l).map (·.1)
  | [], _, _ => rfl
  | e :: l, hist, n => by
    rw [placed, placedTo]
    cases parentAt hist e.depth with
    | none => rfl
    | some p =>
      dsimp only
      rw [placed_eq l, Option.map_map, Option.map_map]
      rfl

theorem placedTo_append : ∀ (l l' : List Entered) (hist : List (Nat × Nat)) (n : Nat),
    placedTo hist n (l ++ l') = match placedTo hist n l with
      | none => none
      | some r => (placedTo r.2 (n + l.length) l').map fun r' => (r.1 ++ r'.1, r'.2)
  | [], l', hist, n => by simp [placedTo]
  | e :: l, l', hist, n => by
    rw [List.cons_append, placedTo, placedTo]
    cases parentAt hist e.depth with
    | none => rfl
    | some p =>
      dsimp only
      rw [placedTo_append l l']
      cases placedTo (if e.shown = true then (e.depth, n) :: hist else hist) (n + 1) l with
      | none => rfl
      | some r =>
        simp only [Option.map_some, Option.map_map, List.length_cons]
        rw [show n + 1 + l.length = n + (l.length + 1) by omega]
        rfl

theorem placedTo_length : ∀ (l : List Entered) (hist : List (Nat × Nat)) (n : Nat)
    (r : List Nat × List (Nat × Nat)), placedTo hist n l = some r → r.1.length = l.length
  | [], _, _, _, h => by cases h; rfl
  | e :: l, hist, n, r, h => by
    rw [placedTo] at h
    split at h
    · cases h
    · rw [Option.map_eq_some_iff] at h
      obtain ⟨r0, h0, rfl⟩ := h
      simp [placedTo_length l _ _ r0 h0]

theorem length_entered (cfg : Config) : ∀ (b : EofBody) (d : Nat) (v : U256) (os : List Nat) (dir : Bool)
    (n : Nat), (entered cfg d v os dir n b).length = b.calls
  | .nil, _, _, _, _, _ => rfl
  | .act _ rest, d, v, os, dir, n => length_entered cfg rest d v os dir n
  | .sub h b o rest, d, v, os, dir, n => by
    rw [entered, List.length_cons, List.length_append, length_entered cfg b, length_entered cfg rest,
      EofBody.calls]
    omega
  | .eof _ _ _ b rest, d, v, os, dir, n => by
    rw [entered, List.length_append, length_entered cfg b, length_entered cfg rest, EofBody.calls]

theorem leftOut_eq (cfg : Config) (v : U256) (d : Nat) (h : Header) (o : Outcome) (hwf : h.WF) :
    Rec.excluded (enterTrace cfg (some v) d h) = leftOut cfg v h := by
  rw [Rec.excluded_eq cfg 0 0 d v h .nil o hwf, leftOut, Spec.excluded]
  simp [FrameCtx.value]

/-- What a part of an execution leaves as it was, and the nodes with the parents `ps` that it adds. -/
structure Grown (A A' : List Node) (ps : List Nat) : Prop where
  values : ∀ (i : Nat) (x : Node), A[i]? = some x →
    ∃ x' : Node, A'[i]? = some x' ∧ x'.trace.value = x.trace.value
  parents : A'.map (·.parent) = A.map (·.parent) ++ ps.map some

theorem Grown.trans {A A1 A2 : List Node} {ps qs : List Nat} (h : Grown A A1 ps) (h' : Grown A1 A2 qs) :
    Grown A A2 (ps ++ qs) := by
  refine ⟨fun i x hx => ?_, by rw [h'.parents, h.parents]; simp⟩
  obtain ⟨x1, h1, e1⟩ := h.values i x hx
  obtain ⟨x2, h2, e2⟩ := h'.values i x1 h1
  exact ⟨x2, h2, e2.trans e1⟩

theorem Grown.length {A A' : List Node} {ps : List Nat} (h : Grown A A' ps) :
    A'.length = A.length + ps.length := by
  have := congrArg List.length h.parents
  simpa using this

theorem set_values {A : List Node} {p : Nat} {x y : Node} (hx : A[p]? = some x)
    (hv : y.trace.value = x.trace.value) (i : Nat) (z : Node) (hz : A[i]? = some z) :
    ∃ z', (A.set p y)[i]? = some z' ∧ z'.trace.value = z.trace.value := by
  by_cases hpi : p = i
  · subst hpi
    rw [hz] at hx
    cases hx
    exact ⟨y, by rw [List.getElem?_set_self (List.getElem?_eq_some_iff.1 hz).1], hv⟩
  · exact ⟨z, by rw [List.getElem?_set_ne hpi, hz], rfl⟩

theorem set_parents {A : List Node} {p : Nat} {x y : Node} (hx : A[p]? = some x)
    (hv : y.parent = x.parent) : (A.set p y).map (·.parent) = A.map (·.parent) := by
  rw [List.map_set, hv]
  apply set_self
  rw [List.getElem?_map, hx]
  rfl

theorem Grown.set {A : List Node} {p : Nat} {x y : Node} (hx : A[p]? = some x)
    (hv : y.trace.value = x.trace.value) (hp : y.parent = x.parent) : Grown A (A.set p y) [] :=
  ⟨set_values hx hv, by rw [set_parents hx hp]; simp⟩

theorem leaveNode_keeps (p d : Nat) (h : Header) (o : Outcome) (x : Node) :
    (leaveNode p d h o x).trace.value = x.trace.value ∧ (leaveNode p d h o x).parent = x.parent ∧
    (leaveNode p d h o x).children = x.children ∧ (leaveNode p d h o x).trace.depth = x.trace.depth := by
  refine ⟨?_, rfl, rfl, ?_⟩ <;>
    · simp only [leaveNode, TI.fillTrace]
      first | rfl | (split <;> rfl)

theorem chain_enter {A : List Node} {chain : List Nat} {hist : List (Nat × Nat)}
    (h : Chained A chain hist) {d q : Nat} (hd : 0 < d) (hq : chain[d - 1]? = some q) {x y : Node}
    (hx : A[q]? = some x) (hy : y.trace.depth = d) (hyc : y.children = []) (hyp : y.parent = some q)
    (out : Bool) :
    ∃ chain', Chained (A.set q (match (if out = true then PushTraceKind.pushOnly else .pushAndAttachToParent) with
        | .pushAndAttachToParent => x.attach A.length
        | .pushOnly => x) ++ [y]) chain' (if (!out) = true then (d, A.length) :: hist else hist) ∧
      Grown A (A.set q (match (if out = true then PushTraceKind.pushOnly else .pushAndAttachToParent) with
        | .pushAndAttachToParent => x.attach A.length
        | .pushOnly => x) ++ [y]) [q] := by
  have hg : ∀ z : Node, z.trace.value = x.trace.value → z.parent = x.parent → Grown A (A.set q z ++ [y]) [q] := by
    intro z h1 h2
    refine ⟨fun i w hw => ?_, by rw [List.map_append, set_parents hx h2]; simp [hyp]⟩
    obtain ⟨w', hw', e⟩ := set_values hx h1 i w hw
    exact ⟨w', by rw [List.getElem?_append_left (List.getElem?_eq_some_iff.1 hw').1, hw'], e⟩
  cases out with
  | true => exact ⟨chain, by simp only [if_true]; rw [set_self hx]; exact h.hidden y, hg x rfl rfl⟩
  | false => exact ⟨_, h.shown hd hq hx hy hyc, hg _ rfl rfl⟩

theorem eof_body {cfg : Config} : ∀ (b : EofBody) (d : Nat) (s : TI) (chain : List Nat)
    (hist : List (Nat × Nat)) (p : Nat) (stk : List Nat) (x : Node) (v : U256) (os : List Nat) (dir : Bool),
    0 < d → s.traceStack = p :: stk → s.arena[p]? = some x → x.trace.value = v →
    Chained s.arena chain hist → b.Safe cfg → b.WF →
    match placedTo hist s.arena.length (entered cfg d v os dir s.arena.length b) with
    | none => ∃ e, TI.run cfg s (b.events d) = .error e
    | some r => ∃ s' chain', TI.run cfg s (b.events d) = .ok s' ∧ s'.traceStack = p :: stk ∧
        Grown s.arena s'.arena r.1 ∧ Chained s'.arena chain' r.2
  | .nil, d, s, chain, hist, p, stk, x, v, os, dir, _, hstk, _, _, hch, _, _ =>
    ⟨s, chain, rfl, hstk, ⟨fun i x hx => ⟨x, hx, rfl⟩, by simp⟩, hch⟩
  | .act a rest, d, s, chain, hist, p, stk, x, v, os, dir, hd, hstk, hx, hv, hch, hsafe, hwf => by
    obtain ⟨s1, h1, hs1, ha1, _⟩ := run_act (cfg := cfg) (a := a) (d := d) hstk hx hsafe.1
    have hg : Grown s.arena s1.arena [] := by
      rw [ha1]; exact Grown.set hx (actNode_value ..) (actNode_parent ..)
    have hch1 : Chained s1.arena chain hist := by
      rw [ha1]; exact hch.set hx (actNode_children ..) (actNode_depth ..)
    have hx1 : s1.arena[p]? = some (actNode cfg d a x) := by
      rw [ha1, List.getElem?_set_self (List.getElem?_eq_some_iff.1 hx).1]
    have ih := eof_body rest d s1 chain hist p stk _ v os dir hd hs1 hx1
      ((actNode_value ..).trans hv) hch1 hsafe.2 hwf
    have hlen : s1.arena.length = s.arena.length := by rw [ha1]; simp
    rw [hlen] at ih
    rw [entered, EofBody.events, run_append_ok h1]
    split
    · rename_i hn
      rw [hn] at ih
      exact ih
    · rename_i r hr
      rw [hr] at ih
      obtain ⟨s', chain', h2, hs2, hg2, hch2⟩ := ih
      exact ⟨s', chain', h2, hs2, by simpa using hg.trans hg2, hch2⟩
  | .eof _ _ _ b rest, d, s, chain, hist, p, stk, x, v, os, dir, hd, hstk, hx, hv, hch, hsafe, hwf => by
    have ihb := eof_body b (d + 1) s chain hist p stk x v os false (by omega) hstk hx hv hch hsafe.1 hwf.1
    rw [entered, EofBody.events, placedTo_append, length_entered, run_append]
    cases hb : placedTo hist s.arena.length (entered cfg (d + 1) v os false s.arena.length b) with
    | none =>
      rw [hb] at ihb
      obtain ⟨e, he⟩ := ihb
      rw [he]
      exact ⟨e, rfl⟩
    | some r =>
      rw [hb] at ihb
      obtain ⟨s1, chain1, h1, hs1, hg1, hch1⟩ := ihb
      obtain ⟨x1, hx1, hv1⟩ := hg1.values p x hx
      have hlen : s1.arena.length = s.arena.length + b.calls := by
        rw [hg1.length, placedTo_length _ _ _ _ hb, length_entered]
      have ihr := eof_body rest d s1 chain1 r.2 p stk x1 v os dir hd hs1 hx1
        (hv1.trans hv) hch1 hsafe.2 hwf.2
      rw [hlen] at ihr
      rw [h1]
      dsimp only
      cases hr : placedTo r.2 (s.arena.length + b.calls)
          (entered cfg d v os dir (s.arena.length + b.calls) rest) with
      | none =>
        rw [hr] at ihr
        exact ihr
      | some r' =>
        rw [hr] at ihr
        obtain ⟨s2, chain2, h2, hs2, hg2, hch2⟩ := ihr
        exact ⟨s2, chain2, h2, hs2, hg1.trans hg2, hch2⟩
  | .sub h b o rest, d, s, chain, hist, p, stk, x, v, os, dir, hd, hstk, hx, hv, hch, hsafe, hwf => by
    have hent := hook_enter (cfg := cfg) (s := s) (h := h) (d := d) (pval := some v)
      (by rw [hstk]; exact ⟨x, hx, by rw [hv]⟩)
    have hdt : (enterTrace cfg (some v) d h).depth = d := enterTrace_depth ..
    have hout := leftOut_eq cfg v d h o hwf.1
    have hpush := pushLoop_chain hch
      (kind := if Rec.excluded (enterTrace cfg (some v) d h) then .pushOnly else .pushAndAttachToParent)
      (t := enterTrace cfg (some v) d h) (by omega) (s.arena.length + 1) 0 0 hch.root (by omega)
      (by have := hch.len; omega)
    rw [hdt] at hpush
    rw [pushTrace] at hent
    rw [entered, EofBody.events, placedTo, hch.parent hd, TI.run]
    cases hq : chain[d - 1]? with
    | none =>
      rw [hq] at hpush
      obtain ⟨e, he⟩ := hpush
      rw [hent, he]
      exact ⟨e, rfl⟩
    | some q =>
      rw [hq] at hpush
      obtain ⟨xq, hxq, he⟩ := hpush
      rw [he] at hent
      dsimp only at hent ⊢
      rw [hent]
      dsimp only
      rw [hout] at hent ⊢
      obtain ⟨chain1, hch1, hg1⟩ := chain_enter hch hd hq hxq
        (y := { parent := some q, trace := enterTrace cfg (some v) d h, idx := s.arena.length }) hdt rfl rfl
        (leftOut cfg v h)
      generalize hA1 : s.arena.set q (match (if leftOut cfg v h = true then PushTraceKind.pushOnly
        else .pushAndAttachToParent) with
        | .pushAndAttachToParent => xq.attach s.arena.length
        | .pushOnly => xq) ++ [(⟨some q, [], s.arena.length, enterTrace cfg (some v) d h, [], []⟩ : Node)] = A1 at *
      generalize (if (!leftOut cfg v h) = true then (d, s.arena.length) :: hist else hist) = hist1 at *
      have hl1 : A1.length = s.arena.length + 1 := hg1.length
      have hy1 : A1[s.arena.length]? = some (⟨some q, [], s.arena.length, enterTrace cfg (some v) d h, [], []⟩ : Node) := by
        rw [← hA1, List.getElem?_append_right (by simp)]; simp
      generalize hs1 : TI.mk _ _ _ _ _ = s1
      have ha1 : s1.arena = A1 := by rw [← hs1]
      have ht1 : s1.traceStack = s.arena.length :: p :: stk := by rw [← hs1]; simp [hstk]
      have ihb := eof_body b (d + 1) s1 chain1 hist1 s.arena.length (p :: stk) _
        (valueInScope (some v) h) (s.arena.length :: os) true (by omega) ht1 (by rw [ha1]; exact hy1)
        (enterTrace_value ..) (by rw [ha1]; exact hch1) hsafe.1 hwf.2.2.1
      rw [ha1, hl1] at ihb
      rw [placedTo_append, length_entered, run_append]
      cases hb : placedTo hist1 (s.arena.length + 1) (entered cfg (d + 1) (valueInScope (some v) h)
          (s.arena.length :: os) true (s.arena.length + 1) b) with
      | none =>
        rw [hb] at ihb
        obtain ⟨e, he⟩ := ihb
        rw [he]
        exact ⟨e, rfl⟩
      | some r =>
        rw [hb] at ihb
        obtain ⟨s2, chain2, h2, hs2, hg2, hch2⟩ := ihb
        obtain ⟨y2, hy2, hv2⟩ := hg2.values _ _ hy1
        have hleave := hook_leave (cfg := cfg) (h := h) (d := d) (o := o) hs2 hy2
        obtain ⟨k1, k2, k3, k4⟩ := leaveNode_keeps s.arena.length d h o y2
        rw [h2]
        dsimp only
        rw [run_cons_ok hleave]
        generalize hs3 : TI.mk _ _ _ _ _ = s3
        have ha3 : s3.arena = s2.arena.set s.arena.length (leaveNode s.arena.length d h o y2) := by rw [← hs3]
        have ht3 : s3.traceStack = p :: stk := by rw [← hs3]
        have hg3 : Grown s.arena s3.arena (q :: r.1) := by
          have := (hg1.trans hg2).trans (Grown.set hy2 k1 k2)
          rw [ha3]
          simpa using this
        have hch3 : Chained s3.arena chain2 r.2 := by rw [ha3]; exact hch2.set hy2 k3 k4
        obtain ⟨x3, hx3, hv3⟩ := hg3.values p x hx
        have hlen : s3.arena.length = s.arena.length + 1 + b.calls := by
          rw [hg3.length, List.length_cons, placedTo_length _ _ _ _ hb, length_entered]; omega
        have ihr := eof_body rest d s3 chain2 r.2 p stk x3 v os dir hd ht3 hx3 (hv3.trans hv) hch3
          hsafe.2 hwf.2.2.2
        rw [hlen] at ihr
        cases hr : placedTo r.2 (s.arena.length + 1 + b.calls)
            (entered cfg d v os dir (s.arena.length + 1 + b.calls) rest) with
        | none =>
          rw [hr] at ihr
          simp only [Option.map_none]
          exact ihr
        | some r' =>
          rw [hr] at ihr
          obtain ⟨s4, chain4, h4, hs4, hg4, hch4⟩ := ihr
          simp only [Option.map_some]
          exact ⟨s4, chain4, h4, hs4, by simpa using hg3.trans hg4, hch4⟩

/-- **C96, exactly:** with safe steps the recorder survives the execution iff every frame that is entered by a
call or a create finds a parent, and then the recording has a node for each of them, in the order in which
they were entered, below the parents they found. -/
theorem C96_exact (cfg : Config) (t : EofTx) (hsafe : t.body.Safe cfg) (hwf : t.body.WF) :
    match Spec.parents cfg t with
    | none => ∃ e, TI.run cfg TI.new t.events = .error e
    | some ps => ∃ s, TI.run cfg TI.new t.events = .ok s ∧ s.arena.map (·.parent) = none :: ps.map some := by
  have hent := hook_enter (cfg := cfg) (s := TI.new) (h := t.hdr) (d := 0) (pval := none) rfl
  have hdt : (enterTrace cfg none 0 t.hdr).depth = 0 := enterTrace_depth ..
  have hpush : ∀ kind, pushTrace TI.new.arena 0 kind (enterTrace cfg none 0 t.hdr) =
      .ok ([{ ({} : Node) with trace := enterTrace cfg none 0 t.hdr }], 0) := by
    intro kind
    rw [pushTrace, pushTraceLoop.eq_def]
    exact if_pos hdt
  rw [hpush] at hent
  rw [Spec.parents, EofTx.events, TI.run, hent]
  dsimp only
  generalize hs1 : TI.mk _ _ _ _ _ = s1
  have ha1 : s1.arena = [{ ({} : Node) with trace := enterTrace cfg none 0 t.hdr }] := by rw [← hs1]
  have ht1 : s1.traceStack = [0] := by rw [← hs1]; rfl
  have hch : Chained s1.arena [0] [(0, 0)] := by
    rw [ha1]
    refine ⟨rfl, by simp, fun k e hk => ?_, ⟨0, [], rfl⟩, fun k hk => ?_⟩
    · cases k with
      | zero => cases hk; exact ⟨_, rfl, hdt, rfl⟩
      | succ k => simp at hk
    · have : k = 0 := by simpa using hk
      subst this; rfl
  have ih := eof_body t.body 1 s1 [0] [(0, 0)] 0 [] _ (valueInScope none t.hdr) [0] true (by omega) ht1
    (by rw [ha1]; rfl) (enterTrace_value ..) hch hsafe hwf
  rw [ha1] at ih
  rw [placed_eq, run_append]
  simp only [List.length_singleton] at ih
  cases hb : placedTo [(0, 0)] 1 (entered cfg 1 (valueInScope none t.hdr) [0] true 1 t.body) with
  | none =>
    rw [hb] at ih
    obtain ⟨e, he⟩ := ih
    rw [he]
    exact ⟨e, rfl⟩
  | some r =>
    rw [hb] at ih
    obtain ⟨s2, chain2, h2, hs2, hg2, hch2⟩ := ih
    obtain ⟨y2, hy2, hv2⟩ := hg2.values 0 _ rfl
    have hleave := hook_leave (cfg := cfg) (h := t.hdr) (d := 0) (o := t.out) hs2 hy2
    obtain ⟨k1, k2, k3, k4⟩ := leaveNode_keeps 0 0 t.hdr t.out y2
    rw [h2]
    dsimp only
    rw [run_cons_ok hleave]
    refine ⟨_, rfl, ?_⟩
    dsimp only
    rw [set_parents hy2 k2, hg2.parents]
    rfl

/-- The shown frames `hist` and the open recorded ones `os`, `d` frames of all kinds being open. -/
structure Opens (hist : List (Nat × Nat)) (os : List Nat) (d : Nat) (dir : Bool) (n : Nat) : Prop where
  pos : 0 < d
  ids : ∀ a ∈ hist, a.2 < n
  sorted : hist.Pairwise fun a b => b.2 < a.2
  opens : ∀ o ∈ os, ∃ k, k < (if dir then d else d - 1) ∧ hist.find? (·.1 == k) = some (k, o)
  inner : dir = true → ∃ o os', os = o :: os' ∧ hist.find? (·.1 == d - 1) = some (d - 1, o)

theorem sorted_unique {hist : List (Nat × Nat)} (h : hist.Pairwise fun a b => b.2 < a.2) :
    ∀ a ∈ hist, ∀ b ∈ hist, a.2 = b.2 → a = b := by
  induction h with
  | nil => intro a ha; cases ha
  | cons hx _ ih =>
    intro a ha b hb hab
    rcases List.mem_cons.1 ha with rfl | ha' <;> rcases List.mem_cons.1 hb with rfl | hb'
    · rfl
    · have := hx b hb'; omega
    · have := hx a ha'; omega
    · exact ih a ha' b hb' hab

theorem find_skip {added hist : List (Nat × Nat)} {d k : Nat} (ha : ∀ a ∈ added, d ≤ a.1) (hk : k < d) :
    (added ++ hist).find? (·.1 == k) = hist.find? (·.1 == k) := by
  rw [List.find?_append, List.find?_eq_none.2 (fun a h => by have := ha a h; simp; omega)]
  rfl

theorem Opens.later {hist added : List (Nat × Nat)} {os : List Nat} {d n m : Nat} {dir : Bool}
    (h : Opens hist os d dir n) (ha : ∀ a ∈ added, d ≤ a.1 ∧ n ≤ a.2 ∧ a.2 < m) (hnm : n ≤ m)
    (hs : (added ++ hist).Pairwise fun a b => b.2 < a.2) : Opens (added ++ hist) os d dir m := by
  have hp := h.pos
  refine ⟨h.pos, fun a hm => ?_, hs, fun o ho => ?_, fun hd => ?_⟩
  · rcases List.mem_append.1 hm with h1 | h1
    · exact (ha a h1).2.2
    · have := h.ids a h1; omega
  · obtain ⟨k, hk, hf⟩ := h.opens o ho
    refine ⟨k, hk, ?_⟩
    rw [find_skip (d := d) (fun a h => (ha a h).1) (by split at hk <;> omega), hf]
  · obtain ⟨o, os', ho, hf⟩ := h.inner hd
    exact ⟨o, os', ho, by rw [find_skip (d := d) (fun a h => (ha a h).1) (by omega), hf]⟩

/-- The frame `e` is put below the innermost open recorded frame if that enters it, and below one that is not
open otherwise. -/
def WellPlaced (e : Entered) (p : Nat) : Prop :=
  (e.direct = true → e.opened.head? = some p) ∧ (e.direct = false → p ∉ e.opened)

theorem well_placed (cfg : Config) : ∀ (b : EofBody) (d : Nat) (v : U256) (os : List Nat) (dir : Bool) (n : Nat)
    (hist : List (Nat × Nat)) (r : List Nat × List (Nat × Nat)), Opens hist os d dir n → b.WF →
    placedTo hist n (entered cfg d v os dir n b) = some r →
    (∀ x ∈ (entered cfg d v os dir n b).zip r.1, WellPlaced x.1 x.2) ∧
    ∃ added, r.2 = added ++ hist ∧ (∀ a ∈ added, d ≤ a.1 ∧ n ≤ a.2 ∧ a.2 < n + b.calls) ∧
      (added ++ hist).Pairwise fun a b => b.2 < a.2
  | .nil, d, v, os, dir, n, hist, r, h, _, hr => by
    cases hr
    exact ⟨fun x hx => (by cases hx), [], rfl, fun a ha => (by cases ha), h.sorted⟩
  | .act _ rest, d, v, os, dir, n, hist, r, h, hwf, hr => well_placed cfg rest d v os dir n hist r h hwf hr
  | .eof _ _ _ b rest, d, v, os, dir, n, hist, r, h, hwf, hr => by
    rw [entered, placedTo_append, length_entered] at hr
    split at hr
    · cases hr
    · rename_i r1 h1
      rw [Option.map_eq_some_iff] at hr
      obtain ⟨r2, h2, rfl⟩ := hr
      have hp := h.pos
      obtain ⟨w1, added1, e1, a1, s1⟩ := well_placed cfg b (d + 1) v os false n hist r1
        ⟨by omega, h.ids, h.sorted, fun o ho => by
          obtain ⟨k, hk, hf⟩ := h.opens o ho
          exact ⟨k, by simp only [Bool.false_eq_true, if_false]; split at hk <;> omega, hf⟩,
          fun hd => by cases hd⟩ hwf.1 h1
      have a1' : ∀ a ∈ added1, d ≤ a.1 ∧ n ≤ a.2 ∧ a.2 < n + b.calls := fun a ha => by
        have := a1 a ha; omega
      have h' := h.later a1' (by omega) s1
      rw [e1] at h2
      obtain ⟨w2, added2, e2, a2, s2⟩ := well_placed cfg rest d v os dir (n + b.calls) _ r2 h' hwf.2 h2
      refine ⟨fun x hx => ?_, added2 ++ added1, by rw [e2, List.append_assoc], fun a ha => ?_,
        by rw [List.append_assoc]; exact s2⟩
      · rw [entered, List.zip_append (placedTo_length _ _ _ _ h1).symm] at hx
        rcases List.mem_append.1 hx with hx | hx
        · exact w1 x hx
        · exact w2 x hx
      · rw [EofBody.calls]
        rcases List.mem_append.1 ha with ha | ha
        · have := a2 a ha; omega
        · have := a1' a ha; omega
  | .sub hd b o rest, d, v, os, dir, n, hist, r, h, hwf, hr => by
    rw [entered, placedTo] at hr
    dsimp only at hr
    split at hr
    · cases hr
    · rename_i p hpar
      rw [Option.map_eq_some_iff] at hr
      obtain ⟨r0, hr0, rfl⟩ := hr
      rw [placedTo_append, length_entered] at hr0
      split at hr0
      · cases hr0
      · rename_i r1 h1
        rw [Option.map_eq_some_iff] at hr0
        obtain ⟨r2, h2, rfl⟩ := hr0
        have hp := h.pos
        have hfind : hist.find? (·.1 == d - 1) = some (d - 1, p) := by
          rw [parentAt.eq_def] at hpar
          split at hpar
          · cases hpar
          · split at hpar
            · rw [Option.map_eq_some_iff] at hpar
              obtain ⟨a, ha, rfl⟩ := hpar
              rw [ha]
              have := List.find?_some ha
              simp only [beq_iff_eq] at this
              rw [← this]
            · cases hpar
        have hwell : WellPlaced ⟨d, !leftOut cfg v hd, os, dir⟩ p := by
          refine ⟨fun hdir => ?_, fun hdir hmem => ?_⟩
          · obtain ⟨q, os', hos, hf⟩ := h.inner hdir
            rw [hf] at hfind
            dsimp only
            rw [hos]
            simp only [Option.some.injEq, Prod.mk.injEq, true_and] at hfind
            rw [hfind]
            rfl
          · obtain ⟨k, hk, hf⟩ := h.opens p hmem
            dsimp only at hdir
            rw [hdir] at hk
            have := sorted_unique h.sorted _ (List.mem_of_find?_eq_some hf) _
              (List.mem_of_find?_eq_some hfind) rfl
            simp only [Prod.mk.injEq] at this
            simp only [Bool.false_eq_true, if_false] at hk
            omega
        have hkey : ∃ added1, r1.2 = added1 ++ hist ∧
            (∀ a ∈ added1, d ≤ a.1 ∧ n ≤ a.2 ∧ a.2 < n + 1 + b.calls) ∧
            (added1 ++ hist).Pairwise (fun a b => b.2 < a.2) ∧
            ∀ x ∈ (entered cfg (d + 1) (valueInScope (some v) hd) (n :: os) true (n + 1) b).zip r1.1,
              WellPlaced x.1 x.2 := by
          cases ho : leftOut cfg v hd with
          | true =>
            have hc : b.calls = 0 := by
              refine hwf.2.1 ?_
              simp only [leftOut, Bool.and_eq_true] at ho
              exact ho.1.2
            have he : entered cfg (d + 1) (valueInScope (some v) hd) (n :: os) true (n + 1) b = [] :=
              List.eq_nil_of_length_eq_zero (by rw [length_entered, hc])
            rw [he, ho] at h1
            cases h1
            refine ⟨[], rfl, fun a ha => (by cases ha), h.sorted, fun x hx => ?_⟩
            rw [he] at hx
            cases hx
          | false =>
            rw [ho] at h1
            obtain ⟨w1, added1, e1, a1, s1⟩ := well_placed cfg b (d + 1) _ (n :: os) true (n + 1)
              ((d, n) :: hist) r1 ⟨by omega, fun a ha => by
                rcases List.mem_cons.1 ha with rfl | ha
                · exact Nat.lt_succ_self _
                · have := h.ids a ha; omega,
                List.pairwise_cons.2 ⟨fun a ha => h.ids a ha, h.sorted⟩, fun q hq => by
                rcases List.mem_cons.1 hq with rfl | hq
                · exact ⟨d, by simp, by simp⟩
                · obtain ⟨k, hk, hf⟩ := h.opens q hq
                  have hkd : k < d := by split at hk <;> omega
                  exact ⟨k, by simp only [if_true]; omega,
                    by rw [List.find?_cons_of_neg (by simp; omega), hf]⟩,
                fun _ => ⟨n, os, rfl, by simp⟩⟩ hwf.2.2.1 h1
            refine ⟨added1 ++ [(d, n)], by rw [e1]; simp, fun a ha => ?_, by simpa using s1, w1⟩
            rcases List.mem_append.1 ha with ha | ha
            · have := a1 a ha; omega
            · rw [List.mem_singleton.1 ha]
              dsimp only
              omega
        obtain ⟨added1, e1, a1, s1, w1⟩ := hkey
        have h' := h.later a1 (by omega) s1
        rw [e1] at h2
        obtain ⟨w2, added2, e2, a2, s2⟩ := well_placed cfg rest d v os dir (n + 1 + b.calls) _ r2 h'
          hwf.2.2.2 h2
        refine ⟨fun x hx => ?_, added2 ++ added1, by rw [e2, List.append_assoc], fun a ha => ?_,
          by rw [List.append_assoc]; exact s2⟩
        · rw [entered, List.zip_cons_cons] at hx
          rcases List.mem_cons.1 hx with rfl | hx
          · exact hwell
          · rw [List.zip_append (placedTo_length _ _ _ _ h1).symm] at hx
            rcases List.mem_append.1 hx with hx | hx
            · exact w1 x hx
            · exact w2 x hx
        · rw [EofBody.calls]
          rcases List.mem_append.1 ha with ha | ha
          · have := a2 a ha; omega
          · have := a1 a ha; omega

/-- **C96, exactly:** in a recording that is made, a frame is below the innermost open recorded frame if that
is the frame that entered it; one that the init code of an EOFCREATE entered is below a frame that is not even
open at that time. -/
theorem C96_parents (cfg : Config) (t : EofTx) (hwf : t.body.WF) (ps : List Nat)
    (h : Spec.parents cfg t = some ps) :
    ∀ x ∈ (entered cfg 1 (valueInScope none t.hdr) [0] true 1 t.body).zip ps,
      (x.1.direct = true → x.1.opened.head? = some x.2) ∧ (x.1.direct = false → x.2 ∉ x.1.opened) := by
  rw [Spec.parents, placed_eq, Option.map_eq_some_iff] at h
  obtain ⟨r, hr, rfl⟩ := h
  refine (well_placed cfg t.body 1 _ [0] true 1 [(0, 0)] r ⟨by omega, ?_, by simp, ?_, ?_⟩ hwf hr).1
  · intro a ha
    rw [List.mem_singleton.1 ha]
    exact Nat.zero_lt_one
  · intro o ho
    rw [List.mem_singleton.1 ho]
    exact ⟨0, by simp, by simp⟩
  · exact fun _ => ⟨0, [], rfl, by simp⟩

/-- **C96, exactly:** the frames of a recording that is made are all below the frames that entered them iff no
frame is entered by the init code of an EOFCREATE. -/
theorem C96_parents_iff (cfg : Config) (t : EofTx) (hsafe : t.body.Safe cfg) (hwf : t.body.WF) (s : TI)
    (h : TI.run cfg TI.new t.events = .ok s) :
    let es := entered cfg 1 (valueInScope none t.hdr) [0] true 1 t.body
    s.arena.map (·.parent) = none :: es.map (·.opened.head?) ↔ ∀ e ∈ es, e.direct = true := by
  intro es
  have hex := C96_exact cfg t hsafe hwf
  cases hp : Spec.parents cfg t with
  | none =>
    rw [hp] at hex
    obtain ⟨e, he⟩ := hex
    rw [h] at he
    cases he
  | some ps =>
    rw [hp] at hex
    obtain ⟨s', hs', hmap⟩ := hex
    rw [h] at hs'
    cases hs'
    have hpl := C96_parents cfg t hwf ps hp
    have hlen : ps.length = es.length := by
      rw [Spec.parents, placed_eq, Option.map_eq_some_iff] at hp
      obtain ⟨r, hr, rfl⟩ := hp
      exact placedTo_length _ _ _ _ hr
    rw [hmap, List.cons.injEq]
    simp only [true_and]
    have gen : ∀ (es : List Entered) (ps : List Nat), ps.length = es.length →
        (∀ x ∈ es.zip ps, (x.1.direct = true → x.1.opened.head? = some x.2) ∧
          (x.1.direct = false → x.2 ∉ x.1.opened)) →
        (ps.map some = es.map (·.opened.head?) ↔ ∀ e ∈ es, e.direct = true) := by
      intro es
      induction es with
      | nil => intro ps hl _; cases ps with
        | nil => simp
        | cons => simp at hl
      | cons e es ih =>
        intro ps hl hall
        cases ps with
        | nil => simp at hl
        | cons p ps =>
          have h0 := hall (e, p) (by simp)
          have ih' := ih ps (by simpa using hl) (fun x hx => hall x (by simp [hx]))
          rw [List.map_cons, List.map_cons, List.cons.injEq, List.forall_mem_cons, ih']
          refine and_congr_left fun _ => ⟨fun hh => ?_, fun hh => (h0.1 hh).symm⟩
          cases hdir : e.direct with
          | true => rfl
          | false => exact absurd (List.mem_of_head? hh.symm) (h0.2 hdir)
    exact gen es ps hlen hpl

/-- The hypotheses of `C96_exact` can be met, and all its cases occur: no parent, a wrong one, the right ones. -/
example : Spec.parents default EofExample.disconnected = none ∧
    Spec.parents default EofExample.astray = some [0, 1] ∧
    (entered default 1 0 [0] true 1 EofExample.astray.body).map (fun e => (e.depth, e.opened, e.direct)) =
      [(1, [0], true), (2, [0], false)] ∧
    Spec.parents default EofExample.quiet = some [] := ⟨rfl, rfl, rfl, rfl⟩

example (cfg : Config) : EofExample.astray.body.WF ∧ EofExample.astray.body.Safe cfg := by
  refine ⟨⟨fun _ => rfl, fun h => rfl, trivial, ⟨fun _ => rfl, fun h => rfl, trivial, trivial⟩, trivial⟩, ?_⟩
  refine ⟨trivial, fun i c i' c' h => ?_, ⟨fun i c i' c' h => ?_, trivial, trivial⟩, trivial⟩
  all_goals
    cases h
    exact Example.stepSafe _ _ _ _ (by decide)

end Verif.Props
