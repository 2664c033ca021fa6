import Verif.Props.UnfusedFrames
import Verif.Spec.UnfusedSelfdestructs
/-! Call frames of an arena without those of selfdestructs: for C135. -/
namespace Verif.Props
open Spec Rec

theorem withoutSds_append (a b : List CallFrame) : withoutSds (a ++ b) = withoutSds a ++ withoutSds b := by
  induction a with
  | nil => simp [withoutSds]
  | cons c cs ih =>
    rw [List.cons_append, withoutSds, withoutSds, ih]
    split <;> rfl

theorem withoutSds_sd (x : Node) : withoutSds (sdList x) = [] := by
  unfold sdList Node.gethSelfdestructCallTrace
  split
  · simp [withoutSds]
  · simp [withoutSds]

theorem withoutSds_next (A : List Node) (i : Nat) : withoutSds (sdNext A i) = [] := by
  unfold sdNext
  cases A[i + 1]? with
  | none => simp [withoutSds]
  | some x => exact withoutSds_sd x

theorem empty_calls (decode : RevertDecoder) (x : Node) : (x.gethEmptyCallFrame decode false).calls = [] := by
  cases h1 : x.trace.kind.isStaticCall <;> cases h2 : x.trace.success <;>
    simp [Node.gethEmptyCallFrame, h1, h2]

theorem empty_typ (decode : RevertDecoder) (x : Node) :
    (x.gethEmptyCallFrame decode false).typ ≠ "SELFDESTRUCT" := by
  have h : (x.gethEmptyCallFrame decode false).typ = x.trace.kind.toStr := by
    cases h1 : x.trace.kind.isStaticCall <;> cases h2 : x.trace.success <;>
      simp [Node.gethEmptyCallFrame, h1, h2]
  rw [h]
  cases x.trace.kind <;> decide

/-- The call frame of the node at a position, without sub-calls, selfdestructs and logs. -/
def bareFrame (decode : RevertDecoder) (A : List Node) (i : Nat) : CallFrame :=
  ((A[i]?).map (fun x => x.gethEmptyCallFrame decode false)).getD {}

theorem plain_typ (decode : RevertDecoder) (A : List Node) (i : Nat) :
    (plainFrame decode A i).typ ≠ "SELFDESTRUCT" := by
  unfold plainFrame
  cases A[i]? with
  | none => exact show "" ≠ "SELFDESTRUCT" by decide
  | some x => exact empty_typ decode x

theorem plain_without (decode : RevertDecoder) (A : List Node) (i : Nat) :
    { plainFrame decode A i with calls := withoutSds (plainFrame decode A i).calls } = bareFrame decode A i := by
  unfold plainFrame bareFrame
  cases A[i]? with
  | none => simp [withoutSds]
  | some x =>
    simp only [Option.map_some, Option.getD_some, withSd]
    rw [withoutSds_append, empty_calls, withoutSds_next]
    have h := empty_calls decode x
    generalize x.gethEmptyCallFrame decode false = c at *
    cases c
    simp only at h
    subst h
    simp [withoutSds]

theorem trees_without (decode : RevertDecoder) (A : List Node) (b : Body) : ∀ n,
    withoutSds (trees (plainFrame decode A) n b) = trees (bareFrame decode A) n b := by
  induction b with
  | nil => intro n; simp [trees, withoutSds]
  | act _ rest ih => intro n; exact ih n
  | sub h c o rest ihc ih =>
    intro n
    simp only [trees]
    have ht : ¬ (plainFrame decode A n).typ = "SELFDESTRUCT" := plain_typ decode A n
    rw [withoutSds, if_neg ht, withoutSd, withoutSds_append, ihc, ih, ← plain_without decode A n]

/-- What is built for any arena of this shape. -/
theorem shaped_exact (decode : RevertDecoder) {A : List Node} {b : Body} {x : Node} (h : Shaped A b)
    (hx : A[0]? = some x) (opts : CallConfig) (gas : Nat)
    (honly : opts.onlyTopCall.getD false = false) (hlog : opts.withLog.getD false = false) :
    gethCallTraces decode A opts gas =
      .ok { x.gethEmptyCallFrame decode false with
            gasUsed := gas, calls := trees (plainFrame decode A) 1 b ++ (sdList x ++ sdNext A 0) } := by
  obtain ⟨x', hx', hroot⟩ := h.root
  rw [hx] at hx'; cases hx'
  cases hA : A with
  | nil => rw [hA] at hx; simp at hx
  | cons y rest =>
    have hy : y = x := by rw [hA] at hx; simpa using hx
    subst hy
    generalize hrf : ({ y.gethEmptyCallFrame decode false with
      gasUsed := gas, calls := sdList y } : CallFrame) = rf
    have hcalls : rf.calls = sdList y := by rw [← hrf]
    have hrt : gethRootFrame decode y false gas = rf := by
      have h0 := empty_calls decode y
      rw [gethRootFrame, ← hrf, sdList]
      generalize y.gethEmptyCallFrame decode false = c at *
      cases c
      simp only at h0
      subst h0
      cases y.gethSelfdestructCallTrace <;> rfl
    have hmk := makeFrames_eq decode (y :: rest) false (fun _ => false) rest 0 rf []
      (fun h => by simp at h) (fun _ _ _ => rfl)
    generalize hff : finishFrames (fun x => x.gethEmptyCallFrame decode false) 0 rf rest = ff at hmk
    have hlen : rest.length = b.size := by
      have := h.length; rw [hA] at this; simp at this; omega
    let base : Nat → CallFrame := fun i => if i = 0 then withSd (sdNext A 0) rf else plainFrame decode A i
    have hbl : ff = baseList base 0 (1 + b.size) := by
      apply List.ext_getElem?
      intro k
      rw [← hff, finishFrames_get, baseList, List.getElem?_map]
      by_cases hk : k < 1 + b.size
      · rw [List.getElem?_range' hk]
        cases k with
        | zero => simp [base, withSd, sdNext, hA]
        | succ k =>
          have hk2 : k < rest.length := by omega
          simp only [base, plainFrame, hA, List.getElem?_eq_getElem hk2, Nat.add_one_ne_zero, if_false,
            Nat.add_sub_cancel, Option.map_some, Option.getD_some, List.getElem?_cons_succ,
            Nat.one_mul, Nat.zero_add, withSd, sdNext]
      · have h1 : (List.range' 0 (1 + b.size))[k]? = none :=
          List.getElem?_eq_none (by rw [List.length_range']; omega)
        have h2 : rest[k - 1]? = none := List.getElem?_eq_none (by omega)
        rw [h1, h2, if_neg (by omega)]
        rfl
    simp only [gethCallTraces, hlog, honly, Bool.false_eq_true, if_false]
    rw [hrt, show (1 : Nat) = 0 + 1 from rfl, hmk, hbl]
    simp only [List.append_nil, List.length_reverse]
    have happ : baseList base 0 (1 + b.size) = [(0, base 0)] ++ baseList base 1 b.size := by
      rw [baseList_append]; rfl
    have hl2 : (baseList base 0 (1 + b.size)).length = b.size + 1 := by simp [baseList]; omega
    rw [hl2, happ, ← hA, rollUp_body A base b 1 0 0 1 [(0, base 0)] 1 rfl (by omega) h.links]
    have htr : trees base 1 b = trees (plainFrame decode A) 1 b :=
      trees_congr _ _ b 1 (fun i h1 _ => by simp only [base]; rw [if_neg (by omega)])
    simp only [List.modify_zero_cons, preCalls, List.reverse_cons, List.reverse_nil, List.nil_append,
      rollUp, hx, hroot, List.isEmpty_nil, if_true]
    rw [htr]
    simp only [base, if_true, withSd, hcalls]
    rw [← hrf]

/-- What is built, without the selfdestructs. -/
theorem shaped_without (decode : RevertDecoder) {A : List Node} {b : Body} {x : Node} (h : Shaped A b)
    (hx : A[0]? = some x) (opts : CallConfig) (gas : Nat)
    (honly : opts.onlyTopCall.getD false = false) (hlog : opts.withLog.getD false = false) :
    ∃ F, gethCallTraces decode A opts gas = .ok F ∧ withoutSd F =
      { x.gethEmptyCallFrame decode false with gasUsed := gas, calls := trees (bareFrame decode A) 1 b } := by
  refine ⟨_, shaped_exact decode h hx opts gas honly hlog, ?_⟩
  rw [withoutSd]
  simp only [withoutSds_append, trees_without, withoutSds_sd, withoutSds_next, List.append_nil]

theorem bare_together (decode : RevertDecoder) {A B : List Node} {a b : Body} (hA : Shaped A a) (hB : Shaped B b) :
    trees (bareFrame decode (together A B)) 1 (joinBody a b) =
      trees (bareFrame decode A) 1 a ++ trees (bareFrame decode B) 1 b := by
  cases A with
  | nil => have := hA.length; simp at this; omega
  | cons o os =>
    cases B with
    | nil => have := hB.length; simp at this; omega
    | cons x xs =>
      have l1 : os.length = a.size := by have := hA.length; simp at this; omega
      have l2 : xs.length = b.size := by have := hB.length; simp at this; omega
      rw [join_trees, trees_moved]
      congr 1
      · apply trees_congr
        intro i h1 h2
        cases i with
        | zero => omega
        | succ k =>
          unfold bareFrame
          simp only [together, List.getElem?_cons_succ]
          rw [List.getElem?_append_left (by omega)]
      · apply trees_congr
        intro i h1 h2
        cases i with
        | zero => omega
        | succ k =>
          have hi : k + 1 < (x :: xs).length := by simp; omega
          have hm := together_get (o := o) (os := os) (List.getElem?_eq_getElem hi)
          rw [movedTo_pos (by omega)] at hm
          unfold bareFrame
          rw [← l1, hm, List.getElem?_eq_getElem hi]
          unfold place
          rw [if_neg (by omega)]
          rfl

theorem bare_all (decode : RevertDecoder) (arenas : Tx → List Node) (ts : List Tx) :
    ∀ (A : List Node) (a : Body) (x : Node), Shaped A a → A[0]? = some x →
    (∀ u ∈ ts, Shaped (arenas u) u.body) →
    ∃ b y, Shaped ((ts.map arenas).foldl together A) b ∧
      ((ts.map arenas).foldl together A)[0]? = some y ∧
      (∀ z, (((ts.map arenas).getLastD A)[0]?) = some z →
        y.gethEmptyCallFrame decode false = z.gethEmptyCallFrame decode false) ∧
      trees (bareFrame decode ((ts.map arenas).foldl together A)) 1 b =
        trees (bareFrame decode A) 1 a ++
          ts.flatMap (fun u => trees (bareFrame decode (arenas u)) 1 u.body) := by
  induction ts with
  | nil =>
    intro A a x h hx _
    exact ⟨a, x, h, hx, fun z hz => by rw [List.map_nil, List.getLastD_nil, hx] at hz; cases hz; rfl, by simp⟩
  | cons u ts ih =>
    intro A a x h hx hall
    have hu := hall u (by simp)
    obtain ⟨xu, hxu, -⟩ := hu.root
    have hAne : A ≠ [] := by intro h0; rw [h0] at hx; simp at hx
    obtain ⟨y0, hy0, hyf⟩ := frame_together decode hAne hxu
    obtain ⟨b, y, h1, h2, h4, h5⟩ := ih _ _ y0 (shaped_together h hu) hy0 (fun v hv => hall v (by simp [hv]))
    refine ⟨b, y, h1, h2, ?_, ?_⟩
    · intro z hz
      rw [List.map_cons, List.getLastD_cons] at hz
      cases ts with
      | nil =>
        simp only [List.map_nil, List.getLastD_nil] at hz h4
        rw [hxu] at hz
        cases hz
        rw [h4 y0 hy0, hyf]
      | cons v ts =>
        rw [List.map_cons, List.getLastD_cons] at hz h4
        exact h4 z hz
    · rw [List.map_cons, List.foldl_cons, h5, bare_together decode h hu, List.flatMap_cons, List.append_assoc]

theorem sdsIn_append (a b : List CallFrame) : sdsIn (a ++ b) = sdsIn a ++ sdsIn b := by
  induction a with
  | nil => simp [sdsIn]
  | cons c cs ih => rw [List.cons_append, sdsIn, sdsIn, ih, List.append_assoc]

theorem sdsIn_sd (x : Node) : sdsIn (sdList x) = sdList x := by
  unfold sdList Node.gethSelfdestructCallTrace
  split
  · simp [sdsIn]
  · simp [sdsIn]

theorem sdsIn_next (A : List Node) (i : Nat) : sdsIn (sdNext A i) = sdNext A i := by
  unfold sdNext
  cases A[i + 1]? with
  | none => simp [sdsIn]
  | some x => exact sdsIn_sd x

theorem plain_calls (decode : RevertDecoder) {A : List Node} {i : Nat} (h : i < A.length) :
    (plainFrame decode A i).calls = sdNext A i := by
  unfold plainFrame
  rw [List.getElem?_eq_getElem h]
  simp only [Option.map_some, Option.getD_some, withSd, empty_calls, List.nil_append]

theorem range_split (n a b : Nat) :
    List.range' n (1 + a + b) = n :: (List.range' (n + 1) a ++ List.range' (n + 1 + a) b) := by
  rw [show 1 + a + b = (a + b) + 1 by omega, List.range'_succ, List.range'_append_1]

theorem trees_sds (decode : RevertDecoder) (A : List Node) (b : Body) : ∀ n, n + b.size ≤ A.length →
    (sdsIn (trees (plainFrame decode A) n b)).Perm ((List.range' n b.size).flatMap (sdNext A)) := by
  induction b with
  | nil => intro n _; simp [trees, sdsIn, Body.size]
  | act _ rest ih => intro n h; exact ih n h
  | sub h c o rest ihc ih =>
    intro n hn
    simp only [Body.size] at hn ⊢
    simp only [trees]
    have ht : ¬ (plainFrame decode A n).typ = "SELFDESTRUCT" := plain_typ decode A n
    rw [sdsIn, if_neg ht, sdsOf, sdsIn_append, plain_calls decode (by omega), sdsIn_next, range_split,
      List.flatMap_cons, List.flatMap_append]
    have h1 := ihc (n + 1) (by omega)
    have h2 := ih (n + 1 + c.size) (by omega)
    refine (List.Perm.append ((h1.append_right _).trans List.perm_append_comm) h2).trans ?_
    rw [List.append_assoc]

theorem range_flatMap {α β : Type} (f : α → List β) (j : Nat) : ∀ l : List α,
    (List.range (l.length + j)).flatMap (fun i => ((l[i]?).map f).getD []) = l.flatMap f
  | [] => by simp
  | x :: l => by
    rw [List.length_cons, show l.length + 1 + j = (l.length + j) + 1 by omega, List.range_succ_eq_map,
      List.flatMap_cons, List.flatMap_map, List.flatMap_cons, ← range_flatMap f j l]
    rfl

/-- Each selfdestruct of a node is shown once. -/
theorem shaped_sds (decode : RevertDecoder) {A : List Node} {b : Body} (h : Shaped A b) (opts : CallConfig)
    (gas : Nat) (honly : opts.onlyTopCall.getD false = false) (hlog : opts.withLog.getD false = false) :
    ∃ F, gethCallTraces decode A opts gas = .ok F ∧ (sdsOf F).Perm (A.flatMap sdList) := by
  obtain ⟨x, hx, -⟩ := h.root
  refine ⟨_, shaped_exact decode h hx opts gas honly hlog, ?_⟩
  have hlen := h.length
  rw [sdsOf]
  simp only [sdsIn_append, sdsIn_sd, sdsIn_next]
  cases A with
  | nil => simp at hx
  | cons y rest =>
    have hy : y = x := by simpa using hx
    subst hy
    have h0 : rest.length = b.size := by simp at hlen; omega
    have hr := range_flatMap sdList 1 rest
    rw [h0, List.range_eq_range', Nat.add_comm, show 1 + b.size = 1 + b.size + 0 by omega, range_split,
      List.flatMap_cons] at hr
    rw [List.flatMap_cons, ← hr]
    refine ((trees_sds decode (y :: rest) b 1 (by rw [hlen]; omega)).append_right _).trans ?_
    refine List.perm_append_comm.trans ?_
    rw [List.append_assoc]
    simp only [Nat.zero_add, List.range'_zero, List.append_nil]
    exact List.Perm.refl _

theorem together_parts {A B : List Node} (hA : A ≠ []) (hB : B ≠ []) :
    ((together A B).take 1).flatMap sdList = (B.take 1).flatMap sdList ∧
    ((together A B).drop 1).flatMap sdList = (A.drop 1).flatMap sdList ++ (B.drop 1).flatMap sdList ∧
    together A B ≠ [] := by
  cases A with
  | nil => exact absurd rfl hA
  | cons o os =>
    cases B with
    | nil => exact absurd rfl hB
    | cons x xs =>
      refine ⟨rfl, ?_, nofun⟩
      simp only [together, List.drop_succ_cons, List.drop_zero, List.flatMap_append, List.flatMap_map]
      rfl

theorem sds_all (arenas : Tx → List Node) (ts : List Tx) : ∀ A : List Node, A ≠ [] →
    (∀ u ∈ ts, arenas u ≠ []) →
    (((ts.map arenas).foldl together A).take 1).flatMap sdList =
      (((ts.map arenas).getLastD A).take 1).flatMap sdList ∧
    (((ts.map arenas).foldl together A).drop 1).flatMap sdList =
      (A.drop 1).flatMap sdList ++ ts.flatMap (fun u => ((arenas u).drop 1).flatMap sdList) := by
  induction ts with
  | nil => intro A _ _; simp
  | cons u ts ih =>
    intro A hA hall
    obtain ⟨p1, p2, p3⟩ := together_parts hA (hall u (by simp))
    obtain ⟨h1, h2⟩ := ih (together A (arenas u)) p3 (fun v hv => hall v (by simp [hv]))
    rw [List.map_cons, List.foldl_cons, List.getLastD_cons, h1, h2, p2, List.flatMap_cons, List.append_assoc]
    refine ⟨?_, rfl⟩
    cases ts with
    | nil => exact p1
    | cons v ts => rw [List.map_cons, List.getLastD_cons, List.getLastD_cons]

end Verif.Props
