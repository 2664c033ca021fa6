import Verif.Lemmas.UnfusedFrames
import Verif.Props.Builders
/-! Call frames with logs of an arena whose links are those of a body: for C135. -/
namespace Verif.Props
open Spec Rec

/-- The logs of this node are shown. -/
def logsShown (A : List Node) (x : Node) : Bool :=
  match callOrParentFailed A x with
  | .ok b => !b
  | .error _ => false

/-- The call frame of the node at a position, without its sub-calls. -/
def loggedFrame (decode : RevertDecoder) (w : Bool) (A : List Node) (i : Nat) : CallFrame :=
  ((A[i]?).map (fun x => withSd (sdNext A i) (x.gethEmptyCallFrame decode (w && logsShown A x)))).getD {}

theorem shaped_logged (decode : RevertDecoder) {A : List Node} {b : Body} {x : Node} (h : Shaped A b)
    (hx : A[0]? = some x) (hsd : QuietStart A)
    (hok : ∀ y ∈ A, ∃ b, callOrParentFailed A y = .ok b) (opts : CallConfig) (gas : Nat)
    (honly : opts.onlyTopCall.getD false = false) (w : Bool) (hlog : opts.withLog.getD false = w) :
    gethCallTraces decode A opts gas =
      .ok { x.gethEmptyCallFrame decode w with
            gasUsed := gas, calls := trees (loggedFrame decode w A) 1 b } := by
  obtain ⟨x', hx', hroot⟩ := h.root
  rw [hx] at hx'; cases hx'
  cases hA : A with
  | nil => rw [hA] at hx; simp at hx
  | cons y rest =>
    have hy : y = x := by rw [hA] at hx; simpa using hx
    subst hy
    generalize hrf : ({ y.gethEmptyCallFrame decode w with gasUsed := gas } : CallFrame) = rf
    have hcalls : rf.calls = [] := by
      rw [← hrf]
      cases h1 : y.trace.kind.isStaticCall <;> cases h2 : y.trace.success <;>
        cases h3 : (w && !y.logs.isEmpty) <;> simp [Node.gethEmptyCallFrame, h1, h2, h3]
    have hrt : gethRootFrame decode y w gas = rf := by
      rw [gethRootFrame, hrf]
      have : y.gethSelfdestructCallTrace = none := by
        simp [Node.gethSelfdestructCallTrace, hsd 0 y (by omega) hx]
      rw [this]
    have hmk := makeFrames_eq decode (y :: rest) w (fun z => w && logsShown (y :: rest) z) rest 0 rf []
      (fun hw z hz => by
        obtain ⟨c, hc⟩ := hok z (by rw [hA]; exact List.mem_cons_of_mem _ hz)
        rw [hA] at hc
        simp [logsShown, hc, hw])
      (fun hw _ _ => by simp [hw])
    generalize hff : finishFrames (fun z => z.gethEmptyCallFrame decode (w && logsShown (y :: rest) z))
      0 rf rest = ff at hmk
    have hlen : rest.length = b.size := by
      have := h.length; rw [hA] at this; simp at this; omega
    let base : Nat → CallFrame := fun i => if i = 0 then rf else loggedFrame decode w A i
    have hbl : ff = baseList base 0 (1 + b.size) := by
      apply List.ext_getElem?
      intro k
      rw [← hff, finishFrames_get, baseList, List.getElem?_map]
      by_cases hk : k < 1 + b.size
      · rw [List.getElem?_range' hk]
        cases k with
        | zero =>
          have hs : ((rest[0]?).map sdList).getD [] = [] := by
            cases hk : rest[0]? with
            | none => rfl
            | some z => exact hsd.sd (k := 1) (by omega) (by rw [hA]; exact hk)
          rw [hs]
          cases rf; simp [base]
        | succ k =>
          have hk2 : k < rest.length := by omega
          simp only [base, loggedFrame, hA, List.getElem?_eq_getElem hk2, Nat.add_one_ne_zero, if_false,
            Nat.add_sub_cancel, Option.map_some, Option.getD_some, List.getElem?_cons_succ,
            Nat.one_mul, Nat.zero_add, withSd, sdNext]
      · have h1 : (List.range' 0 (1 + b.size))[k]? = none :=
          List.getElem?_eq_none (by rw [List.length_range']; omega)
        have h2 : rest[k - 1]? = none := List.getElem?_eq_none (by omega)
        rw [h1, h2, if_neg (by omega)]
        rfl
    simp only [gethCallTraces, hlog, honly, Bool.false_eq_true, if_false]
    rw [hrt, show (1 : Nat) = 0 + 1 from rfl, hmk, hbl]
    simp only [List.append_nil, List.length_reverse]
    have happ : baseList base 0 (1 + b.size) = [(0, base 0)] ++ baseList base 1 b.size := by
      rw [baseList_append]; rfl
    have hl2 : (baseList base 0 (1 + b.size)).length = b.size + 1 := by simp [baseList]; omega
    rw [hl2, happ, ← hA, rollUp_body A base b 1 0 0 1 [(0, base 0)] 1 rfl (by omega) h.links]
    have htr : trees base 1 b = trees (loggedFrame decode w A) 1 b :=
      trees_congr _ _ b 1 (fun i h1 _ => by simp only [base]; rw [if_neg (by omega)])
    simp only [List.modify_zero_cons, preCalls, List.reverse_cons, List.reverse_nil, List.nil_append,
      rollUp, hx, hroot, List.isEmpty_nil, if_true]
    rw [htr]
    simp only [base, if_true, hcalls, List.append_nil]
    rw [← hrf]

/-! ### Whose logs are shown in the shared arena -/

theorem together_old {o x : Node} {os xs : List Node} {p : Nat} (h : p < os.length) :
    (together (o :: os) (x :: xs))[p + 1]? = os[p]? := by
  rw [together, List.getElem?_cons_succ, List.getElem?_append_left h]

theorem loop_old {o x : Node} {os xs : List Node} (hl : Links (o :: os))
    (he : o.trace.isError = x.trace.isError) : ∀ (p : Nat), p < (o :: os).length → ∀ f f', p < f → p < f' →
    parentFailedLoop (together (o :: os) (x :: xs)) f (some p) = parentFailedLoop (o :: os) f' (some p) := by
  intro p
  induction p using Nat.strongRecOn with
  | ind p ih =>
    intro hp f f' hf hf'
    cases f with
    | zero => omega
    | succ f =>
      cases f' with
      | zero => omega
      | succ f' =>
        cases p with
        | zero =>
          have h0 := (hl.root o rfl).1
          have hs : (sharedRoot os.length o x).parent = none := h0
          simp only [parentFailedLoop, together, List.getElem?_cons_zero, h0, hs, he,
            show (sharedRoot os.length o x).trace = x.trace from rfl]
        | succ p =>
          have hp2 : p < os.length := by simpa using hp
          obtain ⟨q, y, hq, hlt, -, -⟩ := hl.parent (p + 1) os[p]
            (by rw [List.getElem?_cons_succ, List.getElem?_eq_getElem hp2]) (by omega)
          simp only [parentFailedLoop, together_old hp2, List.getElem?_cons_succ,
            List.getElem?_eq_getElem hp2, hq]
          split
          · rfl
          · exact ih q hlt (by omega) f f' (by omega) (by omega)

theorem loop_moved {o x : Node} {os xs : List Node} (ho : o.parent = none) (hl : Links (x :: xs)) :
    ∀ (p : Nat), p < (x :: xs).length → ∀ f f', movedTo os.length p < f → p < f' →
    parentFailedLoop (together (o :: os) (x :: xs)) f (some (movedTo os.length p)) =
      parentFailedLoop (x :: xs) f' (some p) := by
  intro p
  induction p using Nat.strongRecOn with
  | ind p ih =>
    intro hp f f' hf hf'
    cases f with
    | zero => omega
    | succ f =>
      cases f' with
      | zero => omega
      | succ f' =>
        have hg := together_get (o := o) (os := os) (List.getElem?_eq_getElem hp)
        simp only [parentFailedLoop, hg, List.getElem?_eq_getElem hp, place_trace]
        split
        · rfl
        · by_cases h0 : p = 0
          · subst h0
            have h1 := (hl.root x rfl).1
            simp only [place, if_true, sharedRoot, ho, List.getElem_cons_zero, h1, parentFailedLoop]
          · obtain ⟨q, y, hq, hlt, -, -⟩ := hl.parent p _ (List.getElem?_eq_getElem hp) h0
            simp only [place, if_neg h0, movedNode, hq, Option.map_some]
            refine ih q hlt (by omega) f f' ?_ (by omega)
            rw [movedTo_pos (by omega)] at hf
            unfold movedTo
            split <;> omega

theorem shown_old {o x : Node} {os xs : List Node} (hl : Links (o :: os))
    (he : o.trace.isError = x.trace.isError) {p : Nat} (hp : p < os.length) :
    logsShown (together (o :: os) (x :: xs)) os[p] = logsShown (o :: os) os[p] := by
  obtain ⟨q, y, hq, hlt, -, -⟩ := hl.parent (p + 1) os[p]
    (by rw [List.getElem?_cons_succ, List.getElem?_eq_getElem hp]) (by omega)
  unfold logsShown callOrParentFailed
  rw [hq, loop_old hl he q (by simp; omega) _ (o :: os).length (by simp [together]; omega) (by simp; omega)]

theorem shown_moved {o x : Node} {os xs : List Node} (ho : o.parent = none) (hl : Links (x :: xs)) {p : Nat}
    (hp : p < xs.length) :
    logsShown (together (o :: os) (x :: xs)) (movedNode os.length xs[p]) = logsShown (x :: xs) xs[p] := by
  obtain ⟨q, y, hq, hlt, -, -⟩ := hl.parent (p + 1) xs[p]
    (by rw [List.getElem?_cons_succ, List.getElem?_eq_getElem hp]) (by omega)
  have hm : movedTo os.length q ≤ q + os.length := by unfold movedTo; split <;> omega
  unfold logsShown callOrParentFailed
  simp only [movedNode, hq, Option.map_some]
  rw [loop_moved ho hl q (by simp; omega) _ (x :: xs).length (by simp [together]; omega) (by simp; omega)]

theorem logged_together (decode : RevertDecoder) (w : Bool) {o x : Node} {os xs : List Node} {a b : Body}
    (hA : Shaped (o :: os) a) (hB : Shaped (x :: xs) b) (hlA : Links (o :: os)) (hlB : Links (x :: xs))
    (he : o.trace.isError = x.trace.isError) (hq : QuietStart (x :: xs)) :
    trees (loggedFrame decode w (together (o :: os) (x :: xs))) 1 (joinBody a b) =
      trees (loggedFrame decode w (o :: os)) 1 a ++ trees (loggedFrame decode w (x :: xs)) 1 b := by
  have l1 : os.length = a.size := by have := hA.length; simp at this; omega
  have l2 : xs.length = b.size := by have := hB.length; simp at this; omega
  rw [join_trees, trees_moved]
  congr 1
  · apply trees_congr
    intro i h1 h2
    cases i with
    | zero => omega
    | succ k =>
      have hk : k < os.length := by omega
      simp only [loggedFrame, together_old hk, List.getElem?_cons_succ, List.getElem?_eq_getElem hk,
        Option.map_some, Option.getD_some, shown_old hlA he hk, sdNext_old hq hk]
  · apply trees_congr
    intro i h1 h2
    cases i with
    | zero => omega
    | succ k =>
      have hk : k < xs.length := by omega
      have hm := together_get (o := o) (os := os) (second := x :: xs) (i := k + 1)
        (by rw [List.getElem?_cons_succ, List.getElem?_eq_getElem hk])
      rw [movedTo_pos (by omega)] at hm
      simp only [loggedFrame]
      rw [← l1, sdNext_moved, hm, List.getElem?_cons_succ, List.getElem?_eq_getElem hk]
      unfold place
      rw [if_neg (by omega)]
      simp only [Option.map_some, Option.getD_some,
        shown_moved (o := o) (os := os) (hlA.root o rfl).1 hlB hk, frame_moved]

end Verif.Props
