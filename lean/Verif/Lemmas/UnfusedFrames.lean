import Verif.Props.Unfused
import Verif.Lemmas.CallFrames
import Verif.Spec.UnfusedFrames
/-! Call frames of an arena whose links are those of a body: for C135. -/
namespace Verif.Props
open Spec Rec

theorem join_size (a b : Body) : (joinBody a b).size = a.size + b.size := by
  induction a with
  | nil => simp [joinBody, Body.size]
  | act _ rest ih => simpa [joinBody, Body.size] using ih
  | sub _ _ _ rest _ ih => simp only [joinBody, Body.size, ih]; omega

theorem join_frames (a b : Body) : ∀ (d p : Nat) (v : U256) (n : Nat),
    subFrames d p v n (joinBody a b) = subFrames d p v n a ++ subFrames d p v (n + a.size) b := by
  induction a with
  | nil => intros; simp [joinBody, subFrames, Body.size]
  | act _ rest ih => intro d p v n; simpa [joinBody, subFrames, Body.size] using ih d p v n
  | sub h c o rest _ ih =>
    intro d p v n
    simp only [joinBody, subFrames, Body.size, ih, List.cons_append, List.append_assoc]
    rw [show n + 1 + c.size + rest.size = n + (1 + c.size + rest.size) by omega]

theorem join_trees (base : Nat → CallFrame) (a b : Body) : ∀ n : Nat,
    trees base n (joinBody a b) = trees base n a ++ trees base (n + a.size) b := by
  induction a with
  | nil => intros; simp [joinBody, trees, Body.size]
  | act _ rest ih => intro n; simpa [joinBody, trees, Body.size] using ih n
  | sub h c o rest _ ih =>
    intro n
    simp only [joinBody, trees, Body.size, ih, List.cons_append]
    rw [show n + 1 + c.size + rest.size = n + (1 + c.size + rest.size) by omega]

/-- A frame of the second transaction in the shared arena. -/
def movedFrame (m : Nat) (f : FrameCtx) : FrameCtx :=
  { f with index := f.index + m, parent := f.parent.map (movedTo m) }

theorem movedTo_pos {m n : Nat} (h : 0 < n) : movedTo m n = n + m := by
  unfold movedTo; rw [if_neg (by omega)]

theorem subFrames_moved (m : Nat) (b : Body) : ∀ (d p : Nat) (v : U256) (n : Nat), 0 < n →
    subFrames d (movedTo m p) v (n + m) b = (subFrames d p v n b).map (movedFrame m) := by
  induction b with
  | nil => intros; rfl
  | act _ rest ih => intro d p v n h; exact ih d p v n h
  | sub h c o rest ihc ih =>
    intro d p v n hn
    simp only [subFrames, List.map_cons, List.map_append]
    rw [← ihc _ _ _ _ (Nat.succ_pos n), ← ih d p v (n + 1 + c.size) (by omega), movedTo_pos hn,
      show n + m + 1 = n + 1 + m by omega, show n + 1 + m + c.size = n + 1 + c.size + m by omega]
    rfl

theorem trees_moved (base : Nat → CallFrame) (m : Nat) (b : Body) : ∀ n : Nat,
    trees base (n + m) b = trees (fun i => base (i + m)) n b := by
  induction b with
  | nil => intros; rfl
  | act _ rest ih => intro n; exact ih n
  | sub h c o rest ihc ih =>
    intro n
    simp only [trees]
    rw [← ihc, ← ih, show n + m + 1 = n + 1 + m by omega,
      show n + 1 + m + c.size = n + 1 + c.size + m by omega]

theorem trees_congr (f g : Nat → CallFrame) (b : Body) : ∀ n : Nat,
    (∀ i, n ≤ i → i < n + b.size → f i = g i) → trees f n b = trees g n b := by
  induction b with
  | nil => intros; rfl
  | act _ rest ih => intro n h; exact ih n h
  | sub hd c o rest ihc ih =>
    intro n h
    simp only [Body.size] at h
    simp only [trees]
    rw [h n (by omega) (by omega), ihc (n + 1) (fun i h1 h2 => h i (by omega) (by omega)),
      ih (n + 1 + c.size) (fun i h1 h2 => h i (by omega) (by omega))]

theorem trees_length (base : Nat → CallFrame) (b : Body) : ∀ n, trees base n b = [] ↔ b.size = 0 := by
  induction b with
  | nil => intro n; simp [trees, Body.size]
  | act _ rest ih => intro n; simpa [trees, Body.size] using ih n
  | sub _ c _ rest _ _ => intro n; simp [trees, Body.size]

theorem subFrames_values (b : Body) : ∀ (d p : Nat) (v w : U256) (n : Nat), ∀ f ∈ subFrames d p v n b,
    ∃ g ∈ subFrames d p w n b, g.index = f.index ∧ g.parent = f.parent := by
  induction b with
  | nil => intro d p v w n f hf; simp [subFrames] at hf
  | act _ rest ih => intro d p v w n f hf; exact ih d p v w n f hf
  | sub h c o rest ihc ih =>
    intro d p v w n f hf
    simp only [subFrames, List.mem_cons, List.mem_append] at hf ⊢
    rcases hf with rfl | hf | hf
    · exact ⟨_, Or.inl rfl, rfl, rfl⟩
    · obtain ⟨g, hg, h1⟩ := ihc _ _ _ (valueInScope (some w) h) _ f hf
      exact ⟨g, Or.inr (Or.inl hg), h1⟩
    · obtain ⟨g, hg, h1⟩ := ih _ _ _ w _ f hf
      exact ⟨g, Or.inr (Or.inr hg), h1⟩

/-- The arena has the frames of the body, below one root. -/
structure Shaped (A : List Node) (b : Body) : Prop where
  length : A.length = 1 + b.size
  root : ∃ x, A[0]? = some x ∧ x.parent = none
  links : ∀ f ∈ subFrames 1 0 0 1 b, ∃ x, A[f.index]? = some x ∧ x.parent = f.parent

/-- The selfdestruct frame that the node after a position adds to the frame at this position. -/
def sdNext (A : List Node) (i : Nat) : List CallFrame := ((A[i + 1]?).map sdList).getD []

/-- Neither the root nor the first frame below it selfdestructed. -/
def QuietStart (A : List Node) : Prop := ∀ k y, k ≤ 1 → A[k]? = some y → y.isSelfdestruct = false

theorem QuietStart.sd {A : List Node} (h : QuietStart A) {k : Nat} {y : Node} (hk : k ≤ 1) (hy : A[k]? = some y) :
    sdList y = [] := by
  simp [sdList, Node.gethSelfdestructCallTrace, h k y hk hy]

/-- A call frame with these selfdestruct frames. -/
def withSd (sd : List CallFrame) (f : CallFrame) : CallFrame := { f with calls := f.calls ++ sd }

/-- The call frame of the node at a position, without its sub-calls and logs. -/
def plainFrame (decode : RevertDecoder) (A : List Node) (i : Nat) : CallFrame :=
  ((A[i]?).map (fun x => withSd (sdNext A i) (x.gethEmptyCallFrame decode false))).getD {}

theorem shaped_calls (decode : RevertDecoder) {A : List Node} {b : Body} {x : Node} (h : Shaped A b)
    (hx : A[0]? = some x) (hsd : QuietStart A) (opts : CallConfig) (gas : Nat)
    (honly : opts.onlyTopCall.getD false = false) (hlog : opts.withLog.getD false = false) :
    gethCallTraces decode A opts gas =
      .ok { x.gethEmptyCallFrame decode false with
            gasUsed := gas, calls := trees (plainFrame decode A) 1 b } := by
  obtain ⟨x', hx', hroot⟩ := h.root
  rw [hx] at hx'; cases hx'
  cases hA : A with
  | nil => rw [hA] at hx; simp at hx
  | cons y rest =>
    have hy : y = x := by rw [hA] at hx; simpa using hx
    subst hy
    generalize hrf : ({ y.gethEmptyCallFrame decode false with gasUsed := gas } : CallFrame) = rf
    have hcalls : rf.calls = [] := by
      rw [← hrf]
      cases h1 : y.trace.kind.isStaticCall <;> cases h2 : y.trace.success <;>
        simp [Node.gethEmptyCallFrame, h1, h2]
    have hrt : gethRootFrame decode y false gas = rf := by
      rw [gethRootFrame, hrf]
      have : y.gethSelfdestructCallTrace = none := by
        simp [Node.gethSelfdestructCallTrace, hsd 0 y (by omega) hx]
      rw [this]
    have hmk := makeFrames_eq decode (y :: rest) false (fun _ => false) rest 0 rf []
      (fun h => by simp at h) (fun _ _ _ => rfl)
    generalize hff : finishFrames (fun x => x.gethEmptyCallFrame decode false) 0 rf rest = ff at hmk
    have hlen : rest.length = b.size := by
      have := h.length; rw [hA] at this; simp at this; omega
    let base : Nat → CallFrame := fun i => if i = 0 then rf else plainFrame decode A i
    have hbl : ff = baseList base 0 (1 + b.size) := by
      apply List.ext_getElem?
      intro k
      rw [← hff, finishFrames_get, baseList, List.getElem?_map]
      by_cases hk : k < 1 + b.size
      · rw [List.getElem?_range' hk]
        cases k with
        | zero =>
          have hs : ((rest[0]?).map sdList).getD [] = [] := by
            cases hk : rest[0]? with
            | none => rfl
            | some z => exact hsd.sd (k := 1) (by omega) (by rw [hA]; exact hk)
          rw [hs]
          cases rf; simp [base]
        | succ k =>
          have hk2 : k < rest.length := by omega
          simp only [base, plainFrame, hA, List.getElem?_eq_getElem hk2, Nat.add_one_ne_zero, if_false,
            Nat.add_sub_cancel, Option.map_some, Option.getD_some, List.getElem?_cons_succ,
            Nat.one_mul, Nat.zero_add, withSd, sdNext]
      · have h1 : (List.range' 0 (1 + b.size))[k]? = none :=
          List.getElem?_eq_none (by rw [List.length_range']; omega)
        have h2 : rest[k - 1]? = none := List.getElem?_eq_none (by omega)
        rw [h1, h2, if_neg (by omega)]
        rfl
    simp only [gethCallTraces, hlog, honly, Bool.false_eq_true, if_false]
    rw [hrt, show (1 : Nat) = 0 + 1 from rfl, hmk, hbl]
    simp only [List.append_nil, List.length_reverse]
    have happ : baseList base 0 (1 + b.size) = [(0, base 0)] ++ baseList base 1 b.size := by
      rw [baseList_append]; rfl
    have hl2 : (baseList base 0 (1 + b.size)).length = b.size + 1 := by simp [baseList]; omega
    rw [hl2, happ, ← hA, rollUp_body A base b 1 0 0 1 [(0, base 0)] 1 rfl (by omega) h.links]
    have htr : trees base 1 b = trees (plainFrame decode A) 1 b :=
      trees_congr _ _ b 1 (fun i h1 _ => by simp only [base]; rw [if_neg (by omega)])
    simp only [List.modify_zero_cons, preCalls, List.reverse_cons, List.reverse_nil, List.nil_append,
      rollUp, hx, hroot, List.isEmpty_nil, if_true]
    rw [htr]
    simp only [base, if_true, hcalls, List.append_nil]
    rw [← hrf]

theorem shaped_together {A B : List Node} {a b : Body} (hA : Shaped A a) (hB : Shaped B b) :
    Shaped (together A B) (joinBody a b) := by
  cases A with
  | nil => have := hA.length; simp at this; omega
  | cons o os =>
    cases B with
    | nil => have := hB.length; simp at this; omega
    | cons x xs =>
      have l1 : os.length = a.size := by have := hA.length; simp at this; omega
      have l2 : xs.length = b.size := by have := hB.length; simp at this; omega
      refine ⟨?_, ?_, ?_⟩
      · simp [together, join_size, l1, l2]; omega
      · obtain ⟨z, hz, hp⟩ := hA.root
        simp at hz; subst hz
        exact ⟨_, rfl, hp⟩
      · intro f hf
        rw [join_frames, List.mem_append] at hf
        rcases hf with hf | hf
        · obtain ⟨z, hz, hp⟩ := hA.links f hf
          obtain ⟨q, hq1, hq2, hq3, hi⟩ := subFrames_parent _ _ _ _ _ _ (Nat.lt_succ_self 0) hf
          cases hk : f.index with
          | zero => omega
          | succ k =>
            rw [hk, List.getElem?_cons_succ] at hz
            refine ⟨z, ?_, hp⟩
            rw [together, List.getElem?_cons_succ,
              List.getElem?_append_left (List.getElem?_eq_some_iff.1 hz).1, hz]
        · have := subFrames_moved a.size b 1 0 0 1 Nat.one_pos
          simp only [movedTo, if_true] at this
          rw [this, List.mem_map] at hf
          obtain ⟨g, hg, rfl⟩ := hf
          obtain ⟨z, hz, hp⟩ := hB.links g hg
          obtain ⟨q, hq1, hq2, hq3, hi⟩ := subFrames_parent _ _ _ _ _ _ (Nat.lt_succ_self 0) hg
          have hm := together_get (o := o) (os := os) hz
          rw [movedTo_pos (by omega), l1] at hm
          refine ⟨_, hm, ?_⟩
          unfold place
          rw [if_neg (by omega)]
          simp only [movedNode, movedFrame, hp]

theorem frame_moved (decode : RevertDecoder) (n : Nat) (x : Node) (w : Bool) :
    (movedNode n x).gethEmptyCallFrame decode w = x.gethEmptyCallFrame decode w := rfl

theorem frame_shared (decode : RevertDecoder) (n : Nat) (o x : Node) :
    (sharedRoot n o x).gethEmptyCallFrame decode false = x.gethEmptyCallFrame decode false := by
  simp [Node.gethEmptyCallFrame, sharedRoot]

theorem sdNext_old {o x : Node} {os xs : List Node} (h : QuietStart (x :: xs)) {k : Nat} (hk : k < os.length) :
    sdNext (together (o :: os) (x :: xs)) (k + 1) = sdNext (o :: os) (k + 1) := by
  simp only [sdNext, together, List.getElem?_cons_succ]
  by_cases h1 : k + 1 < os.length
  · rw [List.getElem?_append_left h1]
  · rw [List.getElem?_append_right (by omega), show k + 1 - os.length = 0 by omega,
      List.getElem?_eq_none (l := os) (by omega)]
    cases xs with
    | nil => rfl
    | cons z zs =>
      show sdList z = []
      exact h.sd (k := 1) (by omega) rfl

theorem sdNext_moved {o x : Node} {os xs : List Node} (k : Nat) :
    sdNext (together (o :: os) (x :: xs)) (k + 1 + os.length) = sdNext (x :: xs) (k + 1) := by
  simp only [sdNext, together]
  rw [List.getElem?_cons_succ,
    List.getElem?_append_right (by omega), show k + 1 + os.length - os.length = k + 1 by omega,
    List.getElem?_cons_succ, List.getElem?_map]
  cases xs[k + 1]? <;> rfl

theorem quiet_together {A B : List Node} (hA : QuietStart A) (hB : QuietStart B) (hne : B ≠ []) :
    QuietStart (together A B) := by
  cases B with
  | nil => exact absurd rfl hne
  | cons x xs =>
    cases A with
    | nil => exact hB
    | cons o os =>
      intro k y hk hy
      cases k with
      | zero =>
        simp only [together, List.getElem?_cons_zero, Option.some.injEq] at hy
        subst hy
        exact hB 0 x (by omega) rfl
      | succ k =>
        have h0 : k = 0 := by omega
        subst h0
        cases os with
        | cons z zs => exact hA 1 y (by omega) hy
        | nil =>
          cases xs with
          | nil => simp [together] at hy
          | cons z zs =>
            simp only [together, List.nil_append, List.getElem?_cons_succ, List.map_cons,
              List.getElem?_cons_zero, Option.some.injEq] at hy
            subst hy
            exact hB 1 z (by omega) rfl

theorem calls_together (decode : RevertDecoder) {A B : List Node} {a b : Body} (hA : Shaped A a)
    (hB : Shaped B b) (hq : QuietStart B) :
    trees (plainFrame decode (together A B)) 1 (joinBody a b) =
      trees (plainFrame decode A) 1 a ++ trees (plainFrame decode B) 1 b := by
  cases A with
  | nil => have := hA.length; simp at this; omega
  | cons o os =>
    cases B with
    | nil => have := hB.length; simp at this; omega
    | cons x xs =>
      have l1 : os.length = a.size := by have := hA.length; simp at this; omega
      have l2 : xs.length = b.size := by have := hB.length; simp at this; omega
      rw [join_trees, trees_moved]
      congr 1
      · apply trees_congr
        intro i h1 h2
        cases i with
        | zero => omega
        | succ k =>
          unfold plainFrame
          rw [sdNext_old hq (by omega)]
          simp only [together, List.getElem?_cons_succ]
          rw [List.getElem?_append_left (by omega)]
      · apply trees_congr
        intro i h1 h2
        cases i with
        | zero => omega
        | succ k =>
          have hi : k + 1 < (x :: xs).length := by simp; omega
          have hm := together_get (o := o) (os := os) (List.getElem?_eq_getElem hi)
          rw [movedTo_pos (by omega)] at hm
          unfold plainFrame
          rw [← l1, sdNext_moved, hm, List.getElem?_eq_getElem hi]
          unfold place
          rw [if_neg (by omega)]
          rfl

/-- The recording of one transaction. -/
theorem shaped_run (cfg : Config) (t : Tx) : Shaped ((frames t).map (nodeOf cfg)) t.body := by
  have hpar : ∀ f, (nodeOf cfg f).parent = f.parent := fun f =>
    congrArg FrameData.parent (nodeOf_readFrame cfg f)
  refine ⟨?_, ⟨nodeOf cfg (rootOf t), rfl, hpar _⟩, ?_⟩
  · simp [frames, subFrames_length]; omega
  · intro f hf
    obtain ⟨g, hg, h1, h2⟩ := subFrames_values t.body 1 0 0 (valueInScope none t.hdr) 1 f hf
    have hm : g ∈ frames t := by simp only [frames, List.mem_cons]; exact Or.inr hg
    obtain ⟨k, hk⟩ := List.mem_iff_getElem?.1 hm
    refine ⟨nodeOf cfg g, ?_, by rw [hpar, h2]⟩
    rw [← h1, frames_index hk, List.getElem?_map, hk]; rfl

end Verif.Props
