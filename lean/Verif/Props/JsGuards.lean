import Verif.Spec.JsGuards
import Verif.Props.JsValues
/-! C47: references of JavaScript callbacks die with their callback. -/
namespace Verif.Props
open Spec

/-- The cell holds the value if it belongs to callback `k`, and nothing otherwise. -/
def CellOk (k : Nat) (cells : List (Option GVal)) (c j : Nat) (v : GVal) : Prop :=
  c < cells.length ∧ withInner cells c = if j = k then some v else none

/-- The object of the model and the reference of the specification belong together. -/
def RefOk (k : Nat) (cells : List (Option GVal)) : JsRef → Nat × JsObj → Prop
  | .stack c len, (j, .stack s) => len = s.length ∧ CellOk k cells c j (.stack s)
  | .memory c len, (j, .memory m) => len = m.length ∧ CellOk k cells c j (.memory m)
  | .db c c', (j, .db st d) => CellOk k cells c j (.state st) ∧ CellOk k cells c' j (.database d)
  | _, _ => False

/-- All references belong together; all of them are of callbacks up to `k`. -/
def RefsOk (k : Nat) (cells : List (Option GVal)) (refs : List JsRef) (arefs : List (Nat × JsObj)) :
    Prop :=
  refs.length = arefs.length ∧ ∀ (i : Nat) (r : JsRef) (a : Nat × JsObj),
    refs[i]? = some r → arefs[i]? = some a → a.1 ≤ k ∧ RefOk k cells r a

theorem RefsOk.append {k : Nat} {cells : List (Option GVal)} {refs refs' : List JsRef}
    {arefs arefs' : List (Nat × JsObj)} (h : RefsOk k cells refs arefs)
    (h' : RefsOk k cells refs' arefs') : RefsOk k cells (refs ++ refs') (arefs ++ arefs') := by
  refine ⟨by simp [h.1, h'.1], ?_⟩
  intro i r a hr ha
  by_cases hi : i < refs.length
  · rw [List.getElem?_append_left hi] at hr
    rw [List.getElem?_append_left (h.1 ▸ hi)] at ha
    exact h.2 i r a hr ha
  · rw [List.getElem?_append_right (by omega)] at hr
    rw [List.getElem?_append_right (by have := h.1; omega)] at ha
    rw [← h.1] at ha
    exact h'.2 _ r a hr ha

theorem withInner_append {cells new : List (Option GVal)} {c : Nat} (h : c < cells.length) :
    withInner (cells ++ new) c = withInner cells c := by
  simp [withInner, List.getElem?_append_left h]

theorem CellOk.append {k c j : Nat} {cells : List (Option GVal)} {v : GVal} (new : List (Option GVal))
    (h : CellOk k cells c j v) : CellOk k (cells ++ new) c j v :=
  ⟨by have := h.1; simp; omega, by rw [withInner_append h.1]; exact h.2⟩

theorem RefOk.append {k : Nat} {cells : List (Option GVal)} {r : JsRef} {a : Nat × JsObj}
    (new : List (Option GVal)) (h : RefOk k cells r a) : RefOk k (cells ++ new) r a := by
  obtain ⟨j, o⟩ := a
  cases r <;> cases o <;> simp only [RefOk] at h ⊢
  · exact ⟨h.1, h.2.append new⟩
  · exact ⟨h.1, h.2.append new⟩
  · exact ⟨h.1.append new, h.2.append new⟩

theorem RefsOk.more {k : Nat} {cells : List (Option GVal)} {refs : List JsRef}
    {arefs : List (Nat × JsObj)} (new : List (Option GVal)) (h : RefsOk k cells refs arefs) :
    RefsOk k (cells ++ new) refs arefs :=
  ⟨h.1, fun i r a hr ha => ⟨(h.2 i r a hr ha).1, (h.2 i r a hr ha).2.append new⟩⟩

theorem newObj_ok (k : Nat) (w : JsWorld) (arefs : List (Nat × JsObj)) (o : JsObj)
    (h : RefsOk k w.cells w.refs arefs) :
    RefsOk k (newObj w o).1.cells (newObj w o).1.refs (arefs ++ [(k, o)]) ∧
    (∃ new, (newObj w o).1.cells = w.cells ++ new) ∧
    ∀ c, w.cells.length ≤ c → c < (newObj w o).1.cells.length → c ∈ (newObj w o).2 := by
  have one : ∀ (cells : List (Option GVal)) (r : JsRef), RefOk k cells r (k, o) →
      RefsOk k cells [r] [(k, o)] := by
    intro cells r hr
    refine ⟨rfl, ?_⟩
    intro i r' a h1 h2
    cases i with
    | zero =>
      simp only [List.getElem?_cons_zero, Option.some.injEq] at h1 h2
      subst h1 h2
      exact ⟨Nat.le_refl _, hr⟩
    | succ i => simp at h1
  have last : ∀ (cells : List (Option GVal)) (v : GVal),
      withInner (cells ++ [some v]) cells.length = some v := by
    intro cells v; simp [withInner]
  cases o with
  | stack s =>
    simp only [newObj, newCell]
    refine ⟨(h.more [some (.stack s)]).append (one _ _ ?_), ⟨_, rfl⟩, ?_⟩
    · refine ⟨?_, by simp, by simp [last]⟩
      simp [stackIn, last]
    · intro c h1 h2; simp at h2 ⊢; omega
  | memory m =>
    simp only [newObj, newCell]
    refine ⟨(h.more [some (.memory m)]).append (one _ _ ?_), ⟨_, rfl⟩, ?_⟩
    · refine ⟨?_, by simp, by simp [last]⟩
      simp [memoryIn, last, memRefLen]
    · intro c h1 h2; simp at h2 ⊢; omega
  | db st d =>
    simp only [newObj, newCell]
    refine ⟨((h.more [some (.state st)]).more [some (.database d)]).append (one _ _ ?_),
      ⟨[some (.state st), some (.database d)], by simp⟩, ?_⟩
    · refine ⟨CellOk.append _ ⟨by simp, by simp [last]⟩, by simp, ?_⟩
      have := last (w.cells ++ [some (.state st)]) (.database d)
      simp only [if_true]
      exact this
    · intro c h1 h2; simp at h2 ⊢; omega

theorem newObjs_ok (k : Nat) (objs : List JsObj) (w : JsWorld) (arefs : List (Nat × JsObj))
    (h : RefsOk k w.cells w.refs arefs) :
    RefsOk k (newObjs w objs).1.cells (newObjs w objs).1.refs
      (arefs ++ objs.map (fun o => (k, o))) ∧
    (∃ new, (newObjs w objs).1.cells = w.cells ++ new) ∧
    ∀ c, w.cells.length ≤ c → c < (newObjs w objs).1.cells.length → c ∈ (newObjs w objs).2 := by
  induction objs generalizing w arefs with
  | nil =>
    simp only [newObjs, List.map_nil, List.append_nil]
    exact ⟨h, ⟨[], by simp⟩, fun c h1 h2 => by omega⟩
  | cons o os ih =>
    obtain ⟨h1, ⟨new, h2⟩, h3⟩ := newObj_ok k w arefs o h
    obtain ⟨i1, ⟨new', i2⟩, i3⟩ := ih (newObj w o).1 (arefs ++ [(k, o)]) h1
    simp only [newObjs, List.map_cons]
    refine ⟨by simpa using i1, ⟨new ++ new', by rw [i2, h2, List.append_assoc]⟩, ?_⟩
    intro c hc hc'
    by_cases hlt : c < (newObj w o).1.cells.length
    · exact List.mem_append_left _ (h3 c hc hlt)
    · exact List.mem_append_right _ (i3 c (by omega) hc')

theorem withInner_drop (cells : List (Option GVal)) (g c : Nat) :
    withInner (dropGuard cells g) c = if c = g then none else withInner cells c := by
  unfold withInner dropGuard
  by_cases h : c = g
  · subst h
    by_cases hl : c < cells.length
    · simp [hl]
    · simp [hl]
  · rw [List.getElem?_set_ne (fun e => h e.symm), if_neg h]

theorem drop_all (gs : List Nat) (cells : List (Option GVal)) :
    (gs.foldl dropGuard cells).length = cells.length ∧
    ∀ c, (c ∈ gs ∨ withInner cells c = none) → withInner (gs.foldl dropGuard cells) c = none := by
  induction gs generalizing cells with
  | nil => exact ⟨rfl, fun c h => by simpa using h⟩
  | cons g gs ih =>
    obtain ⟨i1, i2⟩ := ih (dropGuard cells g)
    refine ⟨by simpa [dropGuard] using i1, ?_⟩
    intro c h
    refine i2 c ?_
    rw [withInner_drop]
    by_cases hc : c = g
    · right; rw [if_pos hc]
    · rw [if_neg hc]
      rcases h with h | h
      · left
        rcases List.mem_cons.mp h with h | h
        · exact absurd h hc
        · exact h
      · right; exact h

theorem bytesToAddress_ok (b : Bytes) : ∃ a, bytesToAddress b = .ok a := by
  unfold bytesToAddress bytesToFixed copyAt
  simp only [List.length_replicate]
  by_cases h : 20 < b.length
  · simp [h, show b.length - (b.length - 20) = 20 by omega]
  · simp [h, show 20 - (20 - b.length) = b.length by omega]

theorem bytesToHash_ok (b : Bytes) : ∃ a, bytesToHash b = .ok a := by
  unfold bytesToHash bytesToFixed copyAt
  simp only [List.length_replicate]
  by_cases h : 32 < b.length
  · simp [h, show b.length - (b.length - 32) = 32 by omega]
  · simp [h, show 32 - (32 - b.length) = b.length by omega]

theorem readBasic_dead (a : JsBuf) : jsReadBasic none none a = .ok none := by
  unfold jsReadBasic
  cases fromBuf a with
  | none => rfl
  | some b =>
    obtain ⟨x, hx⟩ := bytesToAddress_ok b
    simp [hx, stateRefAccount]

theorem getState_dead (a k : JsBuf) : jsGetState none a k = .ok none := by
  unfold jsGetState
  cases fromBuf a with
  | none => rfl
  | some b =>
    obtain ⟨x, hx⟩ := bytesToAddress_ok b
    cases fromBuf k with
    | none => simp [hx]
    | some b' =>
      obtain ⟨y, hy⟩ := bytesToHash_ok b'
      simp [hx, hy]

/-- A method of a live object sees its data, a method of a dead one nothing but its length. -/
theorem callMethod_ok (k : Nat) (cells : List (Option GVal)) (r : JsRef) (j : Nat) (obj : JsObj)
    (h : RefOk k cells r (j, obj)) (m : JsMethod) :
    (j = k → callMethod cells r m = onData obj m) ∧
    (j ≠ k → m ≠ .length → Denied m (callMethod cells r m)) ∧
    (m = .length → callMethod cells r m = onData obj m) := by
  refine ⟨?_, ?_, ?_⟩
  · intro hj
    cases r <;> cases obj <;> simp only [RefOk, CellOk, hj, if_true] at h
    · obtain ⟨rfl, _, hc⟩ := h
      cases m <;> simp [callMethod, onData, stackIn, hc, jsLength]
    · obtain ⟨rfl, _, hc⟩ := h
      cases m <;> simp [callMethod, onData, memoryIn, hc, jsLength]
    · obtain ⟨⟨_, hc⟩, _, hd⟩ := h
      cases m <;> simp [callMethod, onData, stateIn, databaseIn, hc, hd]
  · intro hj hm
    cases r <;> cases obj <;> simp only [RefOk, CellOk, hj, if_false] at h
    · obtain ⟨rfl, _, hc⟩ := h
      cases m <;> first | exact absurd rfl hm | exact .inl rfl | skip
      rename_i i
      left
      simp only [callMethod, stackIn, hc, jsStackPeek, stackRefPeek]
      split <;> rfl
    · obtain ⟨rfl, _, hc⟩ := h
      cases m <;> first | exact absurd rfl hm | exact .inl rfl | skip
      · rename_i s e
        simp only [callMethod, memoryIn, hc, jsMemorySlice, memRefLen, memRefSlice]
        split
        · left; rfl
        · rename_i hb
          split
          · rename_i hlt
            simp only [Bool.or_eq_true, not_or, Bool.not_eq_true] at hb
            right; right
            refine ⟨⟨fun h => ?_, _, _, (asUsize_iff s _).mp rfl, (asUsize_iff e _).mp rfl, hlt⟩, rfl⟩
            rw [← lt_iff, hb.1.1] at h
            exact absurd h (by simp)
          · right; left; rfl
      · rename_i o
        simp only [callMethod, memoryIn, hc, jsMemoryGetUint, memRefLen, memRefSlice]
        split
        · rename_i hb
          right; right
          exact ⟨⟨_, (asUsize_iff o _).mp rfl, hb⟩, rfl⟩
        · left
          have : decide ((Option.map List.length (none : Option Bytes)).getD 0 < o.asUsize + 32)
              = true := by simp
          rw [this]
          rfl
    · obtain ⟨⟨_, hc⟩, _, hd⟩ := h
      cases m <;> first | exact absurd rfl hm | exact .inl rfl | skip
      all_goals
        left
        simp only [callMethod, stateIn, databaseIn, hc, hd, jsExists, jsGetBalance, jsGetNonce,
          jsGetCode, readBasic_dead, getState_dead]
        rfl
  · rintro rfl
    cases r <;> cases obj <;> simp only [RefOk] at h <;> first | rfl | skip
    · rw [h.1]; simp [callMethod, onData, jsLength]
    · rw [h.1]; simp [callMethod, onData, jsLength]

theorem runOps_ok (k : Nat) (ops : List JsOp) (w : JsWorld) (arefs : List (Nat × JsObj))
    (h : RefsOk k w.cells w.refs arefs) :
    (runOps w ops).1.cells = w.cells ∧
    RefsOk k w.cells (runOps w ops).1.refs (refsAfter arefs ops) ∧
    Allowed false k arefs ops (runOps w ops).2 := by
  induction ops generalizing w arefs with
  | nil => exact ⟨rfl, h, rfl⟩
  | cons op ops ih =>
    cases op with
    | copy r =>
      simp only [runOps, refsAfter, Allowed]
      cases hr : w.refs[r]? with
      | none =>
        have : arefs[r]? = none := by
          rw [List.getElem?_eq_none_iff] at hr ⊢
          have := h.1; omega
        simp only [this, Option.toList_none, List.append_nil]
        exact ih w arefs h
      | some ref =>
        have hl : r < arefs.length := by
          have := (List.getElem?_eq_some_iff.mp hr).1
          have := h.1; omega
        have ha : arefs[r]? = some arefs[r] := List.getElem?_eq_getElem hl
        simp only [ha, Option.toList_some]
        refine ih { w with refs := w.refs ++ [ref] } (arefs ++ [arefs[r]]) (h.append ⟨rfl, ?_⟩)
        intro i r' a h1 h2
        cases i with
        | zero =>
          simp only [List.getElem?_cons_zero, Option.some.injEq] at h1 h2
          subst h1 h2
          exact h.2 r ref _ hr ha
        | succ i => simp at h1
    | call r m =>
      simp only [runOps, refsAfter, Allowed]
      obtain ⟨i1, i2, i3⟩ := ih w arefs h
      refine ⟨i1, i2, ?_, ?_, i3⟩
      · intro j obj ha
        have hl : r < w.refs.length := by
          have := (List.getElem?_eq_some_iff.mp ha).1
          have := h.1; omega
        have hr : w.refs[r]? = some w.refs[r] := List.getElem?_eq_getElem hl
        have := callMethod_ok k w.cells w.refs[r] j obj (h.2 r _ _ hr ha).2 m
        simp only [hr]
        refine ⟨this.1, ?_, fun _ _ hm => this.2.2 hm⟩
        intro hj hm
        exact this.2.1 hj (hm.resolve_left (by decide))
      · intro ha
        have : w.refs[r]? = none := by
          rw [List.getElem?_eq_none_iff] at ha ⊢
          have := h.1; omega
        simp only [this]

theorem runHookSeq_ok (sessions : List (List JsObj × List JsOp)) (k : Nat) (w : JsWorld)
    (arefs : List (Nat × JsObj)) (hdead : ∀ c, withInner w.cells c = none)
    (h : RefsOk k w.cells w.refs arefs) (hk : ∀ a ∈ arefs, a.1 < k) :
    AllowedSeq false k arefs sessions (runHookSeq w sessions).2 := by
  induction sessions generalizing k w arefs with
  | nil => rfl
  | cons session rest ih =>
    obtain ⟨objs, ops⟩ := session
    simp only [runHookSeq, AllowedSeq, runHook]
    obtain ⟨n1, ⟨new, n2⟩, n3⟩ := newObjs_ok k objs w arefs h
    obtain ⟨o1, o2, o3⟩ := runOps_ok k ops (newObjs w objs).1 _ n1
    refine ⟨o3, ?_⟩
    have hall : ∀ c, withInner ((newObjs w objs).2.foldl dropGuard
        (runOps (newObjs w objs).1 ops).1.cells) c = none := by
      intro c
      refine (drop_all _ _).2 c ?_
      rw [o1]
      by_cases h1 : c < w.cells.length
      · right
        rw [n2, withInner_append h1]
        exact hdead c
      · by_cases h2 : c < (newObjs w objs).1.cells.length
        · exact .inl (n3 c (by omega) h2)
        · right
          simp [withInner, List.getElem?_eq_none (Nat.le_of_not_lt h2)]
    have hle : ∀ a ∈ refsAfter (arefs ++ objs.map (fun o => (k, o))) ops, a.1 ≤ k := by
      intro a ha
      obtain ⟨i, hi, rfl⟩ := List.mem_iff_getElem.mp ha
      have hl : i < (runOps (newObjs w objs).1 ops).1.refs.length := by rw [o2.1]; exact hi
      exact (o2.2 i _ _ (List.getElem?_eq_getElem hl) (List.getElem?_eq_getElem hi)).1
    refine ih (k + 1) _ _ hall ?_ (fun a ha => Nat.lt_succ_of_le (hle a ha))
    refine ⟨o2.1, ?_⟩
    intro i r a hr ha
    have hmem : a ∈ refsAfter (arefs ++ objs.map (fun o => (k, o))) ops :=
      List.mem_of_getElem? ha
    have hak := hle a hmem
    refine ⟨by omega, ?_⟩
    have hold := (o2.2 i r a hr ha).2
    obtain ⟨j, obj⟩ := a
    simp only at hak
    have hne : ¬ j = k + 1 := by omega
    have hlen : ((newObjs w objs).2.foldl dropGuard
        (runOps (newObjs w objs).1 ops).1.cells).length = (newObjs w objs).1.cells.length := by
      rw [(drop_all _ _).1, o1]
    cases r <;> cases obj <;>
      simp only [RefOk, CellOk, hne, if_false, hlen, hall, and_true] at hold ⊢
    · exact ⟨hold.1, hold.2.1⟩
    · exact ⟨hold.1, hold.2.1⟩
    · exact ⟨hold.1.1, hold.2.1⟩

/-- C47, partial: for every sequence of callbacks and every sequence of copies and method calls in
them, a method of a reference the running callback was given itself sees the data of that reference;
a method other than `length` of any reference given to an earlier callback, or any copy of one, throws
or gives an empty value, while `length` gives the length of the data it was given. What is missing:
`length` should see nothing either (see `C47_refuted`). -/
theorem C47_lifetime_partial (sessions : List (List JsObj × List JsOp)) :
    AllowedSeq false 0 [] sessions (runHookSeq ⟨[], []⟩ sessions).2 :=
  runHookSeq_ok sessions 0 ⟨[], []⟩ [] (fun c => by simp [withInner])
    ⟨rfl, fun i r a h => by simp at h⟩ (fun a h => by simp at h)

/-- C47 fails for `length`: it still gives the old length of the stack in a later callback. -/
theorem C47_refuted : ∃ sessions : List (List JsObj × List JsOp),
    ¬ AllowedSeq true 0 [] sessions (runHookSeq ⟨[], []⟩ sessions).2 := by
  refine ⟨[([.stack [7, 8]], []), ([], [.call 0 .length])], ?_⟩
  intro h
  have h2 := h.2.1.1 0 (.stack [7, 8]) rfl
  have h3 := h2.2.1 (by decide) (.inl rfl)
  have h4 : (runOps (newObjs (runHook ⟨[], []⟩ [.stack [7, 8]] []).1 []).1
      [.call 0 .length]).2 = [.number 2] := rfl
  rcases h3 with h3 | h3 | ⟨h3, _⟩
  · cases h3
  · cases h3
  · exact h3

/-- A tracer that keeps the stack of its first callback and looks at it in the second, together with
the stack it gets there. -/
example : (runHookSeq ⟨[], []⟩
    [([.stack [7, 8], .memory [1]], [.call 0 (.peek (.fin 0)), .copy 0]),
     ([.stack [9]], [.call 0 (.peek (.fin 0)), .call 2 (.peek (.fin 0)), .call 3 (.peek (.fin 0)),
       .call 1 (.slice (.fin 0) (.fin 1))])]).2 =
    [[.word 8], [.throws, .throws, .word 9, .bytes []]] := rfl

end Verif.Props
