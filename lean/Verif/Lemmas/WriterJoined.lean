import Verif.Lemmas.WriterAny
import Verif.Spec.Unfused
/-! Helper lemmas: the document of several recordings in one arena. -/
namespace Verif
open Spec
namespace Writer

mutual
/-- The document of moved frames. -/
def movedDoc (n : Nat) : Doc → Doc
  | .mk x items => .mk (movedNode n x) (movedItems n items)
/-- The items of moved frames. -/
def movedItems (n : Nat) : DocItems → DocItems
  | .nil => .nil
  | .log l rest => .log l (movedItems n rest)
  | .step s rest => .step s (movedItems n rest)
  | .sub d rest => .sub (movedDoc n d) (movedItems n rest)
end

mutual
theorem movedDoc_lines (w : Settings) (n : Nat) : ∀ (d : Doc) (level : Nat),
    (movedDoc n d).lines w level = d.lines w level
  | .mk x items, level => by
    have h := movedItems_lines w n items x (movedNode n x) rfl (level + 1) [] 0
    have ht : (movedNode n x).trace = x.trace := rfl
    simp only [movedDoc, Doc.lines, h, ht]
theorem movedItems_lines (w : Settings) (n : Nat) : ∀ (items : DocItems) (x x' : Node),
    x'.trace = x.trace → ∀ (base : Nat) (opens : List (Nat × Option (List String))) (m : Nat),
    (movedItems n items).lines w x' base opens m = items.lines w x base opens m
  | .nil, _, _, _, _, _, _ => rfl
  | .log l rest, x, x', hx, base, opens, m => by
    simp only [movedItems, DocItems.lines, movedItems_lines w n rest x x' hx]
  | .sub d rest, x, x', hx, base, opens, m => by
    simp only [movedItems, DocItems.lines, movedItems_lines w n rest x x' hx, movedDoc_lines w n d]
  | .step s rest, x, x', hx, base, opens, m => by
    have hi : ∀ c e, internalText x' s c e = internalText x s c e := by
      intro c e; simp only [internalText, gasBetween, hx]
    simp only [movedItems, DocItems.lines, movedItems_lines w n rest x x' hx, hi]
end

mutual
/-- Frames that are found at the same places, or moved ones. -/
theorem unfolds_moved {N N' : List Node} (n : Nat)
    (h : ∀ (i : Nat) (x : Node), 0 < i → N[i]? = some x → N'[movedTo n i]? = some (movedNode n x)) :
    ∀ (d : Doc) (idx : Nat), 0 < idx → Unfolds N idx d → Unfolds N' (movedTo n idx) (movedDoc n d)
  | .mk x items, idx, h0, hu => by
    simp only [Unfolds, movedDoc] at hu ⊢
    exact ⟨h idx x h0 hu.1, unfoldsItems_moved n h items idx x x.ordering 0 h0 hu.2⟩
theorem unfoldsItems_moved {N N' : List Node} (n : Nat)
    (h : ∀ (i : Nat) (x : Node), 0 < i → N[i]? = some x → N'[movedTo n i]? = some (movedNode n x)) :
    ∀ (items : DocItems) (idx : Nat) (x : Node) (os : List TraceMemberOrder) (m : Nat), 0 < idx →
      UnfoldsItems N idx x os m items →
      UnfoldsItems N' (movedTo n idx) (movedNode n x) os m (movedItems n items)
  | .nil, _, _, _, _, _, hu => by simpa only [UnfoldsItems, movedItems] using hu
  | .log l rest, idx, x, os, m, h0, hu => by
    simp only [UnfoldsItems, movedItems] at hu ⊢
    obtain ⟨i, os', h1, h2, h3⟩ := hu
    exact ⟨i, os', h1, h2, unfoldsItems_moved n h rest idx x os' m h0 h3⟩
  | .step s rest, idx, x, os, m, h0, hu => by
    simp only [UnfoldsItems, movedItems] at hu ⊢
    obtain ⟨os', h1, h2, h3⟩ := hu
    exact ⟨os', h1, h2, unfoldsItems_moved n h rest idx x os' (m + 1) h0 h3⟩
  | .sub d rest, idx, x, os, m, h0, hu => by
    simp only [UnfoldsItems, movedItems] at hu ⊢
    obtain ⟨i, c, os', h1, h2, h3, h4, h5⟩ := hu
    refine ⟨i, movedTo n c, os', h1, ?_, ?_, unfolds_moved n h d c (by omega) h4,
      unfoldsItems_moved n h rest idx x os' m h0 h5⟩
    · simp only [movedNode, List.getElem?_map, h2, Option.map_some]
    · unfold movedTo
      rw [if_neg (by omega), if_neg (by omega)]
      omega
end

mutual
theorem unfolds_kept {N N' : List Node} (h : ∀ (i : Nat) (x : Node), 0 < i → N[i]? = some x → N'[i]? = some x) :
    ∀ (d : Doc) (idx : Nat), 0 < idx → Unfolds N idx d → Unfolds N' idx d
  | .mk x items, idx, h0, hu => by
    simp only [Unfolds] at hu ⊢
    exact ⟨h idx x h0 hu.1, unfoldsItems_kept h items idx x x.ordering 0 hu.2⟩
theorem unfoldsItems_kept {N N' : List Node}
    (h : ∀ (i : Nat) (x : Node), 0 < i → N[i]? = some x → N'[i]? = some x) :
    ∀ (items : DocItems) (idx : Nat) (x : Node) (os : List TraceMemberOrder) (m : Nat),
      UnfoldsItems N idx x os m items → UnfoldsItems N' idx x os m items
  | .nil, _, _, _, _, hu => by simpa only [UnfoldsItems] using hu
  | .log l rest, idx, x, os, m, hu => by
    simp only [UnfoldsItems] at hu ⊢
    obtain ⟨i, os', h1, h2, h3⟩ := hu
    exact ⟨i, os', h1, h2, unfoldsItems_kept h rest idx x os' m h3⟩
  | .step s rest, idx, x, os, m, hu => by
    simp only [UnfoldsItems] at hu ⊢
    obtain ⟨os', h1, h2, h3⟩ := hu
    exact ⟨os', h1, h2, unfoldsItems_kept h rest idx x os' (m + 1) h3⟩
  | .sub d rest, idx, x, os, m, hu => by
    simp only [UnfoldsItems] at hu ⊢
    obtain ⟨i, c, os', h1, h2, h3, h4, h5⟩ := hu
    exact ⟨i, c, os', h1, h2, h3, unfolds_kept h d c (by omega) h4,
      unfoldsItems_kept h rest idx x os' m h5⟩
end

/-- The second part of the items of a shared root. -/
theorem items_second {N N' : List Node} {n : Nat} {x X : Node} {cs : List Nat} {ls : List CallLog}
    (hlogs : X.logs = ls ++ x.logs) (hch : X.children = cs ++ x.children.map (movedTo n))
    (h : ∀ (i : Nat) (x : Node), 0 < i → N[i]? = some x → N'[movedTo n i]? = some (movedNode n x)) :
    ∀ (os : List TraceMemberOrder), (∀ o ∈ os, notStep o = true) → ∀ items, UnfoldsItems N 0 x os 0 items →
      UnfoldsItems N' 0 X (os.map (movedMember cs.length ls.length)) 0 (movedItems n items) := by
  intro os
  induction os with
  | nil =>
    intro _ items hu
    cases items <;> simp [UnfoldsItems] at hu
    simp [movedItems, UnfoldsItems]
  | cons o os ih =>
    intro hno items hu
    have ih := ih (fun o' ho' => hno o' (by simp [ho']))
    cases items with
    | nil => simp [UnfoldsItems] at hu
    | log l rest =>
      simp only [UnfoldsItems] at hu
      obtain ⟨i, os', h1, h2, h3⟩ := hu
      cases h1
      simp only [List.map_cons, movedItems, UnfoldsItems, movedMember]
      refine ⟨i + ls.length, _, rfl, ?_, ih rest h3⟩
      rw [hlogs, List.getElem?_append_right (by omega), Nat.add_sub_cancel]
      exact h2
    | step s rest =>
      simp only [UnfoldsItems] at hu
      obtain ⟨os', h1, -⟩ := hu
      cases h1
      have := hno _ List.mem_cons_self
      simp [notStep] at this
    | sub d rest =>
      simp only [UnfoldsItems] at hu
      obtain ⟨i, c, os', h1, h2, h3, h4, h5⟩ := hu
      cases h1
      simp only [List.map_cons, movedItems, UnfoldsItems, movedMember]
      refine ⟨i + cs.length, movedTo n c, _, rfl, ?_, ?_, unfolds_moved n h d c h3 h4, ih rest h5⟩
      · rw [hch, List.getElem?_append_right (by omega), Nat.add_sub_cancel, List.getElem?_map, h2]
        rfl
      · unfold movedTo; rw [if_neg (by omega)]; omega

/-- The first part of the items of a shared root. -/
theorem items_first {N N' : List Node} {x X : Node} {cs : List Nat} {ls : List CallLog}
    (hlogs : X.logs = x.logs ++ ls) (hch : X.children = x.children ++ cs)
    (h : ∀ (i : Nat) (x : Node), 0 < i → N[i]? = some x → N'[i]? = some x)
    {os2 : List TraceMemberOrder} {more : DocItems} (hmore : UnfoldsItems N' 0 X os2 0 more) :
    ∀ (os : List TraceMemberOrder), (∀ o ∈ os, notStep o = true) → ∀ items, UnfoldsItems N 0 x os 0 items →
      ∃ all, UnfoldsItems N' 0 X (os ++ os2) 0 all ∧
        ∀ w y y' base, all.lines w y base [] 0 = items.lines w y' base [] 0 ++ more.lines w y base [] 0 := by
  intro os
  induction os with
  | nil =>
    intro _ items hu
    cases items <;> simp [UnfoldsItems] at hu
    exact ⟨more, hmore, fun _ _ _ _ => rfl⟩
  | cons o os ih =>
    intro hno items hu
    have ih := ih (fun o' ho' => hno o' (by simp [ho']))
    cases items with
    | nil => simp [UnfoldsItems] at hu
    | log l rest =>
      simp only [UnfoldsItems] at hu
      obtain ⟨i, os', h1, h2, h3⟩ := hu
      cases h1
      obtain ⟨all, ha, hl⟩ := ih rest h3
      have hlt : i < x.logs.length := by
        apply Classical.byContradiction; intro hc
        rw [List.getElem?_eq_none (by omega)] at h2; simp at h2
      refine ⟨.log l all, ?_, ?_⟩
      · simp only [List.cons_append, UnfoldsItems]
        exact ⟨i, _, rfl, by rw [hlogs, List.getElem?_append_left hlt]; exact h2, ha⟩
      · intro w y y' base
        simp only [DocItems.lines, hl w y y' base, List.append_assoc]
    | step s rest =>
      simp only [UnfoldsItems] at hu
      obtain ⟨os', h1, -⟩ := hu
      cases h1
      have := hno _ List.mem_cons_self
      simp [notStep] at this
    | sub d rest =>
      simp only [UnfoldsItems] at hu
      obtain ⟨i, c, os', h1, h2, h3, h4, h5⟩ := hu
      cases h1
      obtain ⟨all, ha, hl⟩ := ih rest h5
      have hlt : i < x.children.length := by
        apply Classical.byContradiction; intro hc
        rw [List.getElem?_eq_none (by omega)] at h2; simp at h2
      refine ⟨.sub d all, ?_, ?_⟩
      · simp only [List.cons_append, UnfoldsItems]
        exact ⟨i, c, _, rfl, by rw [hch, List.getElem?_append_left hlt]; exact h2, h3,
          unfolds_kept h d c h3 h4, ha⟩
      · intro w y y' base
        simp only [DocItems.lines, hl w y y' base, List.append_assoc]

end Writer
end Verif
