import Verif.Spec.StepTree
/-! # Reading the frames off a list of instructions with depths -/
namespace Verif.Props
open Spec
variable {α β : Type}

/-- All instructions of the frame itself have depth `d`, those of the frames it enters one more, and so on. -/
def AtDepth (depth : α → Nat) (d : Nat) : StepTree α → Prop
  | .nil => True
  | .cons a e r => depth a = d ∧ AtDepth depth (d + 1) e ∧ AtDepth depth d r

theorem flat_deep {depth : α → Nat} : ∀ {u : StepTree α} {d : Nat}, AtDepth depth d u →
    ∀ a ∈ u.flat, d ≤ depth a := by
  intro u
  induction u with
  | nil => intro d _ a ha; simp [StepTree.flat] at ha
  | cons x e r ihe ihr =>
    intro d h a ha
    simp only [StepTree.flat, List.mem_cons, List.mem_append] at ha
    obtain ⟨h1, h2, h3⟩ := h
    rcases ha with rfl | ha | ha
    · omega
    · have := ihe h2 a ha
      omega
    · exact ihr h3 a ha

theorem flat_head {depth : α → Nat} {u : StepTree α} {d : Nat} (h : AtDepth depth d u) (a : α) (l : List α)
    (hu : u.flat = a :: l) : depth a = d := by
  cases u with
  | nil => simp [StepTree.flat] at hu
  | cons x e r =>
    simp only [StepTree.flat, List.cons.injEq] at hu
    rw [← hu.1]
    exact h.1

theorem takeWhile_split {p : α → Bool} : ∀ (l r : List α), (∀ a ∈ l, p a = true) →
    (∀ a r', r = a :: r' → p a = false) → (l ++ r).takeWhile p = l ∧ (l ++ r).dropWhile p = r := by
  intro l
  induction l with
  | nil =>
    intro r _ hr
    cases r with
    | nil => exact ⟨rfl, rfl⟩
    | cons a r' =>
      have := hr a r' rfl
      simp [this]
  | cons a l ih =>
    intro r hl hr
    have h1 := hl a (List.mem_cons_self ..)
    obtain ⟨h2, h3⟩ := ih r (fun b hb => hl b (List.mem_cons_of_mem _ hb)) hr
    simp only [List.cons_append, List.takeWhile_cons, List.dropWhile_cons, h1, if_true, h2, h3]
    exact ⟨trivial, trivial⟩

theorem cut_flat {depth : α → Nat} : ∀ {u : StepTree α} {d : Nat}, AtDepth depth d u →
    StepTree.cut depth u.flat = u := by
  intro u
  induction u with
  | nil => intro d _; rw [StepTree.flat, StepTree.cut]
  | cons x e r ihe ihr =>
    intro d h
    obtain ⟨h1, h2, h3⟩ := h
    obtain ⟨h4, h5⟩ := takeWhile_split (p := fun b => decide (depth x < depth b)) e.flat r.flat
      (fun a ha => by have := flat_deep h2 a ha; simp only [decide_eq_true_eq]; omega)
      (fun a r' hr => by have := flat_head h3 a r' hr; simp only [decide_eq_false_iff_not]; omega)
    rw [StepTree.flat, StepTree.cut, h4, h5, ihe h2, ihr h3]

theorem cut_map (g : α → β) (depth : β → Nat) (l : List α) :
    StepTree.cut depth (l.map g) = (StepTree.cut (fun a => depth (g a)) l).map g := by
  generalize hn : l.length = n
  induction n using Nat.strongRecOn generalizing l with
  | _ n ih =>
    cases l with
    | nil => rw [List.map_nil, StepTree.cut, StepTree.cut, StepTree.map]
    | cons a l =>
      rw [List.map_cons, StepTree.cut, StepTree.cut, StepTree.map, List.takeWhile_map, List.dropWhile_map]
      have h1 : (l.takeWhile fun b => decide (depth (g a) < depth (g b))).length < n := by
        rw [← hn]
        exact Nat.lt_succ_of_le (List.takeWhile_sublist _).length_le
      have h2 : (l.dropWhile fun b => decide (depth (g a) < depth (g b))).length < n := by
        rw [← hn]
        exact Nat.lt_succ_of_le (List.dropWhile_sublist _).length_le
      have e1 := ih _ h1 _ rfl
      have e2 := ih _ h2 _ rfl
      simp only [Function.comp_def]
      rw [e1, e2]

theorem flat_cut (depth : α → Nat) (l : List α) : (StepTree.cut depth l).flat = l := by
  generalize hn : l.length = n
  induction n using Nat.strongRecOn generalizing l with
  | _ n ih =>
    cases l with
    | nil => rw [StepTree.cut, StepTree.flat]
    | cons a l =>
      have h1 : (l.takeWhile fun b => decide (depth a < depth b)).length < n := by
        rw [← hn]
        exact Nat.lt_succ_of_le (List.takeWhile_sublist _).length_le
      have h2 : (l.dropWhile fun b => decide (depth a < depth b)).length < n := by
        rw [← hn]
        exact Nat.lt_succ_of_le (List.dropWhile_sublist _).length_le
      rw [StepTree.cut, StepTree.flat, ih _ h1 _ rfl, ih _ h2 _ rfl, List.takeWhile_append_dropWhile]

theorem flat_map (g : α → β) (u : StepTree α) : (u.map g).flat = u.flat.map g := by
  induction u with
  | nil => rfl
  | cons a e r ihe ihr => simp [StepTree.map, StepTree.flat, ihe, ihr]

theorem atDepth_map {g : α → β} {depth : β → Nat} {depth' : α → Nat} {k : Nat}
    (hg : ∀ a, depth (g a) = depth' a + k) :
    ∀ {u : StepTree α} {d : Nat}, AtDepth depth' d u → AtDepth depth (d + k) (u.map g) := by
  intro u
  induction u with
  | nil => intro d _; trivial
  | cons a e r ihe ihr =>
    intro d h
    refine ⟨by rw [hg, h.1], ?_, ihr h.2.2⟩
    have := ihe h.2.1
    rwa [Nat.add_right_comm] at this

/-- The instructions of the frame entered first, if the body starts with one. -/
def stepsEntered (cfg : Config) (f : FrameCtx) (n : Nat) : Body → StepTree (FrameCtx × Instr)
  | .sub h b o _ => bodySteps cfg ⟨n, some f.index, f.depth + 1, some f.value, h, b, o⟩ (n + 1) b
  | _ => .nil

theorem bodySteps_act (cfg : Config) (f : FrameCtx) (n : Nat) (a : Act) (rest : Body) :
    bodySteps cfg f n (.act a rest) =
      match instrOf a with
      | some i => if records cfg i.before.op then .cons (f, i) (stepsEntered cfg f n rest) (bodySteps cfg f n rest)
        else bodySteps cfg f n rest
      | none => bodySteps cfg f n rest := by
  cases rest with
  | nil => exact (bodySteps.eq_def cfg f n (.act a .nil)).trans rfl
  | act a' r => exact (bodySteps.eq_def cfg f n (.act a (.act a' r))).trans rfl
  | sub h b o r => exact (bodySteps.eq_def cfg f n (.act a (.sub h b o r))).trans rfl

theorem bodySteps_depth (cfg : Config) : ∀ (b : Body) (f : FrameCtx) (n : Nat),
    AtDepth (fun e : FrameCtx × Instr => e.1.depth) f.depth (bodySteps cfg f n b) ∧
    (∀ h b' o rest, b = .sub h b' o rest → ∀ g m,
      AtDepth (fun e : FrameCtx × Instr => e.1.depth) (FrameCtx.depth g) (bodySteps cfg g m b')) := by
  intro b
  induction b with
  | nil => intro f n; exact ⟨trivial, fun _ _ _ _ h => nomatch h⟩
  | sub h b o rest ihb ihr =>
    intro f n
    refine ⟨?_, ?_⟩
    · rw [bodySteps]
      exact (ihr f _).1
    · intro h' b' o' rest' he g m
      cases he
      exact (ihb g m).1
  | act a rest ih =>
    intro f n
    refine ⟨?_, fun _ _ _ _ h => nomatch h⟩
    rw [bodySteps_act]
    split
    · split
      · refine ⟨rfl, ?_, (ih f n).1⟩
        cases rest with
        | sub h b o r => exact (ih f n).2 _ _ _ _ rfl ⟨n, some f.index, f.depth + 1, some f.value, h, b, o⟩ _
        | _ => trivial
      · exact (ih f n).1
    · exact (ih f n).1

theorem stepsEntered_false {cfg : Config} {f : FrameCtx} {n : Nat} {b : Body} (h : Attached false b) :
    stepsEntered cfg f n b = .nil := by
  cases b with
  | nil => rfl
  | act a rest => rfl
  | sub h' b o rest => exact absurd h.1 (by decide)

theorem bodySteps_flat (cfg : Config) (hc : ∀ op, entersFrame op = true → records cfg op = true) :
    ∀ (b : Body) (f : FrameCtx) (n : Nat) (p : Bool), Attached p b →
      (stepsEntered cfg f n b).flat ++ (bodySteps cfg f n b).flat =
        (chronBody f n b).filter (fun e => records cfg e.2.before.op) := by
  intro b
  induction b with
  | nil => intro f n p _; rfl
  | sub h b o rest ihb ihr =>
    intro f n p ha
    obtain ⟨_, h1, h2⟩ := ha
    have e1 := ihb ⟨n, some f.index, f.depth + 1, some f.value, h, b, o⟩ (n + 1) false h1
    have e2 := ihr f (n + 1 + b.size) false h2
    rw [stepsEntered_false h1, StepTree.flat, List.nil_append] at e1
    rw [stepsEntered_false h2, StepTree.flat, List.nil_append] at e2
    rw [chronBody, List.filter_append, ← e1, ← e2, stepsEntered, bodySteps]
  | act a rest ih =>
    intro f n p ha
    have e := ih f n _ ha.2
    have key : ∀ i, instrOf a = some i → isCallStep a = entersFrame i.before.op →
        chronBody f n (.act a rest) = (f, i) :: chronBody f n rest →
        (stepsEntered cfg f n (.act a rest)).flat ++ (bodySteps cfg f n (.act a rest)).flat =
          (chronBody f n (.act a rest)).filter (fun e => records cfg e.2.before.op) := by
      intro i hi hcall hch
      rw [hch, List.filter_cons]
      show [] ++ (bodySteps cfg f n (.act a rest)).flat = _
      rw [bodySteps_act, hi, List.nil_append]
      dsimp only
      by_cases hr : records cfg i.before.op = true
      · rw [if_pos hr, if_pos hr, StepTree.flat, ← e]
      · rw [if_neg hr, if_neg hr, ← e]
        have : isCallStep a = false := by
          rw [hcall]
          cases h : entersFrame i.before.op with
          | false => rfl
          | true => exact absurd (hc _ h) hr
        have h2 := ha.2
        rw [this] at h2
        rw [stepsEntered_false h2]
        rfl
    cases a with
    | step i c i' c' => exact key _ rfl rfl rfl
    | aborted i c => exact key _ rfl rfl rfl
    | _ =>
      have h2 := ha.2
      show [] ++ (bodySteps cfg f n (.act _ rest)).flat = (chronBody f n rest).filter _
      rw [bodySteps_act, ← e, stepsEntered_false h2]
      rfl

end Verif.Props
