import Verif.Lemmas.Frames
import Verif.Spec.CallFrames
/-! The roll-up of call frames. -/
namespace Verif
namespace Rec
open Spec

theorem reverse_modify {α : Type} (A : List α) (p : Nat) (f : α → α) (hp : p < A.length) :
    A.reverse.modify (A.length - 1 - p) f = (A.modify p f).reverse := by
  apply List.ext_getElem (by simp)
  intro k h1 h2
  have hk : k < A.length := by simpa using h1
  rw [List.getElem_modify, List.getElem_reverse, List.getElem_reverse, List.getElem_modify]
  simp only [List.length_modify]
  by_cases h : A.length - 1 - p = k
  · rw [if_pos h, if_pos (by omega)]
  · rw [if_neg h, if_neg (by omega)]

theorem modify_append_left {α : Type} (A B : List α) (p : Nat) (f : α → α) (hp : p < A.length) :
    (A ++ B).modify p f = A.modify p f ++ B := by
  induction A generalizing p with
  | nil => simp at hp
  | cons a A ih =>
    cases p with
    | zero => rfl
    | succ p =>
      simp only [List.cons_append, List.modify_succ_cons, List.cons.injEq, true_and]
      exact ih p (by simpa using hp)

theorem modify_append_self {α : Type} (A : List α) (a : α) (f : α → α) :
    (A ++ [a]).modify A.length f = A ++ [f a] := by
  induction A with
  | nil => rfl
  | cons b A ih => simp [ih]

/-- Prepend calls to a frame. -/
def preCalls (l : List CallFrame) (e : Nat × CallFrame) : Nat × CallFrame :=
  (e.1, { e.2 with calls := l ++ e.2.calls })

theorem rollUp_step (nodes : List Node) (A : List (Nat × CallFrame)) (i p fuel : Nat) (c : CallFrame)
    (x : Node) (hx : nodes[i]? = some x) (hpar : x.parent = some p) (hp : p < A.length) :
    rollUp nodes (fuel + 1) (A ++ [(i, c)]).reverse =
      rollUp nodes fuel (A.modify p (preCalls [c])).reverse := by
  simp only [List.reverse_append, List.reverse_cons, List.reverse_nil, List.nil_append,
    List.singleton_append, rollUp, hx, hpar, List.length_reverse, hp, if_true]
  rw [← reverse_modify A p _ hp]
  rfl

/-- The trees of a body made from the frames `base`. -/
def trees (base : Nat → CallFrame) : Nat → Body → List CallFrame
  | _, .nil => []
  | n, .act _ rest => trees base n rest
  | n, .sub _ b _ rest =>
    { base n with calls := trees base (n + 1) b ++ (base n).calls } ::
      trees base (n + 1 + b.size) rest

/-- The frames from index `n` on. -/
def baseList (base : Nat → CallFrame) (n k : Nat) : List (Nat × CallFrame) :=
  (List.range' n k).map (fun i => (i, base i))

theorem baseList_append (base : Nat → CallFrame) (n k l : Nat) :
    baseList base n (k + l) = baseList base n k ++ baseList base (n + k) l := by
  simp [baseList, ← List.map_append, List.range'_append_1]

theorem preCalls_preCalls (l m : List CallFrame) :
    preCalls l ∘ preCalls m = preCalls (l ++ m) := by
  funext e; simp [preCalls]

theorem rollUp_body (nodes : List Node) (base : Nat → CallFrame) (b : Body) :
    ∀ (d p : Nat) (v : U256) (n : Nat) (A : List (Nat × CallFrame)) (fuel : Nat),
    A.length = n → p < n →
    (∀ f ∈ subFrames d p v n b, ∃ x, nodes[f.index]? = some x ∧ x.parent = f.parent) →
    rollUp nodes (b.size + fuel) (A ++ baseList base n b.size).reverse =
      rollUp nodes fuel (A.modify p (preCalls (trees base n b))).reverse := by
  induction b with
  | nil =>
    intro d p v n A fuel hA hp _
    have : preCalls (trees base n Body.nil) = id := by
      funext e; obtain ⟨i, c⟩ := e; cases c; rfl
    simp [Body.size, baseList, this]
  | act a rest ih => intro d p v n A fuel hA hp h; exact ih d p v n A fuel hA hp h
  | sub h b o rest ihb ihr =>
    intro d p v n A fuel hA hp hn
    have hr : ∀ f ∈ subFrames d p v (n + 1 + b.size) rest,
        ∃ x, nodes[f.index]? = some x ∧ x.parent = f.parent := fun f hf =>
      hn f (by simp only [subFrames, List.mem_cons, List.mem_append]; exact Or.inr (Or.inr hf))
    have hb : ∀ f ∈ subFrames (d + 1) n (valueInScope (some v) h) (n + 1) b,
        ∃ x, nodes[f.index]? = some x ∧ x.parent = f.parent := fun f hf =>
      hn f (by simp only [subFrames, List.mem_cons, List.mem_append]; exact Or.inr (Or.inl hf))
    obtain ⟨x, hx, hpar⟩ := hn ⟨n, some p, d, some v, h, b, o⟩ (by simp [subFrames])
    have e1 : baseList base n (Body.sub h b o rest).size =
        [(n, base n)] ++ (baseList base (n + 1) b.size ++ baseList base (n + 1 + b.size) rest.size) := by
      rw [Body.size, baseList_append, baseList_append, List.append_assoc, ← Nat.add_assoc]; rfl
    have e2 : (Body.sub h b o rest).size + fuel = rest.size + (b.size + (1 + fuel)) := by
      simp only [Body.size]; omega
    have hlen : (A ++ ([(n, base n)] ++ baseList base (n + 1) b.size)).length = n + 1 + b.size := by
      simp [hA, baseList]; omega
    rw [e1, e2, ← List.append_assoc [(n, base n)], ← List.append_assoc A,
      ihr d p v (n + 1 + b.size) _ _ hlen (by omega) hr,
      modify_append_left _ _ _ _ (by omega), ← List.append_assoc]
    rw [ihb (d + 1) n (valueInScope (some v) h) (n + 1) _ _ (by simp [hA]) (by omega) hb]
    have e3 : ∀ A' : List (Nat × CallFrame), A'.length = n →
        (A' ++ [(n, base n)]).modify n (preCalls (trees base (n + 1) b)) =
        A' ++ [preCalls (trees base (n + 1) b) (n, base n)] := by
      intro A' h; rw [← h]; exact modify_append_self _ _ _
    rw [e3 _ (by simp [hA]), show 1 + fuel = fuel + 1 from Nat.add_comm _ _, preCalls]
    rw [rollUp_step nodes _ n p fuel _ x hx hpar (by simp; omega), List.modify_modify_eq,
      preCalls_preCalls]
    rfl

/-! ### Making the frames -/

/-- The selfdestruct frame of a node, as a list. -/
def sdList (x : Node) : List CallFrame := x.gethSelfdestructCallTrace.toList

/-- The frames made for the nodes after the current last one (helper). -/
def finishFrames (mk : Node → CallFrame) : Nat → CallFrame → List Node → List (Nat × CallFrame)
  | i, g, [] => [(i, g)]
  | i, g, x :: rest => (i, { g with calls := g.calls ++ sdList x }) :: finishFrames mk (i + 1) (mk x) rest

theorem makeFrames_eq (decode : RevertDecoder) (nodes : List Node) (includeLogs : Bool)
    (incl : Node → Bool) : ∀ (rest : List Node) (i : Nat) (g : CallFrame)
    (acc : List (Nat × CallFrame)),
    (includeLogs = true → ∀ x ∈ rest, callOrParentFailed nodes x = .ok (!incl x)) →
    (includeLogs = false → ∀ x ∈ rest, incl x = false) →
    makeFrames decode nodes includeLogs (i + 1) rest ((i, g) :: acc) =
      .ok ((finishFrames (fun x => x.gethEmptyCallFrame decode (incl x)) i g rest).reverse ++ acc) := by
  intro rest
  induction rest with
  | nil => intros; rfl
  | cons x rest ih =>
    intro i g acc h1 h2
    have hr : makeFrames decode nodes includeLogs (i + 1) (x :: rest) ((i, g) :: acc) =
        makeFrames decode nodes includeLogs (i + 1 + 1) rest
          ((i + 1, x.gethEmptyCallFrame decode (incl x)) ::
            (i, { g with calls := g.calls ++ sdList x }) :: acc) := by
      cases g
      cases hl : includeLogs with
      | true =>
        have := h1 hl x (by simp)
        cases hx : x.gethSelfdestructCallTrace <;>
          simp [makeFrames, pushToLast, sdList, hx, this]
      | false =>
        have := h2 hl x (by simp)
        cases hx : x.gethSelfdestructCallTrace <;>
          simp [makeFrames, pushToLast, sdList, hx, this]
    rw [hr, ih (i + 1) _ _ (fun h y hy => h1 h y (by simp [hy])) (fun h y hy => h2 h y (by simp [hy]))]
    simp [finishFrames]

theorem finishFrames_length (mk : Node → CallFrame) : ∀ rest i g,
    (finishFrames mk i g rest).length = rest.length + 1 := by
  intro rest
  induction rest with
  | nil => intros; rfl
  | cons x rest ih => intro i g; simp [finishFrames, ih]

/-- The frame at a position. -/
theorem finishFrames_get (mk : Node → CallFrame) : ∀ (rest : List Node) (i : Nat) (g : CallFrame) (k : Nat),
    (finishFrames mk i g rest)[k]? =
      (if k = 0 then some g else (rest[k - 1]?).map mk).map
        (fun c => (i + k, { c with calls := c.calls ++ ((rest[k]?).map sdList).getD [] })) := by
  intro rest
  induction rest with
  | nil =>
    intro i g k
    cases k with
    | zero => cases g; simp [finishFrames]
    | succ k => simp [finishFrames]
  | cons x rest ih =>
    intro i g k
    cases k with
    | zero => simp [finishFrames]
    | succ k =>
      simp only [finishFrames, List.getElem?_cons_succ, ih, Nat.add_one_ne_zero, if_false,
        Nat.add_sub_cancel]
      cases k with
      | zero => simp
      | succ k => simp [Nat.add_assoc, Nat.add_comm 1]

/-! ### Failed ancestors -/

theorem parentFailed_body (nodes : List Node) (b : Body) : ∀ (d p : Nat) (v : U256) (n : Nat) (ok : Bool),
    p < n → n + b.size ≤ nodes.length →
    (∀ fuel, p < fuel → parentFailedLoop nodes fuel (some p) = .ok (!ok)) →
    (∀ f ∈ subFrames d p v n b, ∃ x, nodes[f.index]? = some x ∧ x.parent = f.parent ∧
      x.trace.isError = !f.out.result.result.isOk) →
    ∀ (mkTree : Nat → Bool → FrameCtx → CallFrame) (base : Nat → CallFrame),
    (∀ f ∈ subFrames d p v n b, ∀ x, nodes[f.index]? = some x → ∀ fail,
      callOrParentFailed nodes x = .ok fail → mkTree f.index (!fail) f = base f.index) →
    ∀ (out : Bool → (d p : Nat) → U256 → Nat → Body → List CallFrame),
    (∀ ok d p v n, out ok d p v n .nil = []) →
    (∀ ok d p v n a rest, out ok d p v n (.act a rest) = out ok d p v n rest) →
    (∀ ok d p v n h b o rest, out ok d p v n (.sub h b o rest) =
      { mkTree n (ok && o.result.result.isOk) ⟨n, some p, d, some v, h, b, o⟩ with
        calls := out (ok && o.result.result.isOk) (d + 1) n (valueInScope (some v) h) (n + 1) b ++
          (mkTree n (ok && o.result.result.isOk) ⟨n, some p, d, some v, h, b, o⟩).calls } ::
        out ok d p v (n + 1 + b.size) rest) →
    trees base n b = out ok d p v n b := by
  induction b with
  | nil => intro d p v n ok _ _ _ _ mkTree base _ out h1 _ _; rw [h1]; rfl
  | act a rest ih =>
    intro d p v n ok hp hl hf hn mkTree base hb out h1 h2 h3
    rw [h2]; exact ih d p v n ok hp hl hf hn mkTree base hb out h1 h2 h3
  | sub h b o rest ihb ihr =>
    intro d p v n ok hp hl hf hn mkTree base hb out h1 h2 h3
    simp only [Body.size] at hl
    obtain ⟨x, hx, hpar, herr⟩ := hn ⟨n, some p, d, some v, h, b, o⟩ (by simp [subFrames])
    dsimp only at hx hpar herr
    have hcp : callOrParentFailed nodes x = .ok (!(ok && o.result.result.isOk)) := by
      rw [callOrParentFailed, herr, hpar, hf nodes.length (by omega)]
      cases o.result.result.isOk <;> simp
    have hroot := hb ⟨n, some p, d, some v, h, b, o⟩ (by simp [subFrames]) x hx _ hcp
    simp only [Bool.not_not] at hroot
    have hloop : ∀ fuel, n < fuel →
        parentFailedLoop nodes fuel (some n) = .ok (!(ok && o.result.result.isOk)) := by
      intro fuel hfu
      cases fuel with
      | zero => omega
      | succ fuel =>
        simp only [parentFailedLoop, hx, herr, hpar, hf fuel (by omega)]
        cases o.result.result.isOk <;> simp
    have m1 : ∀ f, f ∈ subFrames (d + 1) n (valueInScope (some v) h) (n + 1) b →
        f ∈ subFrames d p v n (.sub h b o rest) := fun f hf => by
      simp only [subFrames, List.mem_cons, List.mem_append]; exact Or.inr (Or.inl hf)
    have m2 : ∀ f, f ∈ subFrames d p v (n + 1 + b.size) rest →
        f ∈ subFrames d p v n (.sub h b o rest) := fun f hf => by
      simp only [subFrames, List.mem_cons, List.mem_append]; exact Or.inr (Or.inr hf)
    have i1 := ihb (d + 1) n (valueInScope (some v) h) (n + 1) (ok && o.result.result.isOk)
      (by omega) (by omega) hloop (fun f hf => hn f (m1 f hf)) mkTree base
      (fun f hf => hb f (m1 f hf)) out h1 h2 h3
    have i2 := ihr d p v (n + 1 + b.size) ok (by omega) (by omega) hf
      (fun f hf => hn f (m2 f hf)) mkTree base (fun f hf => hb f (m2 f hf)) out h1 h2 h3
    rw [h3, trees, i1, i2]
    rw [hroot]

end Rec
end Verif
