import Verif.Props.CallFrames
/-! C21: exactly when the selfdestruct frames are where they are documented to be. -/
namespace Verif.Props
open Spec Rec

theorem callTree_length (decode : RevertDecoder) (cfg : Config) (w : Bool) (e e' : Nat → List CallFrame) (b : Body)
    (ok : Bool) (d p : Nat) (v : U256) (n : Nat) :
    (callTree decode cfg w e ok d p v n b).length = (callTree decode cfg w e' ok d p v n b).length := by
  induction b generalizing ok d p v n with
  | nil => rfl
  | act a rest ih => exact ih ok d p v n
  | sub h b o rest ihb ihr => simp only [callTree, List.length_cons, ihr]

/-- Frames put under the frames of a tree can be read off it. -/
theorem callTree_inj (decode : RevertDecoder) (cfg : Config) (w : Bool) (e e' : Nat → List CallFrame) (b : Body)
    (ok : Bool) (d p : Nat) (v : U256) (n : Nat)
    (h : callTree decode cfg w e ok d p v n b = callTree decode cfg w e' ok d p v n b) :
    ∀ f ∈ subFrames d p v n b, e f.index = e' f.index := by
  induction b generalizing ok d p v n with
  | nil => intro f hf; simp [subFrames] at hf
  | act a rest ih => exact ih ok d p v n h
  | sub hd b o rest ihb ihr =>
    simp only [callTree, List.cons.injEq, CallFrame.mk.injEq, and_true, true_and] at h
    obtain ⟨h1, h2⟩ := h
    obtain ⟨h3, h4⟩ := List.append_inj h1 (callTree_length _ _ _ _ _ _ _ _ _ _ _)
    intro f hf
    simp only [subFrames, List.mem_cons, List.mem_append] at hf
    rcases hf with rfl | hf | hf
    · exact h4
    · exact ihb _ _ _ _ _ h3 f hf
    · exact ihr _ _ _ _ _ h2 f hf

theorem callTree_congr (decode : RevertDecoder) (cfg : Config) (w : Bool) (e e' : Nat → List CallFrame) (b : Body)
    (ok : Bool) (d p : Nat) (v : U256) (n : Nat) (h : ∀ f ∈ subFrames d p v n b, e f.index = e' f.index) :
    callTree decode cfg w e ok d p v n b = callTree decode cfg w e' ok d p v n b := by
  induction b generalizing ok d p v n with
  | nil => rfl
  | act a rest ih => exact ih ok d p v n h
  | sub hd b o rest ihb ihr =>
    simp only [subFrames, List.mem_cons, List.mem_append] at h
    simp only [callTree]
    rw [ihb _ _ _ _ _ (fun f hf => h f (Or.inr (Or.inl hf))), ihr _ _ _ _ _ (fun f hf => h f (Or.inr (Or.inr hf)))]
    have := h _ (Or.inl rfl)
    simp only at this
    rw [this]

theorem callFrameTree_inj (decode : RevertDecoder) (cfg : Config) (w : Bool) (e e' : Nat → List CallFrame) (gas : Nat)
    (t : Tx) : callFrameTree decode cfg w w e gas t = callFrameTree decode cfg w w e' gas t ↔
      ∀ f ∈ frames t, e f.index = e' f.index := by
  constructor
  · intro h
    simp only [callFrameTree, CallFrame.mk.injEq, and_true, true_and] at h
    obtain ⟨h3, h4⟩ := List.append_inj h (callTree_length _ _ _ _ _ _ _ _ _ _ _)
    intro f hf
    simp only [frames, List.mem_cons] at hf
    rcases hf with rfl | hf
    · exact h4
    · exact callTree_inj _ _ _ _ _ _ _ _ _ _ _ h3 f hf
  · intro h
    have h0 : e 0 = e' 0 := h _ List.mem_cons_self
    simp only [callFrameTree]
    rw [h0, callTree_congr decode cfg w e e' _ _ _ _ _ _ (fun f hf => h f (List.mem_cons_of_mem _ hf))]

theorem subFrames_first (b : Body) (d p : Nat) (v : U256) (n : Nat) : subFrames d p v n b = [] ∨
    ∃ f ∈ subFrames d p v n b, f.index = n ∧ f.parent = some p := by
  induction b generalizing n with
  | nil => exact Or.inl rfl
  | act a rest ih => exact ih n
  | sub h b o rest ihb ihr => exact Or.inr ⟨_, List.mem_cons_self, rfl, rfl⟩

/-- The frame entered right after a frame with sub-frames is its first sub-frame. -/
theorem first_sub (b : Body) (d p : Nat) (v : U256) (n : Nat) : ∀ g ∈ subFrames d p v n b, ∀ i, g.parent = some i →
    i ≠ p → ∃ f ∈ subFrames d p v n b, f.index = i + 1 ∧ f.parent = some i := by
  induction b generalizing d p v n with
  | nil => intro g hg; simp [subFrames] at hg
  | act a rest ih => exact ih d p v n
  | sub h b o rest ihb ihr =>
    intro g hg i hi hne
    simp only [subFrames, List.mem_cons, List.mem_append] at hg ⊢
    rcases hg with rfl | hg | hg
    · simp only [Option.some.injEq] at hi; exact absurd hi.symm hne
    · by_cases hin : i = n
      · subst hin
        rcases subFrames_first b (d + 1) i (valueInScope (some v) h) (i + 1) with h0 | ⟨f, hf, h1, h2⟩
        · rw [h0] at hg; simp at hg
        · exact ⟨f, Or.inr (Or.inl hf), h1, h2⟩
      · obtain ⟨f, hf, h1⟩ := ihb _ _ _ _ g hg i hi hin
        exact ⟨f, Or.inr (Or.inl hf), h1⟩
    · obtain ⟨f, hf, h1⟩ := ihr _ _ _ _ g hg i hi hne
      exact ⟨f, Or.inr (Or.inr hf), h1⟩

theorem frames_first (t : Tx) (g : FrameCtx) (hg : g ∈ frames t) (i : Nat) (hi : g.parent = some i) :
    ∃ f ∈ frames t, f.index = i + 1 ∧ f.parent = some i := by
  simp only [frames, List.mem_cons] at hg ⊢
  rcases hg with rfl | hg
  · simp at hi
  · by_cases h0 : i = 0
    · subst h0
      rcases subFrames_first t.body 1 0 (valueInScope none t.hdr) 1 with h | ⟨f, hf, h1⟩
      · rw [h] at hg; simp at hg
      · exact ⟨f, Or.inr hf, h1⟩
    · obtain ⟨f, hf, h1⟩ := first_sub _ _ _ _ _ g hg i hi h0
      exact ⟨f, Or.inr hf, h1⟩

/-- **C21, exactly.** For every execution and call configuration, the SELFDESTRUCT frames are among the calls of the
parents of the frames that selfdestructed (of the root itself for the root) if and only if each frame other than
the root that selfdestructed was the first one its parent called. -/
theorem C21_exact (decode : RevertDecoder) (cfg : Config) (t : Tx) (hwf : t.WF) (hsafe : Safe cfg t.body)
    (opts : CallConfig) (honly : opts.onlyTopCall.getD false = false) (gas : Nat) :
    ∃ s, TI.run cfg TI.new t.events = .ok s ∧
      (gethCallTraces decode s.arena opts gas = .ok (callFrameTree decode cfg
          (opts.withLog.getD false) (opts.withLog.getD false) (sdPlaced t) gas t) ↔
        ∀ f ∈ frames t, selfdestructed f = true → ∀ p, f.parent = some p → f.index = p + 1) := by
  obtain ⟨s, hr, hmain, -, hfirst⟩ := C21_selfdestruct_placement_partial decode cfg t hwf hsafe opts honly gas
  refine ⟨s, hr, ?_, hfirst⟩
  intro h f hf hs p hp
  rw [hmain, Except.ok.injEq, callFrameTree_inj] at h
  obtain ⟨j, hj⟩ := List.mem_iff_getElem?.1 hf
  have hij := frames_index hj
  cases j with
  | zero => simp only [frames, List.getElem?_cons_zero, Option.some.injEq] at hj; subst hj; simp at hp
  | succ i =>
    have hlt : i < (frames t).length := by
      have := (List.getElem?_eq_some_iff.1 hj).1; omega
    have hgi := List.getElem?_eq_getElem hlt
    have heq := h _ (List.mem_of_getElem? hgi)
    rw [frames_index hgi] at heq
    have hpl : sdPlaced t i = (if i = 0 then sdFrame (rootOf t) else []) ++
        (frames t).tail.flatMap (fun f => if f.parent.getD 0 = i then sdFrame f else []) := by
      show (if 0 = i then sdFrame (rootOf t) else []) ++ _ = _
      congr 1
      by_cases hi : i = 0 <;> simp [hi, eq_comm]
    rw [hpl, sdUnder, hj, Option.map_some, Option.getD_some] at heq
    have htail := List.append_cancel_left heq
    have hne : sdFrame f ≠ [] := by simp [sdFrame, hs]
    have : ∃ g ∈ (frames t).tail, g.parent.getD 0 = i := by
      apply Classical.byContradiction
      intro hno
      apply hne
      rw [htail, List.flatMap_eq_nil_iff]
      intro g hg
      rw [if_neg (fun hc => hno ⟨g, hg, hc⟩)]
    obtain ⟨g, hg, hgp⟩ := this
    have hgsub : g ∈ subFrames 1 0 (valueInScope none t.hdr) 1 t.body := hg
    obtain ⟨q, hq⟩ : ∃ q, g.parent = some q := by
      obtain ⟨q, hq, _⟩ := subFrames_parent _ _ _ _ _ _ (by omega) hgsub
      exact ⟨q, hq⟩
    rw [hq, Option.getD_some] at hgp
    subst hgp
    obtain ⟨f', hf', h1, h2⟩ := frames_first t g (List.mem_cons_of_mem _ hg) q hq
    obtain ⟨j', hj'⟩ := List.mem_iff_getElem?.1 hf'
    have := frames_index hj'
    have hjj : j' = q + 1 := by omega
    subst hjj
    rw [hj, Option.some.injEq] at hj'
    subst hj'
    rw [hp, Option.some.injEq] at h2
    omega

/-- Both cases occur: in the example the first called contract selfdestructs, in `twoCalls` the second one. -/
example : (Example.tx.WF ∧ Safe Config.all Example.tx.body ∧
      (frames Example.tx).map (fun f => (selfdestructed f, f.parent, f.index)) =
        [(false, none, 0), (true, some 0, 1), (false, some 1, 2), (false, some 0, 3), (false, some 0, 4)]) ∧
    (twoCalls.WF ∧ Safe Config.all twoCalls.body ∧
      (frames twoCalls).map (fun f => (selfdestructed f, f.parent, f.index)) =
        [(false, none, 0), (false, some 0, 1), (true, some 0, 2)]) :=
  ⟨⟨Example.wf, Example.safe _, by decide⟩, C21_refuted.1, C21_refuted.2.1 _, by decide⟩

end Verif.Props
