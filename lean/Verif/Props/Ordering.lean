import Verif.Props.Writer
/-!
# C05 at every moment of a recording
-/
namespace Verif.Props
open Spec Rec Writer

/-- The positions in a list at which `p` holds are, in order, the numbers `0, 1, …, n - 1` under `f`. -/
def Counts (l : List TraceMemberOrder) (f : Nat → TraceMemberOrder) (n : Nat) : Prop :=
  (∀ i, i < n ↔ f i ∈ l) ∧ ∀ i j, l.countP (· = f i) ≤ 1 ∧
    (i < j → ∀ a b : Nat, l[a]? = some (f i) → l[b]? = some (f j) → a < b)

theorem counts_of {g : TraceMemberOrder → Option Nat} {f : Nat → TraceMemberOrder}
    (hgf : ∀ o i, g o = some i ↔ o = f i) : ∀ (l : List TraceMemberOrder) (a n : Nat),
    l.filterMap g = List.range' a n →
    (∀ i, (a ≤ i ∧ i < a + n) ↔ f i ∈ l) ∧ ∀ i j, l.countP (· = f i) ≤ 1 ∧
      (i < j → ∀ p q : Nat, l[p]? = some (f i) → l[q]? = some (f j) → p < q) := by
  intro l
  induction l with
  | nil =>
    intro a n h
    have hn : n = 0 := by cases n with
      | zero => rfl
      | succ n => simp [List.range'] at h
    subst hn
    exact ⟨fun i => by simp, fun i j => ⟨by simp, fun _ p q hp => by simp at hp⟩⟩
  | cons o l ih =>
    intro a n h
    cases ho : g o with
    | none =>
      rw [List.filterMap_cons_none ho] at h
      obtain ⟨h1, h2⟩ := ih a n h
      have hne : ∀ i, o ≠ f i := fun i hi => by rw [(hgf o i).2 hi] at ho; simp at ho
      refine ⟨fun i => ?_, fun i j => ⟨?_, ?_⟩⟩
      · rw [h1 i]; simp [List.mem_cons, fun i => (hne i).symm]
      · simpa [List.countP_cons, hne i] using (h2 i j).1
      · intro hij p q hp hq
        cases p with
        | zero => simp at hp; exact absurd hp (hne i)
        | succ p =>
          cases q with
          | zero => simp at hq; exact absurd hq (hne j)
          | succ q =>
            simp at hp hq
            have := (h2 i j).2 hij p q hp hq
            omega
    | some k =>
      rw [List.filterMap_cons_some ho] at h
      obtain ⟨rfl, m, rfl, h'⟩ := range'_head h
      have hok : o = f k := (hgf o k).1 ho
      have hinj : ∀ i, f k = f i → k = i := by
        intro i hi
        have h1 := (hgf o i).2 (hok.trans hi)
        rw [ho] at h1; simpa using h1
      obtain ⟨h1, h2⟩ := ih (k + 1) m h'
      refine ⟨fun i => ?_, fun i j => ⟨?_, ?_⟩⟩
      · rw [List.mem_cons, ← h1 i, hok]
        constructor
        · intro hi
          by_cases hki : i = k
          · exact Or.inl (by rw [hki])
          · exact Or.inr (by omega)
        · rintro (hi | hi)
          · have := hinj i hi.symm; omega
          · omega
      · rw [List.countP_cons]
        by_cases hki : o = f i
        · have hk := hinj i (hok ▸ hki)
          subst hk
          have h0 : l.countP (· = f k) = 0 := by
            rw [List.countP_eq_zero]
            intro b hb hbk
            simp only [decide_eq_true_eq] at hbk
            subst hbk
            have := (h1 k).2 hb
            omega
          rw [h0]; simp; split <;> omega
        · have := (h2 i j).1
          simp [hki]; exact this
      · intro hij p q hp hq
        cases p with
        | zero =>
          cases q with
          | zero =>
            simp at hp hq
            have h1 := hinj i (hok ▸ hp)
            have h2 := hinj j (hok ▸ hq)
            omega
          | succ q => omega
        | succ p =>
          cases q with
          | zero =>
            simp at hp hq
            have hj := hinj j (hok ▸ hq)
            have hi := (h1 i).2 (List.mem_of_getElem? hp)
            omega
          | succ q =>
            simp at hp hq
            have := (h2 i j).2 hij p q hp hq
            omega

/-- **C05 at every moment.** At every moment of the recording of a transaction, the ordering list of every
node refers to each of its steps, logs and children exactly once, to nothing else, and in their order. -/
theorem C05_complete_at_every_moment (cfg : Config) (t : Tx) (es : List Event) (hes : es <+: t.events)
    (s : TI) (hr : TI.run cfg TI.new es = .ok s) :
    ∀ x ∈ s.arena, Counts x.ordering .step x.trace.steps.length ∧
      Counts x.ordering .log x.logs.length ∧ Counts x.ordering .call x.children.length := by
  have htail : es.tail.all (fun e => !opensRoot e) = true := by
    have h := events_tail t
    rw [List.all_eq_true] at h ⊢
    intro e he
    obtain ⟨r, hr'⟩ := hes
    refine h e ?_
    rw [← hr']
    cases es with
    | nil => simp at he
    | cons a l => simp only [List.cons_append, List.tail_cons, List.mem_append] at he ⊢; exact Or.inl he
  intro x hx
  have hc := run_kept (canon_kept cfg) htail hr x hx
  have conv : ∀ (g : TraceMemberOrder → Option Nat) (f : Nat → TraceMemberOrder) (n : Nat),
      (∀ o i, g o = some i ↔ o = f i) → x.ordering.filterMap g = List.range n →
      Counts x.ordering f n := by
    intro g f n hgf h
    rw [List.range_eq_range'] at h
    obtain ⟨h1, h2⟩ := counts_of hgf x.ordering 0 n h
    exact ⟨fun i => by rw [← h1 i]; omega, h2⟩
  refine ⟨conv stepIdx .step _ ?_ hc.steps, conv logIdx .log _ ?_ hc.logs, conv callIdx .call _ ?_ hc.calls⟩
  · intro o i; cases o <;> simp [stepIdx]
  · intro o i; cases o <;> simp [logIdx]
  · intro o i; cases o <;> simp [callIdx]

/-- The hypotheses can be met in the middle of a recording. -/
example : ∃ s, TI.run writerConfig TI.new (writerTx.events.take 6) = .ok s := by
  obtain ⟨s, hr, _⟩ := C51_text writerConfig writerTx writerTx_wf writerTx_safe
  rw [← List.take_append_drop 6 writerTx.events] at hr
  exact run_prefix_ok hr

end Verif.Props
