import Verif.Props.CrossCounts
import Verif.Spec.Selectors
/-!
# C111: the four-byte inspector and calls of precompiles
-/
namespace Verif.Props
open Spec

theorem callsWith_frames (sel : Bytes) (size : Nat) (t : Tx) :
    callsWith sel size t.events = ((frames t).filter (callOf sel size)).length := by
  have h0 : ∀ b : Body, ownSum (fun _ => 0) b = 0 := by
    intro b
    induction b with
    | nil => rfl
    | act a rest ih => rw [ownSum, ih]
    | sub _ _ _ rest _ ih => rw [ownSum, ih]
  rw [callsWith_tx, ← frames_sum (fun _ => 0) (selW sel size), length_filter_sum]
  congr 1
  apply List.map_congr_left
  intro f _
  rw [h0, Nat.add_zero]
  unfold callOf
  cases f.hdr with
  | call c inp =>
    rw [selW]
    by_cases e1 : inp.input.length = 4 + size <;> by_cases e2 : inp.input.take 4 = sel <;> simp [e1, e2]
  | create c inp => rfl

theorem split_filter {α : Type} (p q : α → Bool) (l : List α) :
    (l.filter p).length = (l.filter (fun x => p x && !q x)).length + (l.filter (fun x => p x && q x)).length := by
  induction l with
  | nil => rfl
  | cons x l ih =>
    simp only [List.filter_cons]
    cases hp : p x <;> cases hq : q x <;> simp [ih] <;> omega

/-- **C111, exactly.** For every execution the count of a selector and size is that of the functions called
with them and that of the precompiles called with such an input together; so it is right for all
selectors and sizes exactly if no frame called a precompile with four bytes of input or more. -/
theorem C111_exact (t : Tx) (h : ∀ sel size, callsWith sel size t.events < 2 ^ 64) :
    ∃ s, runHooks fourByteHook [] t.events = .ok s ∧
      (∀ sel size, (AMap.get? s (sel, size)).getD 0 = functionCalls sel size t +
        ((frames t).filter (fun f => callOf sel size f && builtIn f)).length) ∧
      ((∀ sel size, (AMap.get? s (sel, size)).getD 0 = functionCalls sel size t) ↔
        ∀ f ∈ frames t, builtIn f = true → (input f.hdr).length < 4) := by
  obtain ⟨s, hs, _, hc⟩ := C37_counts t.events h
  have hget : ∀ sel size, (AMap.get? s (sel, size)).getD 0 = functionCalls sel size t +
      ((frames t).filter (fun f => callOf sel size f && builtIn f)).length := by
    intro sel size
    have e : (AMap.get? s (sel, size)).getD 0 = callsWith sel size t.events := by
      rw [hc]
      split
      · rename_i h0; rw [h0]; rfl
      · rfl
    rw [e, callsWith_frames, split_filter _ builtIn]
    rfl
  refine ⟨s, hs, hget, ?_⟩
  constructor
  · intro hall f hf hb
    cases hh : f.hdr with
    | create c inp => simp [builtIn, hh, Header.isPrecompile] at hb
    | call c inp =>
      simp only [input]
      refine Nat.lt_of_not_le fun hge => ?_
      have h1 := hall (inp.input.take 4) (inp.input.length - 4)
      rw [hget] at h1
      have h2 : ((frames t).filter (fun f => callOf (inp.input.take 4) (inp.input.length - 4) f &&
          builtIn f)).length = 0 := by omega
      have h3 : f ∈ (frames t).filter (fun f => callOf (inp.input.take 4) (inp.input.length - 4) f &&
          builtIn f) := by
        refine List.mem_filter.2 ⟨hf, ?_⟩
        have : inp.input.length = 4 + (inp.input.length - 4) := by omega
        simp only [callOf, hh, hb, Bool.and_true, Bool.and_eq_true, beq_iff_eq]
        exact ⟨this, trivial⟩
      rw [List.length_eq_zero_iff.1 h2] at h3
      nomatch h3
  · intro hall sel size
    rw [hget]
    have : (frames t).filter (fun f => callOf sel size f && builtIn f) = [] := by
      refine List.filter_eq_nil_iff.2 fun f hf hp => ?_
      simp only [Bool.and_eq_true] at hp
      have h1 := hall f hf hp.2
      have h2 := hp.1
      cases hh : f.hdr with
      | create c inp => simp [callOf, hh] at h2
      | call c inp =>
        simp only [callOf, hh, Bool.and_eq_true, beq_iff_eq] at h2
        simp only [hh, input] at h1
        omega
    rw [this]
    rfl

/-- **C111** (partial: missing are transactions in which a precompile is called with four bytes of input
or more, see the refutation). The selectors the four-byte inspector counts are those of the functions
called, each as often as it was called with arguments of that size. -/
theorem C111_selectors_partial (t : Tx) (h : ∀ sel size, callsWith sel size t.events < 2 ^ 64)
    (hb : ∀ f ∈ frames t, builtIn f = true → (input f.hdr).length < 4) :
    ∃ s, runHooks fourByteHook [] t.events = .ok s ∧ AMap.Nodup s ∧
      ∀ sel size n, AMap.get? s (sel, size) = some n ↔ n = functionCalls sel size t ∧ n ≠ 0 := by
  obtain ⟨s, hs, hn, hc⟩ := C37_counts t.events h
  obtain ⟨s', hs', _, hiff⟩ := C111_exact t h
  rw [hs] at hs'
  obtain rfl := Except.ok.inj hs'
  refine ⟨s, hs, hn, ?_⟩
  intro sel size n
  have e := hiff.2 hb sel size
  rw [hc] at e ⊢
  split at e
  · rename_i h0
    have e : 0 = functionCalls sel size t := e
    rw [if_pos h0, ← e]
    constructor
    · intro h; nomatch h
    · rintro ⟨rfl, h⟩; exact absurd rfl h
  · rename_i h0
    have e : callsWith sel size t.events = functionCalls sel size t := e
    rw [if_neg h0, ← e]
    constructor
    · intro h; obtain rfl := Option.some.inj h; exact ⟨rfl, h0⟩
    · rintro ⟨rfl, _⟩; rfl

/-- The root 0xa calls contract 0xb and precompile 1, if `pre`, with the input 1, 2, 3, 4, 5. -/
def selectorTx (pre : Bool) : Tx where
  hdr := Example.callHdr .Call 0x99 0xa 0xa 0
  body := .sub (Example.callHdr .Call 0xa 0xb 0xb 0) .nil (Example.out .Stop)
    (if pre then .sub (Example.callHdr .StaticCall 0xa 1 1 0) .nil (Example.out .Return) .nil else .nil)
  out := Example.out .Stop

/-- Without the call of the precompile the hypotheses are met, and the function is called twice. -/
example : (∀ sel size, callsWith sel size (selectorTx false).events < 2 ^ 64) ∧
    (∀ f ∈ frames (selectorTx false), builtIn f = true → (input f.hdr).length < 4) ∧
    functionCalls [1, 2, 3, 4] 1 (selectorTx false) = 2 := by
  refine ⟨fun sel size => ?_, by decide, by decide⟩
  rw [callsWith_frames]
  have := List.length_filter_le (callOf sel size) (frames (selectorTx false))
  have hl : (frames (selectorTx false)).length = 2 := by decide
  omega

/-- **C111, refuted**: two functions are called with the selector 01020304 and one byte of arguments;
three are counted if a precompile is called with an input that looks like it. -/
theorem C111_refuted :
    (selectorTx true).WF ∧ functionCalls [1, 2, 3, 4] 1 (selectorTx true) = 2 ∧
    runHooks fourByteHook [] (selectorTx true).events = .ok [(([1, 2, 3, 4], 1), 3)] :=
  ⟨⟨fun _ => rfl, fun h => absurd h (by decide), fun _ => rfl, fun h => absurd h (by decide), trivial,
    fun _ => rfl, fun _ => rfl, trivial, trivial⟩, by decide, rfl⟩

end Verif.Props
