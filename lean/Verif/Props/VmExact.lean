import Verif.Props.Vm
import Verif.Props.VmExamples
/-!
# C29: what the `vmTrace` is in every case
-/
namespace Verif.Props
open Spec Rec Parity Par

/-- The walk, over the list of frames in the order in which they are left. -/
def walkLeft (ls : Bool) (S : Nat → List CallTraceStep) : List VmTrace → List FrameCtx →
    Except (List VmInstruction) (List VmTrace)
  | q, [] => .ok q
  | q, f :: fs =>
    match instrLoop ls (S f.index) q [] with
    | (true, _, ins) => .error ins
    | (false, q2, ins) => walkLeft ls S (q2 ++ [.mk [] ins]) fs

theorem walkLeft_append (ls : Bool) (S : Nat → List CallTraceStep) (a b : List FrameCtx) :
    ∀ q, walkLeft ls S q (a ++ b) =
      match walkLeft ls S q a with
      | .error ins => .error ins
      | .ok q => walkLeft ls S q b := by
  induction a with
  | nil => intro q; rfl
  | cons f fs ih =>
    intro q
    simp only [List.cons_append, walkLeft]
    rcases instrLoop ls (S f.index) q [] with ⟨stop, q2, ins⟩
    cases stop with
    | true => rfl
    | false => exact ih _

theorem dfs_walkLeft (cfg : Config) (ls : Bool) (S : Nat → List CallTraceStep) (b : Body) :
    ∀ d p v n q, dfs cfg ls S d p v n q b = walkLeft ls S q (leftFrames cfg d p v n b) := by
  induction b with
  | nil => intros; rfl
  | act a rest ih => intro d p v n q; exact ih d p v n q
  | sub h b o rest ihb ihr =>
    intro d p v n q
    simp only [dfs, leftFrames]
    split
    · exact ihr ..
    · rw [walkLeft_append, ihb]
      cases walkLeft ls S q (leftFrames cfg (d + 1) n (valueInScope (some v) h) (n + 1) b) with
      | error ins => rfl
      | ok q1 =>
        simp only [walkLeft]
        rcases instrLoop ls (S n) q1 [] with ⟨stop, q2, ins⟩
        cases stop with
        | true => rfl
        | false => exact ihr ..

theorem instrLoop_go (ls : Bool) (ss : List CallTraceStep) : ∀ (q : List VmTrace)
    (ins : List VmInstruction),
    (ls = true → ins = [] → ∀ st, ss.head? = some st → st.op ≠ 0) →
    instrLoop ls ss q ins = (false, q.drop (callSteps ss), ins ++ handOut ss q) := by
  induction ss with
  | nil => intro q ins _; simp [instrLoop, callSteps, handOut]
  | cons st ss ih =>
    intro q ins h
    simp only [instrLoop]
    have hc : (st.isStop && ins.isEmpty && ls) = false := by
      cases hb : (st.isStop && ins.isEmpty && ls) with
      | false => rfl
      | true =>
        simp only [Bool.and_eq_true, List.isEmpty_iff] at hb
        exact absurd ((isStop_iff st).1 hb.1.1) (h hb.2 hb.1.2 st rfl)
    rw [if_neg (by rw [hc]; exact Bool.false_ne_true), ih]
    · by_cases hs : entersFrame st.op = true
      · have hs' : st.isCalllikeOp = true := (entersFrame_eq st.op).trans hs
        simp only [hs', if_true, callSteps, handOut, hs, List.filter_cons_of_pos, List.length_cons,
          List.append_assoc, List.singleton_append, vmInstr_eq, Prod.mk.injEq, true_and, and_true]
        rw [← List.drop_one, List.drop_drop, Nat.add_comm]
      · have hs' : ¬ st.isCalllikeOp = true := fun h => hs ((entersFrame_eq st.op).symm.trans h)
        simp only [hs', if_false, Bool.false_eq_true, callSteps, handOut, hs, List.append_assoc, List.singleton_append,
          vmInstr_eq, Prod.mk.injEq, true_and, and_true, List.filter_cons_of_neg, not_false_eq_true]
    · intro _ he
      simp at he

theorem instrLoop_stop (ss : List CallTraceStep) (q : List VmTrace) (st : CallTraceStep)
    (h : ss.head? = some st) (hop : st.op = 0) : (instrLoop true ss q []).1 = true ∧
      (instrLoop true ss q []).2.2 = [] := by
  cases ss with
  | nil => simp at h
  | cons a ss =>
    simp only [List.head?_cons, Option.some.injEq] at h
    subst h
    simp [instrLoop, (isStop_iff a).2 hop]

theorem givenAway_le (calls : Nat → Nat) (i : Nat) : givenAway calls i ≤ i := by
  cases i with
  | zero => exact Nat.le_refl _
  | succ i => rw [givenAway]; omega

theorem tracesOf_snoc {S : Nat → List CallTraceStep} {fs : List FrameCtx} {V : List VmTrace}
    (h : TracesOf S fs V) (f : FrameCtx) (hf : fs[V.length]? = some f) :
    TracesOf S fs (V ++ [.mk [] (handOut (S f.index) (V.drop (givenAway (callsOf S fs) V.length)))]) := by
  intro i g v hg hv
  by_cases hi : i < V.length
  · rw [List.getElem?_append_left hi] at hv
    rw [List.take_append_of_le_length (by omega)]
    exact h i g v hg hv
  · rw [List.getElem?_append_right (by omega)] at hv
    have hi' : i = V.length := by
      by_cases h0 : i - V.length = 0
      · omega
      · rw [List.getElem?_eq_none (by simp; omega)] at hv
        simp at hv
    subst hi'
    rw [hf] at hg
    simp only [Nat.sub_self, List.getElem?_cons_zero, Option.some.injEq] at hv hg
    subst hg
    rw [← hv, List.take_append_of_le_length (Nat.le_refl _), List.take_length]

theorem walkLeft_go (ls : Bool) (S : Nat → List CallTraceStep) (all : List FrameCtx)
    (hstop : ls = true → ∀ f ∈ all, ∀ st, (S f.index).head? = some st → st.op ≠ 0) :
    ∀ (fs : List FrameCtx) (tail : List FrameCtx) (V : List VmTrace), all.drop V.length = fs ++ tail →
      TracesOf S all V →
      ∃ V', V'.length = V.length + fs.length ∧ TracesOf S all V' ∧
        walkLeft ls S (V.drop (givenAway (callsOf S all) V.length)) fs =
          .ok (V'.drop (givenAway (callsOf S all) V'.length)) := by
  intro fs
  induction fs with
  | nil => intro tail V _ h; exact ⟨V, rfl, h, rfl⟩
  | cons f fs ih =>
    intro tail V hd h
    have hf : all[V.length]? = some f := by
      have : (all.drop V.length)[0]? = some f := by rw [hd]; rfl
      simpa using this
    have hmem : f ∈ all := List.mem_of_getElem? hf
    simp only [walkLeft]
    rw [instrLoop_go ls _ _ _ (fun h _ => hstop h f hmem)]
    simp only [List.nil_append]
    have hd' : all.drop (V ++ [VmTrace.mk [] (handOut (S f.index)
        (V.drop (givenAway (callsOf S all) V.length)))]).length = fs ++ tail := by
      rw [List.length_append, List.length_singleton, ← List.drop_drop, hd]
      rfl
    obtain ⟨V', h1, h2, h3⟩ := ih tail _ hd' (tracesOf_snoc h f hf)
    refine ⟨V', ?_, h2, ?_⟩
    · rw [h1]; simp only [List.length_append, List.length_cons, List.length_nil]; omega
    · rw [← h3, List.length_append, List.length_singleton, givenAway]
      congr 1
      have hc : callsOf S all V.length = callSteps (S f.index) := by rw [callsOf, hf]
      rw [hc, List.drop_drop]
      by_cases hle : givenAway (callsOf S all) V.length + callSteps (S f.index) ≤ V.length
      · rw [Nat.min_eq_right hle, List.drop_append_of_le_length hle]
      · rw [Nat.min_eq_left (by omega), List.drop_eq_nil_of_le (by omega),
          List.drop_append_of_le_length (Nat.le_refl _), List.drop_length]

theorem walkLeft_stop (S : Nat → List CallTraceStep) : ∀ (fs : List FrameCtx) (q : List VmTrace),
    (∃ f ∈ fs, ∃ st, (S f.index).head? = some st ∧ st.op = 0) → walkLeft true S q fs = .error [] := by
  intro fs
  induction fs with
  | nil => rintro q ⟨f, hf, _⟩; simp at hf
  | cons f fs ih =>
    rintro q ⟨g, hg, st, h1, h2⟩
    simp only [walkLeft]
    rcases hi : instrLoop true (S f.index) q [] with ⟨stop, q2, ins⟩
    cases stop with
    | true =>
      by_cases h0 : ∃ st, (S f.index).head? = some st ∧ st.op = 0
      · obtain ⟨st, h3, h4⟩ := h0
        have := (instrLoop_stop _ q st h3 h4).2
        rw [hi] at this
        dsimp only at this ⊢
        rw [this]
      · rw [instrLoop_go true _ _ _ (fun _ _ st h3 h4 => h0 ⟨st, h3, h4⟩)] at hi
        simp at hi
    | false =>
      rcases List.mem_cons.1 hg with rfl | hg
      · have := (instrLoop_stop _ q st h1 h2).1
        rw [hi] at this
        simp at this
      · exact ih _ ⟨g, hg, st, h1, h2⟩

theorem walkLeft_error (ls : Bool) (S : Nat → List CallTraceStep) : ∀ (fs : List FrameCtx)
    (q : List VmTrace) (ins : List VmInstruction), walkLeft ls S q fs = .error ins → ins = [] := by
  intro fs
  induction fs with
  | nil => intro q ins h; simp [walkLeft] at h
  | cons f fs ih =>
    intro q ins h
    simp only [walkLeft] at h
    by_cases h0 : ls = true ∧ ∃ st, (S f.index).head? = some st ∧ st.op = 0
    · obtain ⟨rfl, st, h1, h2⟩ := h0
      have := instrLoop_stop _ q st h1 h2
      rcases hi : instrLoop true (S f.index) q [] with ⟨stop, q2, ins'⟩
      rw [hi] at this h
      obtain ⟨rfl, rfl⟩ := this
      simp only [Except.error.injEq] at h
      exact h.symm
    · rw [instrLoop_go ls _ _ _ (fun hl _ st h1 h2 => h0 ⟨hl, st, h1, h2⟩)] at h
      exact ih _ _ h

theorem leftFrames_perm (cfg : Config) (b : Body) : ∀ d p v n path k,
    (leftFrames cfg d p v n b).Perm ((locate cfg d p v n path k b).map (·.2)) := by
  induction b with
  | nil => intros; exact .nil
  | act a rest ih => intro d p v n path k; exact ih d p v n path k
  | sub h b o rest ihb ihr =>
    intro d p v n path k
    simp only [leftFrames, locate]
    split
    · exact ihr ..
    · rw [List.map_cons, List.map_append]
      exact (List.perm_middle).trans (((ihb ..).append (ihr ..)).cons _)

/-- The frames in the order in which they are left are the shown frames. -/
theorem leftOrder_perm (cfg : Config) (t : Tx) :
    (leftOrder cfg t).Perm ((located cfg t).map (·.2)) := by
  rw [leftOrder, located, List.map_cons]
  exact (List.perm_append_comm (l₂ := [rootOf t])).trans ((leftFrames_perm ..).cons _)

theorem lastStop_stepsAt (cfg : Config) (t : Tx) :
    isLastStepStopOp ((frames t).map (nodeOf cfg)) = true ↔
      ∃ f st, (frames t).getLast? = some f ∧
        (stepsAt ((frames t).map (nodeOf cfg)) f.index).getLast? = some st ∧ st.op = 0 := by
  unfold isLastStepStopOp
  rw [List.getLast?_map]
  cases hl : (frames t).getLast? with
  | none => simp
  | some f =>
    have hf : f ∈ frames t := List.mem_of_getLast? hl
    have hs : stepsAt ((frames t).map (nodeOf cfg)) f.index = (nodeOf cfg f).trace.steps := by
      rw [stepsAt_frame cfg t f hf, nodeOf_steps]
    simp only [Option.map_some, Option.some.injEq]
    constructor
    · intro h
      cases hst : (nodeOf cfg f).trace.steps.getLast? with
      | none => rw [hst] at h; simp at h
      | some st =>
        rw [hst] at h
        exact ⟨f, st, rfl, by rw [hs, hst], (isStop_iff st).1 h⟩
    · rintro ⟨g, st, rfl, h1, h2⟩
      rw [hs] at h1
      rw [h1]
      exact (isStop_iff st).2 h2

/-- **C29, exactly.** For every execution and configuration: in the STOP case the `vmTrace` is empty.
Otherwise it is the last of a list of traces, one for each shown frame in the order in which the frames
are left; each lists the recorded steps of its frame, and gives the oldest traces that were not given
away before to the CALL- and CREATE-like steps of its frame (which are not always the traces of the
frames these steps entered, see the refutations). -/
theorem C29_exact (cfg : Config) (t : Tx) (hwf : t.WF) (hsafe : Safe cfg t.body) :
    ∃ s v, TI.run cfg TI.new t.events = .ok s ∧ vmTrace s.arena = .ok v ∧
      (StopCase cfg t (stepsAt s.arena) → v = .mk [] []) ∧
      (¬ StopCase cfg t (stepsAt s.arena) → ∃ V : List VmTrace,
        V.length = (leftOrder cfg t).length ∧ V.getLast? = some v ∧
        TracesOf (stepsAt s.arena) (leftOrder cfg t) V) := by
  obtain ⟨s, hr, _, ha, _⟩ := run_frames cfg t hwf hsafe
  have he := vmTrace_eq cfg t hwf _ _ (vmNodes_run cfg t hwf)
  refine ⟨s, _, hr, by rw [ha]; exact he, ?_, ?_⟩
  · rw [ha, StopCase, ← lastStop_stepsAt, dfs_walkLeft]
    rintro ⟨h1, e, hm, st, h2, h3⟩
    rw [h1]
    have hmem : e.2 ∈ leftOrder cfg t := (leftOrder_perm cfg t).mem_iff.2 (List.mem_map_of_mem hm)
    rw [leftOrder, List.mem_append, List.mem_singleton] at hmem
    rcases hmem with hmem | hmem
    · rw [walkLeft_stop _ _ _ ⟨e.2, hmem, st, h2, h3⟩]
    · rw [hmem] at h2
      cases hw : walkLeft true (stepsAt ((frames t).map (nodeOf cfg))) []
          (leftFrames cfg 1 0 (valueInScope none t.hdr) 1 t.body) with
      | error ins =>
        dsimp only
        rw [walkLeft_error _ _ _ _ _ hw]
      | ok q =>
        have := (instrLoop_stop _ q st h2 h3).2
        rw [show (rootOf t).index = 0 from rfl] at this
        dsimp only
        rw [this]
  · intro hn
    rw [ha] at hn ⊢
    rw [StopCase, ← lastStop_stepsAt] at hn
    have hstop : isLastStepStopOp ((frames t).map (nodeOf cfg)) = true → ∀ f ∈ leftOrder cfg t, ∀ st,
        (stepsAt ((frames t).map (nodeOf cfg)) f.index).head? = some st → st.op ≠ 0 := by
      intro hl f hf st h1 h2
      refine hn ⟨hl, ?_⟩
      obtain ⟨e, hm, rfl⟩ := List.mem_map.1 ((leftOrder_perm cfg t).mem_iff.1 hf)
      exact ⟨e, hm, st, h1, h2⟩
    obtain ⟨V, h1, h2, h3⟩ := walkLeft_go (isLastStepStopOp ((frames t).map (nodeOf cfg)))
      (stepsAt ((frames t).map (nodeOf cfg))) (leftOrder cfg t) hstop
      (leftFrames cfg 1 0 (valueInScope none t.hdr) 1 t.body) [rootOf t] [] rfl
      (fun i f v _ hv => by simp at hv)
    simp only [List.length_nil, Nat.zero_add, List.drop_nil] at h1 h3
    rw [dfs_walkLeft, h3]
    have hroot : (leftOrder cfg t)[V.length]? = some (rootOf t) := by
      rw [h1, leftOrder, List.getElem?_append_right (Nat.le_refl _), Nat.sub_self]
      rfl
    refine ⟨V ++ [.mk [] (handOut (stepsAt ((frames t).map (nodeOf cfg)) (rootOf t).index)
      (V.drop (givenAway (callsOf (stepsAt ((frames t).map (nodeOf cfg))) (leftOrder cfg t)) V.length)))],
      ?_, ?_, tracesOf_snoc h2 _ hroot⟩
    · rw [leftOrder, List.length_append, List.length_append, h1]
      rfl
    · rw [List.getLast?_concat]
      have := instrLoop_go (isLastStepStopOp ((frames t).map (nodeOf cfg)))
        (stepsAt ((frames t).map (nodeOf cfg)) 0)
        (V.drop (givenAway (callsOf (stepsAt ((frames t).map (nodeOf cfg))) (leftOrder cfg t)) V.length)) []
        (fun h _ => hstop h (rootOf t) (by simp [leftOrder]))
      dsimp only
      rw [this]
      rfl

/-- The transaction of `C29_refuted_order`: the frames are left in the order 1, 3, 2, 0; frame 2 gets the
trace of frame 1, the root those of frames 3 and 2. -/
example : ∃ s, TI.run Config.all TI.new (VmExample.tx2 VmExample.flat VmExample.nested).events = .ok s ∧
    (leftOrder Config.all (VmExample.tx2 VmExample.flat VmExample.nested)).map (·.index) = [1, 3, 2, 0] ∧
    (List.range 4).map (givenAway (callsOf (stepsAt s.arena)
      (leftOrder Config.all (VmExample.tx2 VmExample.flat VmExample.nested)))) = [0, 0, 0, 1] ∧
    ¬ StopCase Config.all (VmExample.tx2 VmExample.flat VmExample.nested) (stepsAt s.arena) := by
  obtain ⟨s, hr, _, ha, _⟩ := run_frames Config.all (VmExample.tx2 VmExample.flat VmExample.nested)
    VmExample.wf21 (VmExample.safe21 _)
  refine ⟨s, hr, by decide +kernel, by rw [ha]; decide +kernel, ?_⟩
  rw [ha]
  rintro ⟨_, e, he, st, h1, h2⟩
  have : ∀ e ∈ located Config.all (VmExample.tx2 VmExample.flat VmExample.nested),
      ((stepsAt ((frames (VmExample.tx2 VmExample.flat VmExample.nested)).map (nodeOf Config.all))
        e.2.index).head?.map (·.op)) ≠ some 0 := by decide +kernel
  exact this e he (by rw [h1, Option.map_some, h2])

/-- The example transaction is in the STOP case. -/
example : ∃ s, TI.run Config.all TI.new Example.tx.events = .ok s ∧
    ∃ e ∈ located Config.all Example.tx, ((stepsAt s.arena e.2.index).head?.map (·.op)) = some 0 :=
  ⟨_, rfl, by decide +kernel⟩

end Verif.Props
