import Verif.Lemmas.Writer
/-! Helper lemmas: the writer with and without colours. -/
namespace Verif
open Spec
namespace Writer

/-- The second run has written what the first has, without escape sequences. -/
def Sim (m1 m2 : W α) : Prop := ∀ s1 s2 : State, s1.indent = s2.indent → s2.out = dropColors s1.out →
  (m1 s1).1 = (m2 s2).1 ∧ (m1 s1).2.indent = (m2 s2).2.indent ∧
    (m2 s2).2.out = dropColors (m1 s1).2.out

theorem Sim.bind {m1 m2 : W α} {f1 f2 : α → W β} (h : Sim m1 m2) (hf : ∀ a, Sim (f1 a) (f2 a)) :
    Sim (m1 >>= f1) (m2 >>= f2) := by
  intro s1 s2 hi ho
  have hb1 : (m1 >>= f1) s1 = W.bind m1 f1 s1 := rfl
  have hb2 : (m2 >>= f2) s2 = W.bind m2 f2 s2 := rfl
  rw [hb1, hb2]
  unfold W.bind
  obtain ⟨h1, h2, h3⟩ := h s1 s2 hi ho
  cases e1 : m1 s1 with
  | mk r1 t1 =>
    cases e2 : m2 s2 with
    | mk r2 t2 =>
      rw [e1, e2] at h1 h2 h3
      simp only at h1 h2 h3
      subst h1
      cases r1 with
      | ok a => exact hf a t1 t2 h2 h3
      | error e => exact ⟨rfl, h2, h3⟩

theorem Sim.pure (a : α) : Sim (pure a : W α) (pure a) := fun _ _ hi ho => ⟨rfl, hi, ho⟩
theorem Sim.panic (p : Panic) : Sim (panic p : W α) (panic p) := fun _ _ hi ho => ⟨rfl, hi, ho⟩

theorem Sim.index (l : List α) (i : Nat) : Sim (index l i) (index l i) := by
  intro s1 s2 hi ho
  unfold Writer.index
  cases l[i]? <;> exact ⟨rfl, hi, ho⟩

theorem Sim.getIndent : Sim getIndent getIndent := by
  intro s1 s2 hi ho
  exact ⟨by simp [Writer.getIndent, hi], hi, ho⟩

theorem Sim.indentUp : Sim indentUp indentUp := by
  intro s1 s2 hi ho
  unfold Writer.indentUp
  rw [hi]
  split
  · exact ⟨rfl, by simp, ho⟩
  · exact ⟨rfl, hi, ho⟩

theorem Sim.indentDown : Sim indentDown indentDown := by
  intro s1 s2 hi ho
  unfold Writer.indentDown
  rw [hi]
  split
  · exact ⟨rfl, hi, ho⟩
  · exact ⟨rfl, by simp, ho⟩

theorem dropColors_append (a b : List Glyph) : dropColors (a ++ b) = dropColors a ++ dropColors b := by
  simp [dropColors]

theorem dropColors_txt (s : String) : dropColors (txt s) = txt s := by
  unfold dropColors txt
  rw [List.filter_eq_self]
  intro g hg
  rw [List.mem_map] at hg
  obtain ⟨c, _, rfl⟩ := hg
  rfl

theorem Sim.emit {k : Sink} (hk : ∀ n, k.fault n = none) {g1 g2 : List Glyph} (h : g2 = dropColors g1) :
    Sim (emit k g1) (emit k g2) := by
  intro s1 s2 hi ho
  unfold Writer.emit
  rw [hk, hk]
  exact ⟨rfl, hi, by simp only [dropColors_append]; rw [ho, h]⟩

theorem Sim.emitTxt {k : Sink} (hk : ∀ n, k.fault n = none) (s : String) :
    Sim (Writer.emit k (txt s)) (Writer.emit k (txt s)) := Sim.emit hk (dropColors_txt s).symm

theorem Sim.ite {c : Prop} [Decidable c] {a1 a2 b1 b2 : W α} (ha : Sim a1 a2) (hb : Sim b1 b2) :
    Sim (if c then a1 else b1) (if c then a2 else b2) := by
  split
  · exact ha
  · exact hb

variable {k : Sink}

theorem Sim.pipesLoop (hk : ∀ n, k.fault n = none) : ∀ n,
    Sim (writePipesLoop k n) (writePipesLoop k n) := by
  intro n
  induction n with
  | zero => exact Sim.pure _
  | succ n ih => exact (Sim.emitTxt hk _).bind fun _ => ih

theorem Sim.indentation (hk : ∀ n, k.fault n = none) : Sim (writeIndentation k) (writeIndentation k) :=
  (Sim.emitTxt hk _).bind fun _ => Sim.getIndent.bind fun _ => Sim.pipesLoop hk _

theorem Sim.branch (hk : ∀ n, k.fault n = none) : Sim (writeBranch k) (writeBranch k) :=
  (Sim.indentation hk).bind fun _ => Sim.getIndent.bind fun _ => Sim.ite (Sim.emitTxt hk _) (Sim.pure _)

theorem Sim.pipes (hk : ∀ n, k.fault n = none) : Sim (writePipes k) (writePipes k) :=
  (Sim.indentation hk).bind fun _ => Sim.emitTxt hk _

theorem Sim.edge (hk : ∀ n, k.fault n = none) : Sim (writeEdge k) (writeEdge k) :=
  (Sim.indentation hk).bind fun _ => Sim.emitTxt hk _

/-- The settings with colours switched on or off. -/
def colored (w : Settings) (b : Bool) : Settings := { w with useColors := b }

theorem drop_start (w : Settings) (t : CallTrace) :
    dropColors (traceStyle (colored w true) t).start = (traceStyle (colored w false) t).start ∧
    dropColors (traceStyle (colored w true) t).stop = (traceStyle (colored w false) t).stop ∧
    dropColors (traceKindStyle (colored w true)).start = (traceKindStyle (colored w false)).start ∧
    dropColors (traceKindStyle (colored w true)).stop = (traceKindStyle (colored w false)).stop ∧
    dropColors (logStyle (colored w true)).start = (logStyle (colored w false)).start ∧
    dropColors (logStyle (colored w true)).stop = (logStyle (colored w false)).stop := by
  have h : ∀ st : Style, dropColors st.start = [] ∧ dropColors st.stop = [] := by
    intro st; cases st <;> exact ⟨rfl, rfl⟩
  exact ⟨(h _).1, (h _).2, (h _).1, (h _).2, (h _).1, (h _).2⟩

theorem Sim.header (hk : ∀ n, k.fault n = none) (w : Settings) (t : CallTrace) :
    Sim (writeTraceHeader (colored w true) k t) (writeTraceHeader (colored w false) k t) := by
  obtain ⟨h1, h2, h3, h4, _, _⟩ := drop_start w t
  unfold writeTraceHeader
  refine (Sim.emit hk (by simp only [dropColors_append, dropColors_txt])).bind fun _ => ?_
  refine Sim.ite (Sim.emit hk ?_) ?_
  · simp only [dropColors_append, dropColors_txt, h3, h4]; rfl
  · refine (Sim.emit hk (by simp only [dropColors_append, dropColors_txt, h1, h2]; rfl)).bind fun _ => ?_
    refine (Sim.ite (Sim.emit hk (by simp only [dropColors_append, dropColors_txt])) (Sim.pure _)).bind
      fun _ => ?_
    refine (Sim.emit hk (by simp only [dropColors_append, dropColors_txt])).bind fun _ => ?_
    have ha : Sim (callAction t.kind) (callAction t.kind) := by
      cases t.kind <;> first | exact Sim.pure _ | exact Sim.panic _
    refine ha.bind fun a => ?_
    cases a with
    | none => exact Sim.pure _
    | some a => exact Sim.emit hk (by simp only [dropColors_append, dropColors_txt, h3, h4])

theorem Sim.footer (hk : ∀ n, k.fault n = none) (w : Settings) (t : CallTrace) :
    Sim (writeTraceFooter (colored w true) k t) (writeTraceFooter (colored w false) k t) := by
  obtain ⟨h1, h2, h3, h4, _, _⟩ := drop_start w t
  unfold writeTraceFooter
  refine (Sim.emit hk (by simp only [dropColors_append, dropColors_txt, h1, h2])).bind fun _ => ?_
  cases t.decoded.returnData with
  | some d => exact Sim.emitTxt hk _
  | none =>
    refine Sim.ite (Sim.emit hk (by simp only [dropColors_append, dropColors_txt])) ?_
    exact Sim.ite (Sim.emitTxt hk _) (Sim.pure _)

theorem Sim.params (hk : ∀ n, k.fault n = none) (l : List (String × String)) : ∀ i,
    Sim (writeParams k i l) (writeParams k i l) := by
  induction l with
  | nil => intro i; exact Sim.pure _
  | cons p l ih =>
    intro i
    obtain ⟨a, b⟩ := p
    simp only [writeParams]
    exact (Sim.ite (Sim.emitTxt hk _) (Sim.pure _)).bind fun _ =>
      (Sim.emit hk (by simp only [dropColors_append, dropColors_txt])).bind fun _ => ih _

theorem Sim.topics (hk : ∀ n, k.fault n = none) (w : Settings) (l : List U256) : ∀ i,
    Sim (writeTopics (colored w true) k i l) (writeTopics (colored w false) k i l) := by
  obtain ⟨_, _, _, _, h5, h6⟩ := drop_start w {}
  induction l with
  | nil => intro i; exact Sim.pure _
  | cons p l ih =>
    intro i
    simp only [writeTopics]
    refine (Sim.ite (Sim.emitTxt hk _) ((Sim.pipes hk).bind fun _ =>
      Sim.emit hk (by simp only [dropColors_append, dropColors_txt]))).bind fun _ => ?_
    exact (Sim.emit hk (by simp only [dropColors_append, dropColors_txt, h5, h6])).bind fun _ => ih _

theorem Sim.log (hk : ∀ n, k.fault n = none) (w : Settings) (l : CallLog) :
    Sim (writeLog (colored w true) k l) (writeLog (colored w false) k l) := by
  obtain ⟨_, _, _, _, h5, h6⟩ := drop_start w {}
  unfold writeLog
  refine (Sim.branch hk).bind fun _ => ?_
  cases l.decoded.name with
  | some name =>
    refine (Sim.emit hk (by simp only [dropColors_append, dropColors_txt, h5])).bind fun _ => ?_
    have hp : Sim (match l.decoded.params with
        | some params => writeParams k 0 params
        | none => Pure.pure ()) (match l.decoded.params with
        | some params => writeParams k 0 params
        | none => Pure.pure ()) := by
      cases l.decoded.params with
      | none => exact Sim.pure _
      | some ps => exact Sim.params hk ps 0
    exact hp.bind fun _ => Sim.emit hk (by simp only [dropColors_append, dropColors_txt, h6])
  | none =>
    refine (Sim.topics hk w _ 0).bind fun _ => (Sim.ite (Sim.pipes hk) (Sim.pure _)).bind fun _ => ?_
    exact Sim.emit hk (by simp only [dropColors_append, dropColors_txt, h5, h6])

theorem Sim.eval (u : Until) (x : Node) (i : Nat) : Sim (u.eval x i) (u.eval x i) := by
  cases u with
  | «at» n => exact Sim.pure _
  | step e => exact (Sim.index _ _).bind fun _ => Sim.pure _

theorem Sim.all (hk : ∀ n, k.fault n = none) (w : Settings) (nodes : List Node) : ∀ fuel,
    (∀ n i, Sim (writeItem (colored w true) k nodes fuel n i) (writeItem (colored w false) k nodes fuel n i)) ∧
    (∀ n i u, Sim (writeItemsUntil (colored w true) k nodes fuel n i u)
      (writeItemsUntil (colored w false) k nodes fuel n i u)) ∧
    (∀ n, Sim (writeNode (colored w true) k nodes fuel n) (writeNode (colored w false) k nodes fuel n)) ∧
    (∀ n i s, Sim (writeStep (colored w true) k nodes fuel n i s)
      (writeStep (colored w false) k nodes fuel n i s)) := by
  intro fuel
  induction fuel with
  | zero =>
    refine ⟨?_, ?_, ?_, ?_⟩ <;> intros <;>
      simp only [writeItem, writeItemsUntil, writeNode, writeStep] <;> exact Sim.panic _
  | succ fuel ih =>
    obtain ⟨ih1, ih2, ih3, ih4⟩ := ih
    refine ⟨?_, ?_, ?_, ?_⟩
    · intro n i
      simp only [writeItem]
      refine (Sim.index _ _).bind fun x => (Sim.index _ _).bind fun o => ?_
      cases o with
      | log j => exact (Sim.index _ _).bind fun l => (Sim.log hk w l).bind fun _ => Sim.pure _
      | call j => exact (Sim.index _ _).bind fun c => (ih3 c).bind fun _ => Sim.pure _
      | step j => exact ih4 n i j
    · intro n i u
      simp only [writeItemsUntil]
      refine (Sim.index _ _).bind fun x => (Sim.eval u x i).bind fun b => ?_
      exact Sim.ite (Sim.pure _) ((ih1 n i).bind fun j => ih2 n j u)
    · intro n
      simp only [writeNode]
      exact (Sim.index _ _).bind fun x => (Sim.branch hk).bind fun _ => (Sim.header hk w _).bind fun _ =>
        (Sim.emitTxt hk _).bind fun _ => Sim.indentUp.bind fun _ => (ih2 _ _ _).bind fun _ =>
        (Sim.edge hk).bind fun _ => (Sim.footer hk w _).bind fun _ => (Sim.emitTxt hk _).bind fun _ =>
        Sim.indentDown
    · intro n i j
      simp only [writeStep]
      refine (Sim.index _ _).bind fun x => (Sim.index _ _).bind fun s => ?_
      cases s.decoded with
      | none => exact Sim.pure _
      | some d =>
        cases d with
        | line l =>
          exact (Sim.branch hk).bind fun _ =>
            (Sim.emit hk (by simp only [dropColors_append, dropColors_txt])).bind fun _ => Sim.pure _
        | internalCall c e =>
          have hret : Sim (match c.returnData with
              | some outputs => Writer.emit k (txt (String.intercalate ", " outputs))
              | none => Pure.pure ()) (match c.returnData with
              | some outputs => Writer.emit k (txt (String.intercalate ", " outputs))
              | none => Pure.pure ()) := by
            cases c.returnData with
            | none => exact Sim.pure _
            | some r => exact Sim.emitTxt hk _
          exact (Sim.index _ _).bind fun last => (Sim.branch hk).bind fun _ => Sim.indentUp.bind fun _ =>
            (Sim.emit hk (by simp only [dropColors_append, dropColors_txt])).bind fun _ =>
            (ih2 _ _ _).bind fun _ => (Sim.edge hk).bind fun _ => (Sim.emitTxt hk _).bind fun _ =>
            hret.bind fun _ => (Sim.emitTxt hk _).bind fun _ => Sim.indentDown.bind fun _ => Sim.pure _

theorem Sim.flush : Sim (flush k) (flush k) := by
  intro s1 s2 hi ho
  unfold Writer.flush
  cases k.flushFails <;> exact ⟨rfl, hi, ho⟩

theorem Sim.arena (hk : ∀ n, k.fault n = none) (w : Settings) (nodes : List Node) :
    Sim (writeArena (colored w true) k nodes) (writeArena (colored w false) k nodes) :=
  ((Sim.all hk w nodes _).2.2.1 0).bind fun _ => Sim.flush

end Writer
end Verif
