import Verif.Lemmas.WriterJoined
import Verif.Props.Writer
import Verif.Props.Unfused
/-!
# C134 (which arenas can be printed)
-/
namespace Verif.Props
open Spec Rec Writer

/-- **C134**, for every arena. Take an arena whose steps are not decoded and whose sub-frames come after the
frames that made them, and a sink that does not fail. If all nodes to which printing leads are there, all
entries of their ordering lists refer to something and their lines can be indented, then the arena is
printed, as if no step had been recorded; otherwise the writer panics. -/
theorem C134_any (w : Settings) (k : Sink) (nodes : List Node) (st : State)
    (hplain : ∀ x ∈ nodes, ∀ s ∈ x.trace.steps, s.decoded = none)
    (hfwd : ∀ (i : Nat) (x : Node), nodes[i]? = some x → ∀ c ∈ x.children, i < c)
    (hk : ∀ n, k.fault n = none) (hf : k.flushFails = false) (hi : st.indent < 65536) :
    (Printable nodes st.indent 0 → ∃ st' d, writeArena w k nodes st = (.ok (), st') ∧
      Unfolds (nodes.map withoutSteps) 0 d ∧ st'.out = st.out ++ printLines (d.lines w st.indent) ∧
      st'.indent = st.indent) ∧
    (¬ Printable nodes st.indent 0 → ∃ p st', writeArena w k nodes st = (.error (.panic p), st') ∧
      p ≠ .diverge) := by
  have hK : ∀ x ∈ nodes, 3 * x.ordering.length + 3 ≤ 3 * (nodes.map (·.ordering.length)).sum + 6 := by
    intro x hx
    have : x.ordering.length ≤ (nodes.map (·.ordering.length)).sum :=
      sum_le_of_mem (List.mem_map_of_mem hx)
    omega
  have h1 : 1 ≤ arenaFuel nodes := Nat.mul_pos (by omega) (by omega)
  have hb : writeArena w k nodes st =
      W.bind (writeNode w k nodes (arenaFuel nodes) 0) (fun _ => flush k) st := rfl
  have hfate := node_fate (w := w) (k := k) hK hplain hfwd nodes.length 0 st.indent (arenaFuel nodes)
    (by omega) h1 (Nat.le_refl _) hi
  constructor
  · intro hp
    rcases hfate with ⟨-, d, hu, hpr⟩ | ⟨hno, -⟩
    · rcases hpr st rfl with ⟨st', h1, h2, h3⟩ | ⟨_, _, _, _, _, n, c, hc⟩
      · refine ⟨st', d, ?_, hu, h2, h3⟩
        rw [hb]; unfold W.bind; rw [h1]; simp [flush, hf]
      · rw [hk n] at hc; simp at hc
    · exact absurd hp hno
  · intro hp
    rcases hfate with ⟨h, -⟩ | ⟨-, hfail⟩
    · exact absurd h hp
    · obtain ⟨st', e, he, ⟨p, rfl, hd⟩ | ⟨_, n, c, hc⟩⟩ :=
        (hfail.bind (f := fun _ => flush k)) st rfl
      · exact ⟨p, st', he, hd⟩
      · rw [hk n] at hc; simp at hc

/-! ### Several transactions in one recording -/

/-- An arena made of recordings, `n` being the largest number of steps of their roots and `D` a bound of
the depths. -/
structure Joined (A : List Node) (n D : Nat) : Prop where
  nonempty : A ≠ []
  child : ∀ (i : Nat) (x : Node), A[i]? = some x → ∀ c ∈ x.children, i < c ∧
    ∃ z, A[c]? = some z ∧ z.trace.depth = x.trace.depth + 1
  root : ∀ x, A[0]? = some x → x.trace.depth = 0
  plain : ∀ x ∈ A, Plain x
  depth : ∀ x ∈ A, x.trace.depth ≤ D
  logs : ∀ x ∈ A, ∀ i, .log i ∈ x.ordering → i < x.logs.length
  calls : ∀ x ∈ A, ∀ i, .call i ∈ x.ordering → i < x.children.length
  rest : ∀ x ∈ A.tail, ∀ i, .step i ∈ x.ordering → i < x.trace.steps.length
  steps : ∀ x, A[0]? = some x → ∀ m, (∀ i, .step i ∈ x.ordering → i < m) ↔ n ≤ m

theorem canon_steps {x : Node} (h : Canon x) (i : Nat) :
    .step i ∈ x.ordering ↔ i < x.trace.steps.length := by
  have : i ∈ x.ordering.filterMap stepIdx ↔ i < x.trace.steps.length := by rw [h.steps]; simp
  rw [← this, List.mem_filterMap]
  constructor
  · intro hm; exact ⟨_, hm, rfl⟩
  · rintro ⟨o, ho, he⟩
    cases o <;> simp [stepIdx] at he
    subst he; exact ho

theorem canon_logs {x : Node} (h : Canon x) (i : Nat) (hm : .log i ∈ x.ordering) : i < x.logs.length := by
  have : i ∈ x.ordering.filterMap logIdx := List.mem_filterMap.2 ⟨_, hm, rfl⟩
  rw [h.logs] at this; simpa using this

theorem canon_calls {x : Node} (h : Canon x) (i : Nat) (hm : .call i ∈ x.ordering) :
    i < x.children.length := by
  have : i ∈ x.ordering.filterMap callIdx := List.mem_filterMap.2 ⟨_, hm, rfl⟩
  rw [h.calls] at this; simpa using this

theorem joined_one {A : List Node} {n D : Nat} (hl : Links A) (hc : ∀ x ∈ A, Canon x)
    (hp : ∀ x ∈ A, Plain x) (hn : ∀ x, A[0]? = some x → x.trace.steps.length = n)
    (hD : ∀ x ∈ A, x.trace.depth ≤ D) : Joined A n D where
  nonempty := hl.nonempty
  child i x hx c hm := ⟨(links_child hl i x hx c hm).1.1, (links_child hl i x hx c hm).2⟩
  root x hx := (hl.root x hx).2
  plain := hp
  depth := hD
  logs x hx := canon_logs (hc x hx)
  calls x hx := canon_calls (hc x hx)
  rest x hx i hm := (canon_steps (hc x (List.mem_of_mem_tail hx)) i).1 hm
  steps x hx m := by
    have hcx := hc x (List.mem_of_getElem? hx)
    simp only [canon_steps hcx, hn x hx]
    constructor
    · intro h
      apply Classical.byContradiction
      intro hlt
      have := h m (by omega)
      omega
    · intro h i hi; omega

theorem joined_together {A B : List Node} {n m D : Nat} (hA : Joined A n D) (hB : Joined B m D) :
    Joined (together A B) (max n m) D := by
  obtain ⟨o, os, rfl⟩ := List.exists_cons_of_ne_nil hA.nonempty
  obtain ⟨x, xs, rfl⟩ := List.exists_cons_of_ne_nil hB.nonempty
  have hx0 : x.trace.depth = 0 := hB.root x rfl
  have ho0 : o.trace.depth = 0 := hA.root o rfl
  -- where the frames of the second are found
  have hmove : ∀ (c : Nat) (z : Node), 0 < c → (x :: xs)[c]? = some z →
      (together (o :: os) (x :: xs))[movedTo os.length c]? = some (movedNode os.length z) := by
    intro c z hc hz
    obtain ⟨c, rfl⟩ : ∃ c', c = c' + 1 := ⟨c - 1, by omega⟩
    simp only [List.getElem?_cons_succ] at hz
    simp only [movedTo, Nat.add_eq_zero_iff, Nat.one_ne_zero, and_false, if_false, together]
    rw [show c + 1 + os.length = (os.length + c) + 1 by omega, List.getElem?_cons_succ,
      List.getElem?_append_right (by omega), Nat.add_sub_cancel_left, List.getElem?_map, hz]
    rfl
  have hkeep : ∀ (c : Nat) (z : Node), 0 < c → (o :: os)[c]? = some z →
      (together (o :: os) (x :: xs))[c]? = some z := by
    intro c z hc hz
    obtain ⟨c, rfl⟩ : ∃ c', c = c' + 1 := ⟨c - 1, by omega⟩
    simp only [List.getElem?_cons_succ] at hz
    have : c < os.length := by
      apply Classical.byContradiction; intro hcc
      rw [List.getElem?_eq_none (by omega)] at hz; simp at hz
    simp only [together]
    rw [List.getElem?_cons_succ, List.getElem?_append_left this, hz]
  have hmem : ∀ y ∈ os ++ xs.map (movedNode os.length), y ∈ os ∨ ∃ z ∈ xs, y = movedNode os.length z := by
    intro y hy
    simp only [List.mem_append, List.mem_map] at hy
    rcases hy with hy | ⟨z, hz, rfl⟩
    · exact Or.inl hy
    · exact Or.inr ⟨z, hz, rfl⟩
  refine ⟨by simp [together], ?_, ?_, ?_, ?_, ?_, ?_, ?_, ?_⟩
  · -- children
    intro i y hy c hc
    cases i with
    | zero =>
      simp only [together, List.getElem?_cons_zero, Option.some.injEq] at hy
      subst hy
      simp only [sharedRoot, List.mem_append, List.mem_map] at hc
      rcases hc with hc | ⟨c', hc', rfl⟩
      · obtain ⟨h1, z, hz, hd⟩ := hA.child 0 o rfl c hc
        exact ⟨h1, z, hkeep c z h1 hz, by simp only [sharedRoot]; omega⟩
      · obtain ⟨h1, z, hz, hd⟩ := hB.child 0 x rfl c' hc'
        refine ⟨?_, movedNode os.length z, hmove c' z h1 hz, ?_⟩
        · unfold movedTo; rw [if_neg (by omega)]; omega
        · simp only [sharedRoot, movedNode]; omega
    | succ i =>
      simp only [together, List.getElem?_cons_succ] at hy
      by_cases hi : i < os.length
      · rw [List.getElem?_append_left hi] at hy
        obtain ⟨h1, z, hz, hd⟩ := hA.child (i + 1) y (by simpa using hy) c hc
        exact ⟨h1, z, hkeep c z (by omega) hz, hd⟩
      · rw [List.getElem?_append_right (by omega), List.getElem?_map] at hy
        cases hz : xs[i - os.length]? with
        | none => rw [hz] at hy; simp at hy
        | some v =>
          rw [hz] at hy
          simp only [Option.map_some, Option.some.injEq] at hy
          subst hy
          simp only [movedNode, List.mem_map] at hc
          obtain ⟨c', hc', rfl⟩ := hc
          obtain ⟨h1, z, hz', hd⟩ := hB.child (i - os.length + 1) v (by simpa using hz) c' hc'
          refine ⟨?_, movedNode os.length z, hmove c' z (by omega) hz', ?_⟩
          · unfold movedTo; rw [if_neg (by omega)]; omega
          · simp only [movedNode]; exact hd
  · intro y hy
    simp only [together, List.getElem?_cons_zero, Option.some.injEq] at hy
    subst hy
    exact hx0
  · intro y hy
    simp only [together, List.mem_cons] at hy
    rcases hy with rfl | hy
    · exact hB.plain x (by simp)
    · rcases hmem y hy with h | ⟨z, hz, rfl⟩
      · exact hA.plain y (by simp [h])
      · exact hB.plain z (by simp [hz])
  · intro y hy
    simp only [together, List.mem_cons] at hy
    rcases hy with rfl | hy
    · exact hB.depth x (by simp)
    · rcases hmem y hy with h | ⟨z, hz, rfl⟩
      · exact hA.depth y (by simp [h])
      · exact hB.depth z (by simp [hz])
  · intro y hy i hi
    simp only [together, List.mem_cons] at hy
    rcases hy with rfl | hy
    · simp only [sharedRoot, List.mem_append, List.mem_map, List.length_append] at hi ⊢
      rcases hi with hi | ⟨e, he, hi⟩
      · have := hA.logs o (by simp) i hi; omega
      · cases e <;> simp [movedMember] at hi
        have := hB.logs x (by simp) _ he
        omega
    · rcases hmem y hy with h | ⟨z, hz, rfl⟩
      · exact hA.logs y (by simp [h]) i hi
      · exact hB.logs z (by simp [hz]) i hi
  · intro y hy i hi
    simp only [together, List.mem_cons] at hy
    rcases hy with rfl | hy
    · simp only [sharedRoot, List.mem_append, List.mem_map, List.length_append, List.length_map] at hi ⊢
      rcases hi with hi | ⟨e, he, hi⟩
      · have := hA.calls o (by simp) i hi; omega
      · cases e <;> simp [movedMember] at hi
        have := hB.calls x (by simp) _ he
        omega
    · rcases hmem y hy with h | ⟨z, hz, rfl⟩
      · exact hA.calls y (by simp [h]) i hi
      · have := hB.calls z (by simp [hz]) i hi
        simpa [movedNode] using this
  · intro y hy i hi
    simp only [together, List.tail_cons] at hy
    rcases hmem y hy with h | ⟨z, hz, rfl⟩
    · exact hA.rest y (by simpa using h) i hi
    · exact hB.rest z (by simpa using hz) i hi
  · intro y hy l
    simp only [together, List.getElem?_cons_zero, Option.some.injEq] at hy
    subst hy
    have h1 := hA.steps o rfl l
    have h2 := hB.steps x rfl l
    rw [Nat.max_le, ← h1, ← h2]
    simp only [sharedRoot, List.mem_append, List.mem_map]
    constructor
    · intro h
      exact ⟨fun i hi => h i (Or.inl hi), fun i hi => h i (Or.inr ⟨_, hi, rfl⟩)⟩
    · rintro ⟨ha, hb⟩ i (hi | ⟨e, he, hi⟩)
      · exact ha i hi
      · cases e <;> simp [movedMember] at hi
        subst hi
        exact hb _ he

/-- The nodes to which printing leads are at the depth at which they are printed. -/
theorem joined_leads {A : List Node} {n D : Nat} (h : Joined A n D) {idx i d : Nat}
    (hl : LeadsTo A idx i d) : ∀ x, A[idx]? = some x →
      ∃ y, A[i]? = some y ∧ y.trace.depth = x.trace.depth + d := by
  induction hl with
  | here idx => intro x hx; exact ⟨x, hx, rfl⟩
  | into hx hm hc _ ih =>
    intro x' hx'
    rw [hx] at hx'
    cases hx'
    obtain ⟨_, z, hz, hd⟩ := h.child _ _ hx _ (List.mem_of_getElem? hc)
    obtain ⟨y, hy, hyd⟩ := ih z hz
    exact ⟨y, hy, by omega⟩

theorem joined_printable {A : List Node} {n D level : Nat} (h : Joined A n D) (hD : level + D + 1 < 65536)
    {x : Node} (hx : A[0]? = some x) : Printable A level 0 ↔ n ≤ x.trace.steps.length := by
  rw [← h.steps x hx]
  constructor
  · intro hp i hi
    obtain ⟨-, y, hy, href⟩ := hp 0 0 (.here 0)
    rw [hx] at hy
    cases hy
    exact href _ hi
  · intro hs i d hl
    obtain ⟨y, hy, hd⟩ := joined_leads h hl x hx
    have h1 := h.depth y (List.mem_of_getElem? hy)
    refine ⟨by omega, y, hy, ?_⟩
    intro o ho
    cases o with
    | log j => exact h.logs y (List.mem_of_getElem? hy) j ho
    | call j => exact h.calls y (List.mem_of_getElem? hy) j ho
    | step j =>
      cases i with
      | zero => rw [hx] at hy; cases hy; exact hs j ho
      | succ i =>
        refine h.rest y ?_ j ho
        have : A.tail[i]? = some y := by rw [List.getElem?_tail]; exact hy
        exact List.mem_of_getElem? this

theorem root_together {A B : List Node} (hA : A ≠ []) {y : Node} (hy : B[0]? = some y) :
    ∃ x, (together A B)[0]? = some x ∧ x.trace.steps = y.trace.steps := by
  obtain ⟨o, os, rfl⟩ := List.exists_cons_of_ne_nil hA
  cases B with
  | nil => simp at hy
  | cons b bs =>
    simp only [List.getElem?_cons_zero, Option.some.injEq] at hy
    subst hy
    exact ⟨_, rfl, rfl⟩

theorem joined_all {D : Nat} (f : Tx → List Node) (n : Tx → Nat) : ∀ (ts : List Tx) (A : List Node) (m l : Nat),
    Joined A m D → (∀ x, A[0]? = some x → x.trace.steps.length = l) →
    (∀ u ∈ ts, Joined (f u) (n u) D ∧ ∀ x, (f u)[0]? = some x → x.trace.steps.length = n u) →
    ∃ m', Joined ((ts.map f).foldl together A) m' D ∧
      (∀ b, m' ≤ b ↔ m ≤ b ∧ ∀ u ∈ ts, n u ≤ b) ∧
      ∀ x, ((ts.map f).foldl together A)[0]? = some x → x.trace.steps.length = (ts.map n).getLastD l := by
  intro ts
  induction ts with
  | nil => intro A m l hA hl _; exact ⟨m, hA, by simp, hl⟩
  | cons t ts ih =>
    intro A m l hA hl hall
    obtain ⟨hB, hBl⟩ := hall t (by simp)
    obtain ⟨y, ys, hy⟩ := List.exists_cons_of_ne_nil hB.nonempty
    have hy0 : (f t)[0]? = some y := by rw [hy]; rfl
    obtain ⟨m', h1, h2, h3⟩ := ih (together A (f t)) (max m (n t)) (n t) (joined_together hA hB)
      (by
        intro x hx
        obtain ⟨x', hx', he⟩ := root_together hA.nonempty hy0
        rw [hx] at hx'
        cases hx'
        rw [he]
        exact hBl y hy0)
      (fun u hu => hall u (by simp [hu]))
    refine ⟨m', h1, ?_, ?_⟩
    · intro b
      rw [h2 b, Nat.max_le]
      simp only [List.mem_cons, forall_eq_or_imp, and_assoc]
    · intro x hx
      rw [h3 x hx]
      simp only [List.map_cons]
      cases ts with
      | nil => rfl
      | cons u us => simp [List.getLastD]

/-- **C134**, after several transactions. If an inspector records transactions without `fuse` in between,
then what it holds is printed if no transaction has recorded more steps in its root than the last one;
otherwise the writer panics. (The sink does not fail, and the frames are not nested deeper than the
indentation level can count.) -/
theorem C134_unfused (cfg : Config) (t : Tx) (ts : List Tx) (w : Settings) (k : Sink) (st : State)
    (hall : ∀ u ∈ t :: ts, u.WF ∧ Safe cfg u.body)
    (hk : ∀ n, k.fault n = none) (hf : k.flushFails = false)
    (hdep : ∀ u ∈ t :: ts, ∀ f ∈ frames u, st.indent + f.depth + 1 < 65536) :
    ∃ s, TI.run cfg TI.new ((t :: ts).flatMap Tx.events) = .ok s ∧
      ((∀ u ∈ t :: ts, rootSteps cfg u ≤ rootSteps cfg ((t :: ts).getLast (by simp))) →
        ∃ st' d, writeArena w k s.arena st = (.ok (), st') ∧ Unfolds (s.arena.map withoutSteps) 0 d ∧
          st'.out = st.out ++ printLines (d.lines w st.indent) ∧ st'.indent = st.indent) ∧
      (¬ (∀ u ∈ t :: ts, rootSteps cfg u ≤ rootSteps cfg ((t :: ts).getLast (by simp))) →
        ∃ p st', writeArena w k s.arena st = (.error (.panic p), st') ∧ p ≠ .diverge) := by
  have hone : ∀ u, u ∈ t :: ts → ∃ s, TI.run cfg TI.new u.events = .ok s ∧
      Joined s.arena (rootSteps cfg u) (65534 - st.indent) ∧
      ∀ x, s.arena[0]? = some x → x.trace.steps.length = rootSteps cfg u := by
    intro u hu
    obtain ⟨hwf, hsafe⟩ := hall u hu
    obtain ⟨s, hr, _, har, _⟩ := run_frames cfg u hwf hsafe
    obtain ⟨s', hr', _, hC5⟩ := C05_ordering_is_execution_order cfg u hwf hsafe
    rw [hr] at hr'
    cases hr'
    have hsteps : ∀ x, s.arena[0]? = some x → x.trace.steps.length = rootSteps cfg u := by
      intro x hx
      have := (hC5 0 (rootOf u) x rfl hx).2.1
      have := congrArg List.length this
      rw [List.length_map] at this
      exact this
    refine ⟨s, hr, joined_one (C04_links cfg _ s hr) (run_kept (canon_kept cfg) (events_tail u) hr)
      (run_kept (plain_kept cfg) (events_tail u) hr) hsteps ?_, hsteps⟩
    intro y hy
    rw [har, List.mem_map] at hy
    obtain ⟨f, hf, rfl⟩ := hy
    have h1 := hdep u hu f hf
    have h2 : (nodeOf cfg f).trace.depth = f.depth := congrArg FrameData.depth (nodeOf_readFrame cfg f)
    rw [h2]; omega
  have hroot := hdep t (by simp) (rootOf t) (by simp [frames, rootOf])
  let r : Tx → TI := fun u => match TI.run cfg TI.new u.events with
    | .ok s => s
    | .error _ => TI.new
  have hr : ∀ u s, TI.run cfg TI.new u.events = .ok s → r u = s := by
    intro u s h; simp only [r, h]
  obtain ⟨s, hs, -, har⟩ := C120_exact cfg r t ts (fun u hu => by
    obtain ⟨s, h, -⟩ := hone u hu
    exact ⟨hall u hu, by rw [hr u s h]; exact h⟩)
  obtain ⟨s1, hs1, hJ, hl⟩ := hone t (by simp)
  obtain ⟨m, h1, h2, h3⟩ := joined_all (D := 65534 - st.indent) (fun u => (r u).arena) (rootSteps cfg) ts
    (r t).arena (rootSteps cfg t) (rootSteps cfg t) (by rw [hr t s1 hs1]; exact hJ)
    (by rw [hr t s1 hs1]; exact hl) (fun u hu => by
      obtain ⟨su, hsu, hJu, hlu⟩ := hone u (by simp [hu])
      rw [hr u su hsu]; exact ⟨hJu, hlu⟩)
  rw [← har] at h1 h3
  obtain ⟨x, xs, hx⟩ := List.exists_cons_of_ne_nil h1.nonempty
  have hx0 : s.arena[0]? = some x := by rw [hx]; rfl
  have hlast : (ts.map (rootSteps cfg)).getLastD (rootSteps cfg t) =
      rootSteps cfg ((t :: ts).getLast (by simp)) := by
    have : ∀ (l : List Tx) (a : Tx), (l.map (rootSteps cfg)).getLastD (rootSteps cfg a) =
        rootSteps cfg ((a :: l).getLast (by simp)) := by
      intro l
      induction l with
      | nil => intro a; rfl
      | cons b l ih => intro a; rw [List.getLast_cons (by simp), ← ih b, List.map_cons, List.getLastD_cons]
    exact this ts t
  have hiff : Printable s.arena st.indent 0 ↔
      ∀ u ∈ t :: ts, rootSteps cfg u ≤ rootSteps cfg ((t :: ts).getLast (by simp)) := by
    rw [joined_printable h1 (by omega) hx0, h3 x hx0, hlast, h2]
    simp only [List.mem_cons, forall_eq_or_imp]
  rw [← hiff]
  exact ⟨s, hs, C134_any w k s.arena st (fun y hy => h1.plain y hy)
    (fun i y hy c hc => (h1.child i y hy c hc).1) hk hf (by omega)⟩

/-! ### The text of several transactions -/

theorem notStep_filter (l : List TraceMemberOrder) : ∀ o ∈ l.filter notStep, notStep o = true := by
  intro o ho; exact (List.mem_filter.1 ho).2

theorem filter_moved (c l : Nat) (os : List TraceMemberOrder) :
    (os.map (movedMember c l)).filter notStep = (os.filter notStep).map (movedMember c l) := by
  induction os with
  | nil => rfl
  | cons o os ih => cases o <;> simpa [movedMember, notStep, List.filter_cons] using ih

theorem doc_together {A B : List Node} {a b : Doc} (ha : Unfolds (A.map withoutSteps) 0 a)
    (hb : Unfolds (B.map withoutSteps) 0 b) :
    ∃ d, Unfolds ((together A B).map withoutSteps) 0 d ∧ d.rootTrace = b.rootTrace ∧
      ∀ w level, d.inside w level = a.inside w level ++ b.inside w level := by
  obtain ⟨xa, ia⟩ := a
  obtain ⟨xb, ib⟩ := b
  simp only [Unfolds] at ha hb
  cases A with
  | nil => simp at ha
  | cons o os =>
  cases B with
  | nil => simp at hb
  | cons x xs =>
  obtain ⟨ha0, ha⟩ := ha
  obtain ⟨hb0, hb⟩ := hb
  simp only [List.map_cons, List.getElem?_cons_zero, Option.some.injEq] at ha0 hb0
  subst ha0 hb0
  have hmove : ∀ (i : Nat) (z : Node), 0 < i → ((x :: xs).map withoutSteps)[i]? = some z →
      ((together (o :: os) (x :: xs)).map withoutSteps)[movedTo os.length i]? =
        some (movedNode os.length z) := by
    intro c z hc hz
    obtain ⟨c, rfl⟩ : ∃ c', c = c' + 1 := ⟨c - 1, by omega⟩
    simp only [List.map_cons, List.getElem?_cons_succ, List.getElem?_map] at hz
    cases hz' : xs[c]? with
    | none => rw [hz'] at hz; simp at hz
    | some v =>
      rw [hz'] at hz
      simp only [Option.map_some, Option.some.injEq] at hz
      subst hz
      simp only [movedTo, Nat.add_eq_zero_iff, Nat.one_ne_zero, and_false, if_false, together,
        List.map_cons, List.map_append]
      rw [show c + 1 + os.length = (os.length + c) + 1 by omega, List.getElem?_cons_succ,
        List.getElem?_append_right (by simp), List.length_map, Nat.add_sub_cancel_left, List.getElem?_map,
        List.getElem?_map, hz']
      rfl
  have hkeep : ∀ (i : Nat) (z : Node), 0 < i → ((o :: os).map withoutSteps)[i]? = some z →
      ((together (o :: os) (x :: xs)).map withoutSteps)[i]? = some z := by
    intro c z hc hz
    obtain ⟨c, rfl⟩ : ∃ c', c = c' + 1 := ⟨c - 1, by omega⟩
    simp only [List.map_cons, List.getElem?_cons_succ] at hz
    have : c < (os.map withoutSteps).length := by
      apply Classical.byContradiction; intro hcc
      rw [List.getElem?_eq_none (by omega)] at hz; simp at hz
    simp only [together, List.map_cons, List.map_append]
    rw [List.getElem?_cons_succ, List.getElem?_append_left this, hz]
  have h2 := items_second (X := withoutSteps (sharedRoot os.length o x)) (x := withoutSteps x)
    (ls := o.logs) (cs := o.children) rfl rfl hmove _ (notStep_filter _) ib hb
  obtain ⟨all, hall, hl⟩ := items_first (X := withoutSteps (sharedRoot os.length o x)) (x := withoutSteps o)
    (ls := x.logs) (cs := x.children.map (movedTo os.length)) rfl rfl hkeep h2 _ (notStep_filter _) ia ha
  refine ⟨.mk (withoutSteps (sharedRoot os.length o x)) all, ?_, rfl, ?_⟩
  · simp only [Unfolds]
    refine ⟨rfl, ?_⟩
    have : (withoutSteps (sharedRoot os.length o x)).ordering = (withoutSteps o).ordering ++
        (withoutSteps x).ordering.map (movedMember o.children.length o.logs.length) := by
      simp only [withoutSteps, sharedRoot, List.filter_append, filter_moved]
    rw [this]
    exact hall
  · intro w level
    simp only [Doc.inside]
    rw [hl w _ (withoutSteps o), movedItems_lines w os.length ib (withoutSteps x)
      (withoutSteps (sharedRoot os.length o x)) rfl]

theorem docs_together (f : Tx → List Node) (g : Tx → Doc) : ∀ (ts : List Tx) (A : List Node) (a : Doc),
    Unfolds (A.map withoutSteps) 0 a → (∀ u ∈ ts, Unfolds ((f u).map withoutSteps) 0 (g u)) →
    ∃ d, Unfolds (((ts.map f).foldl together A).map withoutSteps) 0 d ∧
      d.rootTrace = (ts.map fun u => (g u).rootTrace).getLastD a.rootTrace ∧
      ∀ w level, d.inside w level = a.inside w level ++ ts.flatMap fun u => (g u).inside w level := by
  intro ts
  induction ts with
  | nil => intro A a ha _; exact ⟨a, ha, rfl, by simp⟩
  | cons t ts ih =>
    intro A a ha hall
    obtain ⟨d1, h1, h2, h3⟩ := doc_together ha (hall t (by simp))
    obtain ⟨d, h4, h5, h6⟩ := ih _ d1 h1 (fun u hu => hall u (by simp [hu]))
    refine ⟨d, h4, ?_, ?_⟩
    · rw [h5, h2, List.map_cons, List.getLastD_cons]
    · intro w level
      rw [h6, h3, List.flatMap_cons, List.append_assoc]

/-- **C134**, the text. Let each of the transactions have a recording of its own, which is read as a document
(without the steps, of which nothing is printed). What is printed for the recording of all of them
(`C134_unfused`) is the first and the last line of the last root, and between them what is printed inside
the root of each transaction, in order. -/
theorem C134_text (cfg : Config) (t : Tx) (ts : List Tx) (r : Tx → TI) (docs : Tx → Doc)
    (hall : ∀ u ∈ t :: ts, (u.WF ∧ Safe cfg u.body) ∧ TI.run cfg TI.new u.events = .ok (r u) ∧
      Unfolds ((r u).arena.map withoutSteps) 0 (docs u)) :
    ∃ s, TI.run cfg TI.new ((t :: ts).flatMap Tx.events) = .ok s ∧
      ∀ d, Unfolds (s.arena.map withoutSteps) 0 d → ∀ w level, d.lines w level =
        ⟨level, .branch, headerText w (docs ((t :: ts).getLast (by simp))).rootTrace⟩ ::
          (((t :: ts).flatMap fun u => (docs u).inside w level) ++
            [⟨level + 1, .edge, footerText w (docs ((t :: ts).getLast (by simp))).rootTrace⟩]) := by
  obtain ⟨s, hs, -, har⟩ := C120_exact cfg r t ts (fun u hu => ⟨(hall u hu).1, (hall u hu).2.1⟩)
  obtain ⟨d0, h1, h2, h3⟩ := docs_together (fun u => (r u).arena) docs ts (r t).arena (docs t)
    (hall t (by simp)).2.2 (fun u hu => (hall u (by simp [hu])).2.2)
  rw [← har] at h1
  refine ⟨s, hs, ?_⟩
  intro d hd w level
  have he : d = d0 := (unfolds_unique _ (sizeOf d + 1)).1 d (Nat.lt_succ_self _) 0 d0 hd h1
  subst he
  have hlast : (ts.map fun u => (docs u).rootTrace).getLastD (docs t).rootTrace =
      (docs ((t :: ts).getLast (by simp))).rootTrace := by
    have : ∀ (l : List Tx) (a : Tx), (l.map fun u => (docs u).rootTrace).getLastD (docs a).rootTrace =
        (docs ((a :: l).getLast (by simp))).rootTrace := by
      intro l
      induction l with
      | nil => intro a; rfl
      | cons b l ih => intro a; rw [List.getLast_cons (by simp), ← ih b, List.map_cons, List.getLastD_cons]
    exact this ts t
  rw [← hlast, ← h2, List.flatMap_cons, ← h3]
  obtain ⟨x, items⟩ := d
  rfl

/-! ### Concrete cases -/

/-- The transaction of C51 without its last two steps. -/
def shorterTx : Tx where
  hdr := writerTx.hdr
  body := .act (Example.stepAct Op.ADD 0 500)
    (.act (Example.stepAct Op.CALL 1 490 .CallOrCreate)
      (.sub (Example.callHdr .Call 0xa 0xb 0xb 6) (.act (.log Example.ctx ⟨0xb, [1, 2], [9]⟩) .nil)
        (Example.out .Return) .nil))
  out := Example.out .Stop

theorem shorterTx_wf : shorterTx.WF :=
  ⟨fun _ => rfl, fun h => absurd h (by decide), ⟨fun _ => rfl, fun h => absurd h (by decide), trivial,
    trivial⟩⟩

theorem shorterTx_safe : Safe writerConfig shorterTx.body :=
  ⟨Example.stepSafe _ _ _ _ (by decide), Example.stepSafe _ _ _ _ (by decide), trivial, trivial⟩

/-- The roots have recorded two and four steps. -/
theorem shorter_steps : rootSteps writerConfig shorterTx = 2 ∧ rootSteps writerConfig writerTx = 4 := by
  decide

/-- The part of **C134** that holds: two transactions are printed if the first recorded no more steps in its
root than the second. The shorter transaction before the longer one meets the hypotheses. -/
theorem C134_two_partial (cfg : Config) (t1 t2 : Tx) (w : Settings) (k : Sink) (st : State)
    (h1 : t1.WF ∧ Safe cfg t1.body) (h2 : t2.WF ∧ Safe cfg t2.body)
    (hk : ∀ n, k.fault n = none) (hf : k.flushFails = false)
    (hd1 : ∀ f ∈ frames t1, st.indent + f.depth + 1 < 65536)
    (hd2 : ∀ f ∈ frames t2, st.indent + f.depth + 1 < 65536)
    (hle : rootSteps cfg t1 ≤ rootSteps cfg t2) :
    ∃ s st', TI.run cfg TI.new (t1.events ++ t2.events) = .ok s ∧
      writeArena w k s.arena st = (.ok (), st') ∧ st'.indent = st.indent := by
  obtain ⟨s, hs, hp, -⟩ := C134_unfused cfg t1 [t2] w k st (by simp [h1, h2]) hk hf (by simpa using ⟨hd1, hd2⟩)
  obtain ⟨st', d, h, -, -, hi⟩ := hp (by simpa using hle)
  exact ⟨s, st', by simpa using hs, h, hi⟩

example : ∃ s st', TI.run writerConfig TI.new (shorterTx.events ++ writerTx.events) = .ok s ∧
    writeArena plainWriter goodSink s.arena {} = (.ok (), st') ∧ st'.indent = 0 :=
  C134_two_partial writerConfig shorterTx writerTx plainWriter goodSink {} ⟨shorterTx_wf, shorterTx_safe⟩
    ⟨writerTx_wf, writerTx_safe⟩ (fun _ => rfl) rfl (by decide) (by decide) (by decide)

/-- The two transactions have recordings and documents as `C134_text` asks for. -/
example : ∃ (r : Tx → TI) (docs : Tx → Doc), ∀ u ∈ [shorterTx, writerTx],
    (u.WF ∧ Safe writerConfig u.body) ∧ TI.run writerConfig TI.new u.events = .ok (r u) ∧
      Unfolds ((r u).arena.map withoutSteps) 0 (docs u) := by
  have key : ∀ u, u.WF → Safe writerConfig u.body → (∀ f ∈ frames u, 0 + f.depth + 1 < 65536) →
      ∃ p : TI × Doc, TI.run writerConfig TI.new u.events = .ok p.1 ∧
        Unfolds (p.1.arena.map withoutSteps) 0 p.2 := by
    intro u h1 h2 h3
    obtain ⟨s, hs, hp, -⟩ := C134_unfused writerConfig u [] plainWriter goodSink {} (by simp [h1, h2])
      (fun _ => rfl) rfl (by simpa using h3)
    obtain ⟨_, d, -, hd, -⟩ := hp (by simp)
    exact ⟨(s, d), by simpa using hs, hd⟩
  have h : ∀ u, ∃ p : TI × Doc, u ∈ [shorterTx, writerTx] →
      TI.run writerConfig TI.new u.events = .ok p.1 ∧ Unfolds (p.1.arena.map withoutSteps) 0 p.2 := by
    intro u
    by_cases hu : u ∈ [shorterTx, writerTx]
    · simp only [List.mem_cons, List.not_mem_nil, or_false] at hu
      rcases hu with rfl | rfl
      · obtain ⟨p, hp⟩ := key _ shorterTx_wf shorterTx_safe (by decide)
        exact ⟨p, fun _ => hp⟩
      · obtain ⟨p, hp⟩ := key _ writerTx_wf writerTx_safe (by decide)
        exact ⟨p, fun _ => hp⟩
    · exact ⟨(TI.new, .mk {} .nil), fun h => absurd h hu⟩
  obtain ⟨g, hg⟩ := Classical.axiomOfChoice h
  refine ⟨fun u => (g u).1, fun u => (g u).2, fun u hu => ⟨?_, hg u hu⟩⟩
  simp only [List.mem_cons, List.not_mem_nil, or_false] at hu
  rcases hu with rfl | rfl
  · exact ⟨shorterTx_wf, shorterTx_safe⟩
  · exact ⟨writerTx_wf, writerTx_safe⟩

set_option maxRecDepth 20000 in
/-- What is printed for the shorter transaction and the longer one after it: the two sub-calls, in the frame of
the second root. -/
example : (match TI.run writerConfig TI.new (shorterTx.events ++ writerTx.events) with
    | .ok s => glyphText (writeArena plainWriter goodSink s.arena {}).2.out
    | .error _ => "") =
"  [550] 0x0a::01020304{value: 11}(05)
    ├─ [600] 0x0b::01020304{value: 6}(05)
    │   ├─  emit topic 0: 0x0000000000000000000000000000000000000000000000000000000000000001
    │   │        topic 1: 0x0000000000000000000000000000000000000000000000000000000000000002
    │   │           data: 0x09
    │   └─ ← [Return] 0x0708
    ├─ [600] 0x0b::01020304{value: 6}(05)
    │   ├─  emit topic 0: 0x0000000000000000000000000000000000000000000000000000000000000001
    │   │        topic 1: 0x0000000000000000000000000000000000000000000000000000000000000002
    │   │           data: 0x09
    │   └─ ← [Return] 0x0708
    └─ ← [Stop] 0x0708
" := by
  decide +kernel

/-- **C134** does not hold: the longer transaction before the shorter one makes the writer panic. -/
theorem C134_refuted : ∃ (t1 t2 : Tx) (s : TI), t1.WF ∧ Safe writerConfig t1.body ∧
    t2.WF ∧ Safe writerConfig t2.body ∧ TI.run writerConfig TI.new (t1.events ++ t2.events) = .ok s ∧
    ∃ p st', writeArena plainWriter goodSink s.arena {} = (.error (.panic p), st') := by
  obtain ⟨s, hs, -, hp⟩ := C134_unfused writerConfig writerTx [shorterTx] plainWriter goodSink {}
    (by simp [writerTx_wf, writerTx_safe, shorterTx_wf, shorterTx_safe]) (fun _ => rfl) rfl (by decide)
  obtain ⟨p, st', h, -⟩ := hp (by
    intro h
    have := h writerTx (by simp)
    simp only [List.getLast_cons_cons, List.getLast_singleton, shorter_steps] at this
    omega)
  exact ⟨_, _, s, writerTx_wf, writerTx_safe, shorterTx_wf, shorterTx_safe, by simpa using hs, p, st', h⟩

end Verif.Props
