import Verif.Props.Links
import Verif.Spec.Legal
/-!
# C01 (and what the other properties range over): the legal hook histories

The properties range over execution trees (`Tx`). Here it is proved that their sequences of hook calls are
exactly those a watcher accepts that only knows which frames are open (`Legal`), and C01 is restated for these.
-/
namespace Verif.Props
open Spec Rec TI

section
variable {P : Interp → Ctx → Interp → Ctx → Prop}

theorem at_depth {c : Ctx} {d : Nat} (h : c.depth = d) : c.at d = c := by
  subst h; rfl

/-- Without the end of an instruction in front, it does not matter whether one has been started. -/
theorem legal_started {closed : Bool} {fs : List Header} {o : Option (Interp × Ctx)} {es : List Event}
    (o' : Option (Interp × Ctx)) (hne : ∀ i c rest, es ≠ .stepEnd i c :: rest) (h : Legal P closed fs o es) :
    Legal P closed fs o' es := by
  cases es with
  | nil => simpa only [Legal] using h
  | cons e es =>
    cases e with
    | stepEnd i c => exact absurd rfl (hne i c es)
    | callEnd c inp r => rcases fs with _ | ⟨_ | _, fs⟩ <;> simpa only [Legal] using h
    | createEnd c inp r a => rcases fs with _ | ⟨_ | _, fs⟩ <;> simpa only [Legal] using h
    | _ => simpa only [Legal] using h

/-- Every legal history can be brought to an end by leaving the open frames. -/
theorem legal_complete {es : List Event} : ∀ {fs : List Header} {o : Option (Interp × Ctx)},
    Legal P false fs o es → ∃ more, Legal P true fs o (es ++ more) := by
  induction es with
  | nil =>
    intro fs
    induction fs with
    | nil => intro o _; exact ⟨[], by simp [Legal]⟩
    | cons f fs ih =>
      intro o _
      obtain ⟨more, hm⟩ := ih (o := none) (by simp [Legal])
      cases f with
      | call c inp =>
        exact ⟨.callEnd (c.at fs.length) inp ⟨.Stop, [], ⟨0, 0, 0⟩⟩ :: more, rfl, rfl, hm⟩
      | create c inp =>
        exact ⟨.createEnd (c.at fs.length) inp ⟨.Stop, [], ⟨0, 0, 0⟩⟩ none :: more, rfl, rfl, hm⟩
  | cons e es ih =>
    intro fs o h
    cases e with
    | callEnd c inp r =>
      rcases fs with _ | ⟨_ | _, fs⟩ <;> simp only [Legal] at h
      obtain ⟨more, hm⟩ := ih h.2.2
      exact ⟨more, h.1, h.2.1, hm⟩
    | createEnd c inp r a =>
      rcases fs with _ | ⟨_ | _, fs⟩ <;> simp only [Legal] at h
      obtain ⟨more, hm⟩ := ih h.2.2
      exact ⟨more, h.1, h.2.1, hm⟩
    | step i c =>
      obtain ⟨h1, h2, h3⟩ := h
      obtain ⟨more, hm⟩ := ih h3
      exact ⟨more, h1, h2, hm⟩
    | stepEnd i c =>
      obtain ⟨h1, h2, h3⟩ := h
      obtain ⟨more, hm⟩ := ih h3
      exact ⟨more, h1, h2, hm⟩
    | log c l =>
      obtain ⟨h1, h2, h3⟩ := h
      obtain ⟨more, hm⟩ := ih h3
      exact ⟨more, h1, h2, hm⟩
    | selfdestruct a t v =>
      obtain ⟨h1, h3⟩ := h
      obtain ⟨more, hm⟩ := ih h3
      exact ⟨more, h1, hm⟩
    | call c inp =>
      obtain ⟨h1, h2, h3, h4⟩ := h
      obtain ⟨more, hm⟩ := ih h4
      exact ⟨more, h1, h2, h3, hm⟩
    | create c inp =>
      obtain ⟨h1, h2, h3⟩ := h
      obtain ⟨more, hm⟩ := ih h3
      exact ⟨more, h1, h2, hm⟩

/-- The start of a legal history is legal. -/
theorem legal_take {closed : Bool} {es more : List Event} : ∀ {fs : List Header} {o : Option (Interp × Ctx)},
    Legal P closed fs o (es ++ more) → Legal P false fs o es := by
  induction es with
  | nil => intro fs o _; simp [Legal]
  | cons e es ih =>
    intro fs o h
    cases e with
    | callEnd c inp r =>
      rcases fs with _ | ⟨_ | _, fs⟩ <;> simp only [List.cons_append, Legal] at h
      exact ⟨h.1, h.2.1, ih h.2.2⟩
    | createEnd c inp r a =>
      rcases fs with _ | ⟨_ | _, fs⟩ <;> simp only [List.cons_append, Legal] at h
      exact ⟨h.1, h.2.1, ih h.2.2⟩
    | step i c => exact ⟨h.1, h.2.1, ih h.2.2⟩
    | stepEnd i c => exact ⟨h.1, h.2.1, ih h.2.2⟩
    | log c l => exact ⟨h.1, h.2.1, ih h.2.2⟩
    | selfdestruct a t v => exact ⟨h.1, ih h.2⟩
    | call c inp => exact ⟨h.1, h.2.1, h.2.2.1, ih h.2.2.2⟩
    | create c inp => exact ⟨h.1, h.2.1, ih h.2.2⟩

/-- What follows the opening of a frame is its body, its end, and the rest. -/
theorem legal_frame (n : Nat) : ∀ (es : List Event) (h : Header) (fs : List Header), es.length ≤ n →
    Legal P true (h :: fs) none es →
    ∃ (b : Body) (out : Outcome) (rest : List Event), es = b.events (fs.length + 1) ++ h.leave fs.length out :: rest ∧ b.WF ∧
      (h.isPrecompile = true → b.hasSub = false) ∧ b.AllSteps P ∧ Legal P true fs none rest := by
  induction n with
  | zero =>
    intro es h fs hn hl
    cases es with
    | nil => simp [Legal] at hl
    | cons e es => simp at hn
  | succ n ih =>
    intro es h fs hn hl
    cases es with
    | nil => simp [Legal] at hl
    | cons e es =>
      have hn' : es.length ≤ n := by simpa using hn
      -- a frame that is entered, and what comes after it
      have hsub : ∀ k : Header, k.WF → h.isPrecompile = false → e = k.enter (fs.length + 1) →
          Legal P true (k :: h :: fs) none es →
          ∃ (b : Body) (out : Outcome) (rest : List Event), e :: es = b.events (fs.length + 1) ++ h.leave fs.length out :: rest ∧ b.WF ∧
            (h.isPrecompile = true → b.hasSub = false) ∧ b.AllSteps P ∧ Legal P true fs none rest := by
        intro k hk hp he hl'
        obtain ⟨b1, out1, rest1, h1, w1, p1, a1, l1⟩ := ih es k (h :: fs) hn' hl'
        have hlen : rest1.length ≤ n := by
          have := congrArg List.length h1
          simp at this
          omega
        obtain ⟨b, out, rest, h2, w, p, a, l⟩ := ih rest1 h fs hlen l1
        refine ⟨.sub k b1 out1 b, out, rest, ?_, ⟨hk, p1, w1, w⟩, ?_, ⟨a1, a⟩, l⟩
        · rw [he, h1, h2, Body.events]
          simp
        · intro ht; rw [hp] at ht; cases ht
      cases e with
      | callEnd c inp r =>
        rcases h with ⟨c0, inp0⟩ | ⟨c0, inp0⟩
        · simp only [Legal] at hl
          obtain ⟨rfl, hd, hl⟩ := hl
          refine ⟨.nil, ⟨c, r, none⟩, es, ?_, trivial, fun _ => rfl, trivial, hl⟩
          simp [Body.events, Header.leave, at_depth hd]
        · simp [Legal] at hl
      | createEnd c inp r a =>
        rcases h with ⟨c0, inp0⟩ | ⟨c0, inp0⟩
        · simp [Legal] at hl
        · simp only [Legal] at hl
          obtain ⟨rfl, hd, hl⟩ := hl
          refine ⟨.nil, ⟨c, r, a⟩, es, ?_, trivial, fun _ => rfl, trivial, hl⟩
          simp [Body.events, Header.leave, at_depth hd]
      | stepEnd i c =>
        obtain ⟨⟨_, _, h1, _⟩, _⟩ := hl
        cases h1
      | log c l =>
        obtain ⟨_, hd, hl⟩ := hl
        obtain ⟨b, out, rest, h2, w, p, a, l'⟩ := ih es h fs hn' hl
        exact ⟨.act (.log c l) b, out, rest, by simp [Body.events, Act.events, h2, at_depth (d := fs.length + 1) hd], w, p, a, l'⟩
      | selfdestruct x t v =>
        obtain ⟨_, hl⟩ := hl
        obtain ⟨b, out, rest, h2, w, p, a, l'⟩ := ih es h fs hn' hl
        exact ⟨.act (.selfdestruct x t v) b, out, rest, by simp [Body.events, Act.events, h2], w, p, a, l'⟩
      | call c inp =>
        obtain ⟨hd, hk, hp, hl⟩ := hl
        exact hsub (.call c inp) hk (hp h (by simp)) (by rw [Header.enter, at_depth (d := fs.length + 1) hd]) hl
      | create c inp =>
        obtain ⟨hd, hp, hl⟩ := hl
        exact hsub (.create c inp) trivial (hp h (by simp)) (by rw [Header.enter, at_depth (d := fs.length + 1) hd]) hl
      | step i c =>
        obtain ⟨_, hd, hl⟩ := hl
        by_cases hne : ∀ i' c' rest, es ≠ .stepEnd i' c' :: rest
        · obtain ⟨b, out, rest, h2, w, p, a, l'⟩ := ih es h fs hn' (legal_started none hne hl)
          exact ⟨.act (.aborted i c) b, out, rest, by simp [Body.events, Act.events, h2, at_depth (d := fs.length + 1) hd], w, p, a, l'⟩
        · simp only [Classical.not_forall, Classical.not_not] at hne
          obtain ⟨i', c', es', rfl⟩ := hne
          obtain ⟨⟨i0, c0, h1, hP⟩, hd', hl⟩ := hl
          cases h1
          obtain ⟨b, out, rest, h2, w, p, a, l'⟩ := ih es' h fs (by simp at hn'; omega) hl
          exact ⟨.act (.step i c i' c') b, out, rest,
            by simp [Body.events, Act.events, h2, at_depth (d := fs.length + 1) hd, at_depth (d := fs.length + 1) hd'], w, p, ⟨hP, a⟩, l'⟩

/-- A legal history that ends with no frame open is a sequence of transactions. -/
theorem legal_split (n : Nat) : ∀ es : List Event, es.length ≤ n → Legal P true [] none es →
    ∃ ts : List Tx, (∀ t ∈ ts, t.WF ∧ t.body.AllSteps P) ∧ es = ts.flatMap Tx.events := by
  induction n with
  | zero =>
    intro es hn _
    cases es with
    | nil => exact ⟨[], by simp, rfl⟩
    | cons e es => simp at hn
  | succ n ih =>
    intro es hn hl
    cases es with
    | nil => exact ⟨[], by simp, rfl⟩
    | cons e es =>
      have hn' : es.length ≤ n := by simpa using hn
      have htx : ∀ k : Header, k.WF → e = k.enter 0 → Legal P true [k] none es →
          ∃ ts : List Tx, (∀ t ∈ ts, t.WF ∧ t.body.AllSteps P) ∧ e :: es = ts.flatMap Tx.events := by
        intro k hk he hl'
        obtain ⟨b, out, rest, h1, w, p, a, l⟩ := legal_frame n es k [] hn' hl'
        have hlen : rest.length ≤ n := by
          have := congrArg List.length h1
          simp at this
          omega
        obtain ⟨ts, hts, h2⟩ := ih rest hlen l
        refine ⟨⟨k, b, out⟩ :: ts, ?_, ?_⟩
        · intro t ht
          rcases List.mem_cons.1 ht with rfl | ht
          · exact ⟨⟨hk, p, w⟩, a⟩
          · exact hts t ht
        · rw [List.flatMap_cons, ← h2, he, h1, Tx.events]
          simp
      cases e with
      | callEnd c inp r => simp [Legal] at hl
      | createEnd c inp r a => simp [Legal] at hl
      | stepEnd i c => obtain ⟨⟨_, _, h1, _⟩, _⟩ := hl; cases h1
      | log c l => exact absurd rfl hl.1
      | selfdestruct x t v => exact absurd rfl hl.1
      | step i c => exact absurd rfl hl.1
      | call c inp => exact htx (.call c inp) hl.2.1 (by rw [Header.enter, at_depth (d := 0) hl.1]) hl.2.2.2
      | create c inp => exact htx (.create c inp) trivial (by rw [Header.enter, at_depth (d := 0) hl.1]) hl.2.2

/-- The hook calls of a frame body are legal in a frame that may do what the body does. -/
theorem legal_body (hP : ∀ i c i' c' d, P i c i' c' → P i (Ctx.at c d) i' (Ctx.at c' d))
    {closed : Bool} {rest : List Event} (b : Body) : ∀ (h : Header) (fs : List Header)
    (o : Option (Interp × Ctx)), b.WF → b.AllSteps P → (h.isPrecompile = true → b.hasSub = false) →
    (∀ o, Legal P closed (h :: fs) o rest) →
    Legal P closed (h :: fs) o (b.events (fs.length + 1) ++ rest) := by
  induction b generalizing rest with
  | nil => intro h fs o _ _ _ hr; exact hr o
  | act a b ih =>
    intro h fs o hwf ha hp hr
    cases a with
    | step i c i' c' =>
      exact ⟨by simp, rfl, ⟨_, _, rfl, hP _ _ _ _ _ ha.1⟩, rfl, ih h fs none hwf ha.2 hp hr⟩
    | aborted i c => exact ⟨by simp, rfl, ih h fs _ hwf ha hp hr⟩
    | log c l => exact ⟨by simp, rfl, ih h fs none hwf ha hp hr⟩
    | selfdestruct x t v => exact ⟨by simp, ih h fs none hwf ha hp hr⟩
  | sub k b out b2 ih1 ih2 =>
    intro h fs o hwf ha hp hr
    obtain ⟨hk, hkp, hw1, hw2⟩ := hwf
    have hnp : h.isPrecompile = false := by
      cases hb : h.isPrecompile with
      | false => rfl
      | true => exact absurd (hp hb) (by simp [Body.hasSub])
    have h2 : Legal P closed (h :: fs) none (b2.events (fs.length + 1) ++ rest) :=
      ih2 h fs none hw2 ha.2 (by simp [hnp]) hr
    rw [Body.events, List.cons_append, List.append_assoc, List.cons_append]
    cases k with
    | call c inp =>
      refine ⟨rfl, hk, by simpa using hnp, ?_⟩
      exact ih1 (.call (c.at (fs.length + 1)) inp) (h :: fs) none hw1 ha.1 hkp (fun _ => ⟨rfl, rfl, h2⟩)
    | create c inp =>
      refine ⟨rfl, by simpa using hnp, ?_⟩
      exact ih1 (.create (c.at (fs.length + 1)) inp) (h :: fs) none hw1 ha.1 hkp (fun _ => ⟨rfl, rfl, h2⟩)

theorem legal_txs (hP : ∀ i c i' c' d, P i c i' c' → P i (Ctx.at c d) i' (Ctx.at c' d)) (ts : List Tx) :
    ∀ o : Option (Interp × Ctx), (∀ t ∈ ts, t.WF ∧ t.body.AllSteps P) →
    Legal P true [] o (ts.flatMap Tx.events) := by
  induction ts with
  | nil => intro o _; simp [Legal]
  | cons t ts ih =>
    intro o h
    obtain ⟨⟨hk, hp, hw⟩, ha⟩ := h t (by simp)
    have hr := ih none (fun u hu => h u (by simp [hu]))
    obtain ⟨k, b, out⟩ := t
    rw [List.flatMap_cons, Tx.events, List.cons_append, List.append_assoc, List.singleton_append]
    cases k with
    | call c inp =>
      refine ⟨rfl, hk, by simp, ?_⟩
      exact legal_body hP b (.call (c.at 0) inp) [] none hw ha hp (fun _ => ⟨rfl, rfl, hr⟩)
    | create c inp =>
      refine ⟨rfl, by simp, ?_⟩
      exact legal_body hP b (.create (c.at 0) inp) [] none hw ha hp (fun _ => ⟨rfl, rfl, hr⟩)

end

/-- **C01, what it ranges over.** The sequences of hook calls that the watcher accepts (properly nested frames,
every instruction inside a frame, at most one instruction open) are exactly the beginnings of the hook calls of
sequences of transactions; those that leave no frame open are exactly the hook calls of such sequences. This
holds for any condition on the instructions that end, if it does not depend on the depth. -/
theorem C01_histories (P : Interp → Ctx → Interp → Ctx → Prop)
    (hP : ∀ i c i' c' d, P i c i' c' → P i { c with depth := d } i' { c' with depth := d }) (es : List Event) :
    (Legal P false [] none es ↔
      ∃ ts : List Tx, (∀ t ∈ ts, t.WF ∧ t.body.AllSteps P) ∧ es <+: ts.flatMap Tx.events) ∧
    (Legal P true [] none es ↔
      ∃ ts : List Tx, (∀ t ∈ ts, t.WF ∧ t.body.AllSteps P) ∧ es = ts.flatMap Tx.events) := by
  refine ⟨⟨fun h => ?_, ?_⟩, fun h => ?_, ?_⟩
  · obtain ⟨more, hm⟩ := legal_complete h
    obtain ⟨ts, hts, he⟩ := legal_split _ _ (Nat.le_refl _) hm
    exact ⟨ts, hts, more, he⟩
  · rintro ⟨ts, hts, more, he⟩
    have := legal_txs hP ts none hts
    rw [← he] at this
    exact legal_take this
  · exact legal_split _ _ (Nat.le_refl _) h
  · rintro ⟨ts, hts, rfl⟩
    exact legal_txs hP ts none hts

/-- **C01, of hook calls.** A recorder with any configuration processes every legal sequence of hook calls
without a panic, whether or not frames are left open, if the instructions that end satisfy the precondition of
pushed-items snapshots and the journal is in order. -/
theorem C01_no_panic_hooks (cfg : Config) (es : List Event) (h : Legal (StepSafe cfg) false [] none es) :
    ∃ s, TI.run cfg TI.new es = .ok s := by
  obtain ⟨more, hm⟩ := legal_complete h
  obtain ⟨ts, hts, he⟩ := legal_split _ _ (Nat.le_refl _) hm
  exact C01_no_panic cfg ts (fun t ht => (hts t ht).1)
    (fun t ht => ((safe_iff cfg t.body).1 (hts t ht).2).1)
    (fun t ht => ((safe_iff cfg t.body).1 (hts t ht).2).2) es ⟨more, he⟩

/-- An instruction whose end does not satisfy the precondition cannot be processed. -/
theorem run_pair_err {cfg : Config} {i i' : Interp} {c c' : Ctx} {s s' : TI} (hbad : ¬ PushesSafe cfg i c i' c') :
    TI.run cfg s [.step i c, .stepEnd i' c'] ≠ .ok s' := by
  simp only [PushesSafe, Classical.not_imp, Nat.not_le] at hbad
  obtain ⟨h1, h2, h3⟩ := hbad
  rw [records_eq] at h1
  simp only [recorded, Bool.and_eq_true] at h1
  obtain ⟨hr, hrec⟩ := h1
  cases hstk : s.traceStack with
  | nil => simp [TI.run, hook, hr, startStep, hstk]
  | cons p stk =>
    cases hx : s.arena[p]? with
    | none => simp [TI.run, hook, hr, startStep, hstk, hx]
    | some x =>
      have hlt := (List.getElem?_eq_some_iff.1 hx).1
      simp only [TI.run, hook, hr, if_true, startStep, hstk, hx, hrec,
        Bool.not_true, Bool.false_eq_true, if_false, fillStepOnStepEnd]
      have e1 : (s.arena.set p (startStepNode cfg i c x))[p]? = some (startStepNode cfg i c x) := by
        rw [List.getElem?_set_self hlt]
      have e2 : (startStepNode cfg i c x).trace.steps[x.trace.steps.length]? =
          some (newStep cfg i c x.trace.steps.getLast?) := by
        simp [startStepNode, pushStep]
      simp [e1, e2, fillStep, h2, show (newStep cfg i c x.trace.steps.getLast?).op = i.op from rfl, h3]

/-- A condition on the instructions that end can be checked on the sequence. -/
theorem legal_and {P Q : Interp → Ctx → Interp → Ctx → Prop} {closed : Bool} {es : List Event} :
    ∀ {fs : List Header} {o : Option (Interp × Ctx)}, Legal P closed fs o es →
    (∀ i c i' c', [.step i c, .stepEnd i' c'] <:+: (o.toList.map fun x => Event.step x.1 x.2) ++ es →
      Q i c i' c') →
    Legal (fun i c i' c' => Q i c i' c' ∧ P i c i' c') closed fs o es := by
  induction es with
  | nil => intro fs o h _; simpa only [Legal] using h
  | cons e es ih =>
    intro fs o h hQ
    have htail : ∀ i c i' c', [.step i c, .stepEnd i' c'] <:+:
        ((none : Option (Interp × Ctx)).toList.map fun x => Event.step x.1 x.2) ++ es → Q i c i' c' :=
      fun i c i' c' hi => hQ i c i' c'
        (hi.trans ⟨(o.toList.map fun x => Event.step x.1 x.2) ++ [e], [], by simp⟩)
    cases e with
    | callEnd c inp r =>
      rcases fs with _ | ⟨_ | _, fs⟩ <;> simp only [Legal] at h
      exact ⟨h.1, h.2.1, ih h.2.2 htail⟩
    | createEnd c inp r a =>
      rcases fs with _ | ⟨_ | _, fs⟩ <;> simp only [Legal] at h
      exact ⟨h.1, h.2.1, ih h.2.2 htail⟩
    | step i c =>
      exact ⟨h.1, h.2.1, ih h.2.2 fun i' c' i'' c'' hi => hQ _ _ _ _
        (hi.trans ⟨o.toList.map fun x => Event.step x.1 x.2, [], by simp⟩)⟩
    | stepEnd i c =>
      obtain ⟨⟨i0, c0, rfl, h1⟩, h2, h3⟩ := h
      exact ⟨⟨i0, c0, rfl, hQ _ _ _ _ ⟨[], es, by simp⟩, h1⟩, h2, ih h3 htail⟩
    | log c l => exact ⟨h.1, h.2.1, ih h.2.2 htail⟩
    | selfdestruct a t v => exact ⟨h.1, ih h.2 htail⟩
    | call c inp => exact ⟨h.1, h.2.1, h.2.2.1, ih h.2.2.2 htail⟩
    | create c inp => exact ⟨h.1, h.2.1, ih h.2.2 htail⟩

/-- **C01, of hook calls, exactly.** A legal sequence of hook calls, finished or not, makes a recorder panic
exactly if some instruction in it ends, is to be recorded with pushed items, and leaves fewer items on the stack
than it is taken to push (`PushesSafe`). -/
theorem C01_panic_iff_hooks (cfg : Config) (es : List Event) (h : Legal (StorageSafe cfg) false [] none es) :
    (∃ s, TI.run cfg TI.new es = .ok s) ↔
      ∀ i c i' c', [.step i c, .stepEnd i' c'] <:+: es → PushesSafe cfg i c i' c' := by
  constructor
  · rintro ⟨s, hs⟩ i c i' c' ⟨u, v, he⟩
    apply Classical.byContradiction
    intro hbad
    rw [← he] at hs
    obtain ⟨s2, hs2⟩ := run_prefix_ok hs
    obtain ⟨s1, hs1⟩ := run_prefix_ok hs2
    rw [run_append_ok hs1] at hs2
    exact run_pair_err hbad hs2
  · intro hp
    exact C01_no_panic_hooks cfg es (legal_and h (by simpa using hp))

/-- The example, broken off at any moment, is a legal history for every configuration; an instruction that
ends twice, one outside of any frame, and a frame that is closed as one of the other kind are not. -/
example (cfg : Config) (n : Nat) : Legal (StepSafe cfg) false [] none (Example.tx.events.take n) :=
  (C01_histories _ (fun _ _ _ _ _ h => h) _).1.2
    ⟨[Example.tx], by simpa using ⟨Example.wf, Example.safe cfg⟩, by simpa using List.take_prefix n _⟩

example (i : Interp) (c : Ctx) (inp : CallInputs) (inp' : CreateInputs) (r : InterpreterResult)
    (a : Option Address) (rest : List Event) :
    ¬ Legal (fun _ _ _ _ => True) false [] none (.step i c :: rest) ∧
    ¬ Legal (fun _ _ _ _ => True) false [] none
      (.call c inp :: .step i c :: .stepEnd i c :: .stepEnd i c :: rest) ∧
    ¬ Legal (fun _ _ _ _ => True) false [] none (.call c inp :: .createEnd c inp' r a :: rest) := by
  simp [Legal]

end Verif.Props
