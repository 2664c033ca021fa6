import Verif.Model.Standalone
import Verif.Lemmas.Refine
import Verif.Spec.Eof
import Verif.Spec.Example
/-!
# C96: frames entered by EOFCREATE
-/
namespace Verif.Props

/-- How many nodes a hook adds to the recording. -/
def addsNode : Event → Nat
  | .call c _ => if c.depth = 0 then 0 else 1
  | .create c _ => if c.depth = 0 then 0 else 1
  | _ => 0

theorem pushTraceLoop_length (kind : PushTraceKind) (t : CallTrace) : ∀ (fuel : Nat) (arena : List Node)
    (entry : Nat) (arena' : List Node) (id : Nat), pushTraceLoop kind t fuel arena entry = .ok (arena', id) →
    arena'.length = arena.length + if t.depth = 0 then 0 else 1
  | 0, _, _, _, _, h => by simp [pushTraceLoop] at h
  | fuel + 1, arena, entry, arena', id, h => by
    rw [pushTraceLoop.eq_def] at h
    dsimp only at h
    split at h
    · rename_i h0
      cases arena with
      | nil => cases h
      | cons n rest =>
        simp only [Except.ok.injEq, Prod.mk.injEq] at h
        rw [← h.1, if_pos h0]
        simp
    · rename_i h0
      rw [if_neg h0]
      split at h
      · cases h
      · split at h
        · cases kind <;>
            (simp only [Except.ok.injEq, Prod.mk.injEq] at h; rw [← h.1]; simp)
        · split at h
          · cases h
          · have := pushTraceLoop_length kind t fuel _ _ _ _ h
            rw [if_neg h0] at this
            exact this

theorem startTrace_eq (s : TI) (c : Ctx) (a : Address) (d : Bytes) (v : U256) (k : CallKind)
    (ca : Address) (g : Nat) (mp : Option Bool) : ∃ kind t sp, t.depth = c.depth ∧
    s.startTraceOnCall c a d v k ca g mp = match pushTrace s.arena 0 kind t with
      | .error e => .error e
      | .ok (arena, id) => .ok { s with arena := arena, traceStack := id :: s.traceStack, specId := sp } :=
  ⟨_, _, _, rfl, rfl⟩

theorem startTraceOnCall_length {s s' : TI} {c : Ctx} {a : Address} {d : Bytes} {v : U256} {k : CallKind}
    {ca : Address} {g : Nat} {mp : Option Bool} (h : s.startTraceOnCall c a d v k ca g mp = .ok s') :
    s'.arena.length = s.arena.length + if c.depth = 0 then 0 else 1 := by
  obtain ⟨kind, t, sp, ht, he⟩ := startTrace_eq s c a d v k ca g mp
  rw [he] at h
  split at h
  · cases h
  · rename_i arena id heq
    simp only [Except.ok.injEq] at h
    rw [← h, ← ht]
    exact pushTraceLoop_length _ _ _ _ _ _ _ heq

theorem withLastTrace_length {s s' : TI} {f : Nat → Node → Node} (h : s.withLastTrace f = .ok s') :
    s'.arena.length = s.arena.length := by
  unfold TI.withLastTrace at h
  split at h
  · cases h
  · split at h
    · cases h
    · simp only [Except.ok.injEq] at h
      rw [← h]
      simp

theorem fillTrace_length {s s' : TI} {c : Ctx} {r : InterpreterResult} {a : Option Address}
    (h : s.fillTraceOnCallEnd c r a = .ok s') : s'.arena.length = s.arena.length := by
  unfold TI.fillTraceOnCallEnd at h
  split at h
  · cases h
  · split at h
    · cases h
    · simp only [Except.ok.injEq] at h
      rw [← h]
      simp

theorem hook_length {cfg : Config} {s s' : TI} {e : Event} (h : s.hook cfg e = .ok s') :
    s'.arena.length = s.arena.length + addsNode e := by
  cases e with
  | step i c =>
    simp only [TI.hook, TI.startStep] at h
    split at h
    · split at h
      · cases h
      · split at h
        · cases h
        · split at h <;> (simp only [Except.ok.injEq] at h; rw [← h]; simp [addsNode])
    · cases h; rfl
  | stepEnd i c =>
    simp only [TI.hook, TI.fillStepOnStepEnd] at h
    split at h
    · split at h
      · cases h
      · split at h
        · simp only [Except.ok.injEq] at h; rw [← h]; rfl
        · split at h
          · cases h
          · split at h
            · cases h
            · split at h
              · cases h
              · simp only [Except.ok.injEq] at h; rw [← h]; simp [addsNode]
    · cases h; rfl
  | log c l =>
    simp only [TI.hook] at h
    split at h
    · exact withLastTrace_length h
    · cases h; rfl
  | call c inp =>
    simp only [TI.hook, TI.call] at h
    split at h
    · cases h
    · exact startTraceOnCall_length h
  | callEnd c inp r => exact fillTrace_length h
  | create c inp => exact startTraceOnCall_length h
  | createEnd c inp r a => exact fillTrace_length h
  | selfdestruct a t v => exact withLastTrace_length h

theorem run_length {cfg : Config} : ∀ (es : List Event) {s s' : TI}, TI.run cfg s es = .ok s' →
    s'.arena.length = s.arena.length + (es.map addsNode).sum
  | [], s, s', h => by cases h; rfl
  | e :: es, s, s', h => by
    rw [TI.run] at h
    split at h
    · cases h
    · rename_i s1 h1
      rw [run_length es h, hook_length h1, List.map_cons, List.sum_cons]
      omega

theorem act_adds (d : Nat) (a : Act) : ((a.events d).map addsNode).sum = 0 := by cases a <;> rfl

theorem enter_adds (d : Nat) (h : Header) : addsNode (h.enter d) = if d = 0 then 0 else 1 := by
  cases h <;> rfl

theorem leave_adds (d : Nat) (h : Header) (o : Outcome) : addsNode (h.leave d o) = 0 := by
  cases h <;> rfl

theorem body_adds : ∀ (b : EofBody) (d : Nat), 0 < d →
    ((b.events d).map addsNode).sum + b.eofs = b.size
  | .nil, _, _ => rfl
  | .act a rest, d, hd => by
    rw [EofBody.events, List.map_append, List.sum_append, act_adds, EofBody.eofs, EofBody.size,
      ← body_adds rest d hd]
    omega
  | .sub h b o rest, d, hd => by
    rw [EofBody.events, List.map_cons, List.sum_cons, List.map_append, List.sum_append, List.map_cons,
      List.sum_cons, enter_adds, leave_adds, EofBody.eofs, EofBody.size, ← body_adds rest d hd,
      ← body_adds b (d + 1) (by omega), if_neg (by omega)]
    omega
  | .eof _ _ _ b rest, d, hd => by
    rw [EofBody.events, List.map_append, List.sum_append, EofBody.eofs, EofBody.size, ← body_adds rest d hd,
      ← body_adds b (d + 1) (by omega)]
    omega

/-- **C96, exactly:** if the recording is made at all, it has a node for every frame but those that EOFCREATE
entered. -/
theorem C96_missing (cfg : Config) (t : EofTx) (s : TI) (h : TI.run cfg TI.new t.events = .ok s) :
    s.arena.length + t.body.eofs = 1 + t.body.size := by
  have := run_length _ h
  rw [EofTx.events, List.map_cons, List.sum_cons, List.map_append, List.sum_append, List.map_cons,
    List.sum_cons, enter_adds, leave_adds, if_pos rfl] at this
  have hb := body_adds t.body 1 (by omega)
  have h0 : TI.new.arena.length = 1 := rfl
  rw [h0] at this
  simp only [List.map_nil, List.sum_nil] at this
  omega

theorem plain_events : ∀ (b : EofBody) (b' : Body) (d : Nat), b.plain = some b' → b.events d = b'.events d
  | .nil, _, _, h => by cases h; rfl
  | .act a rest, b', d, h => by
    rw [EofBody.plain] at h
    cases hr : rest.plain with
    | none => rw [hr] at h; cases h
    | some r' =>
      rw [hr] at h
      cases h
      rw [EofBody.events, Body.events, plain_events rest r' d hr]
  | .sub hd b o rest, b', d, h => by
    rw [EofBody.plain] at h
    split at h
    · rename_i b1 r1 h1 h2
      cases h
      rw [EofBody.events, Body.events, plain_events b b1 (d + 1) h1, plain_events rest r1 d h2]
    · cases h
  | .eof _ _ _ _ _, _, _, h => by cases h

theorem plain_size : ∀ (b : EofBody) (b' : Body), b.plain = some b' → b.size = b'.size ∧ b.eofs = 0
  | .nil, _, h => by cases h; exact ⟨rfl, rfl⟩
  | .act a rest, b', h => by
    rw [EofBody.plain] at h
    cases hr : rest.plain with
    | none => rw [hr] at h; cases h
    | some r' =>
      rw [hr] at h
      cases h
      exact plain_size rest r' hr
  | .sub hd b o rest, b', h => by
    rw [EofBody.plain] at h
    split at h
    · rename_i b1 r1 h1 h2
      cases h
      have := plain_size b b1 h1
      have := plain_size rest r1 h2
      exact ⟨by rw [EofBody.size, Body.size]; omega, by rw [EofBody.eofs]; omega⟩
    · cases h
  | .eof _ _ _ _ _, _, h => by cases h

/-- C96, partial: an execution without EOFCREATE is one of those the other properties speak of, with the same
hook calls, and all of its frames are recorded. What is missing: EOFCREATE. -/
theorem C96_without_eof_partial (cfg : Config) (t : EofTx) (b : Body) (hb : t.body.plain = some b) :
    t.events = (Tx.mk t.hdr b t.out).events ∧
    ∀ s, TI.run cfg TI.new t.events = .ok s → s.arena.length = 1 + t.body.size := by
  refine ⟨?_, fun s h => ?_⟩
  · rw [EofTx.events, Tx.events, plain_events t.body b 1 hb]
  · have := C96_missing cfg t s h
    rw [(plain_size t.body b hb).2] at this
    exact this

/-- The recording consists of the root, which has no sub-frame. -/
def Lone (s : TI) : Prop := ∃ n, s.arena = [n] ∧ n.children = [] ∧ n.trace.depth = 0

theorem lone_set {s : TI} (hs : Lone s) (i : Nat) (f : Node → Node)
    (hf : ∀ n, (f n).children = n.children ∧ (f n).trace.depth = n.trace.depth) (n : Node)
    (hi : s.arena[i]? = some n) : ∃ m, s.arena.set i (f n) = [m] ∧ m.children = [] ∧ m.trace.depth = 0 := by
  obtain ⟨m, ha, hc, hd⟩ := hs
  rw [ha] at hi ⊢
  cases i with
  | zero =>
    simp only [List.getElem?_cons_zero, Option.some.injEq] at hi
    subst hi
    exact ⟨f m, rfl, (hf m).1.trans hc, (hf m).2.trans hd⟩
  | succ i => simp at hi

theorem lone_withLast {s s' : TI} (hs : Lone s) {f : Nat → Node → Node}
    (hf : ∀ i n, (f i n).children = n.children ∧ (f i n).trace.depth = n.trace.depth)
    (h : s.withLastTrace f = .ok s') : Lone s' := by
  unfold TI.withLastTrace at h
  split at h
  · cases h
  · split at h
    · cases h
    · rename_i hi
      simp only [Except.ok.injEq] at h
      rw [← h]
      exact lone_set hs _ (f _) (hf _) _ hi

theorem lone_step {cfg : Config} {s s' : TI} {i : Interp} {c : Ctx} (hs : Lone s)
    (h : s.hook cfg (.step i c) = .ok s') : Lone s' := by
  simp only [TI.hook, TI.startStep] at h
  split at h
  · split at h
    · cases h
    · split at h
      · cases h
      · rename_i hi
        split at h
        · simp only [Except.ok.injEq] at h
          rw [← h]
          exact hs
        · simp only [Except.ok.injEq] at h
          rw [← h]
          exact lone_set hs _ (TI.startStepNode cfg i c) (fun n => ⟨rfl, rfl⟩) _ hi
  · cases h; exact hs

theorem lone_stepEnd {cfg : Config} {s s' : TI} {i : Interp} {c : Ctx} (hs : Lone s)
    (h : s.hook cfg (.stepEnd i c) = .ok s') : Lone s' := by
  simp only [TI.hook, TI.fillStepOnStepEnd] at h
  split at h
  · split at h
    · cases h
    · split at h
      · simp only [Except.ok.injEq] at h
        rw [← h]
        exact hs
      · split at h
        · cases h
        · rename_i hi
          split at h
          · cases h
          · split at h
            · cases h
            · rename_i step' _
              simp only [Except.ok.injEq] at h
              rw [← h]
              exact lone_set hs _ (fun n => { n with trace := { n.trace with
                steps := n.trace.steps.set _ step' } }) (fun n => ⟨rfl, rfl⟩) _ hi
  · cases h; exact hs

theorem lone_hooks {cfg : Config} (d : Nat) (a : Act) {s s' : TI} (hs : Lone s)
    (h : TI.run cfg s (a.events d) = .ok s') : Lone s' := by
  have one : ∀ (e : Event) (s s' : TI), TI.run cfg s [e] = .ok s' → s.hook cfg e = .ok s' := by
    intro e s s' h
    rw [TI.run] at h
    split at h
    · cases h
    · rename_i h1; cases h; exact h1
  cases a with
  | step i c i' c' =>
    rw [Act.events, TI.run] at h
    split at h
    · cases h
    · rename_i h1
      exact lone_stepEnd (lone_step hs h1) (one _ _ _ h)
  | aborted i c => exact lone_step hs (one _ _ _ h)
  | log c l =>
    have h := one _ _ _ h
    simp only [TI.hook] at h
    split at h
    · exact lone_withLast (f := fun _ n => TI.logNode l n) hs (fun _ _ => ⟨rfl, rfl⟩) h
    · cases h; exact hs
  | selfdestruct a t v => 
    exact lone_withLast (f := fun _ n => TI.selfdestructNode a t v n) hs (fun _ _ => ⟨rfl, rfl⟩) (one _ _ _ h)

theorem lone_body {cfg : Config} : ∀ (b : EofBody) (d : Nat) {s s' : TI}, Lone s → b.firstEnter d = none →
    TI.run cfg s (b.events d) = .ok s' → Lone s'
  | .nil, _, _, _, hs, _, h => by cases h; exact hs
  | .act a rest, d, s, s', hs, hf, h => by
    rw [EofBody.events, Rec.run_append] at h
    split at h
    · cases h
    · rename_i h1
      exact lone_body rest d (lone_hooks d a hs h1) hf h
  | .sub _ _ _ _, _, _, _, _, hf, _ => by cases hf
  | .eof _ _ _ b rest, d, s, s', hs, hf, h => by
    rw [EofBody.firstEnter] at hf
    split at hf
    · cases hf
    · rename_i h0
      rw [EofBody.events, Rec.run_append] at h
      split at h
      · cases h
      · rename_i h1
        exact lone_body rest d (lone_body b (d + 1) hs h0 h1) hf h

theorem lone_start {s : TI} (hs : Lone s) (c : Ctx) (hd : 2 ≤ c.depth) (a : Address) (dt : Bytes) (v : U256)
    (k : CallKind) (ca : Address) (g : Nat) (mp : Option Bool) :
    s.startTraceOnCall c a dt v k ca g mp = .error (.expect "Disconnected trace") := by
  obtain ⟨n, ha, hc, h0⟩ := hs
  have hp : ∀ kind t, t.depth = c.depth →
      pushTrace s.arena 0 kind t = .error (.expect "Disconnected trace") := by
    intro kind t ht
    rw [pushTrace, pushTraceLoop.eq_def, ha]
    dsimp only
    rw [if_neg (by omega)]
    simp only [List.getElem?_cons_zero]
    rw [if_neg (by rw [h0, ht]; omega), hc]
    rfl
  obtain ⟨kind, t, sp, ht, he⟩ := startTrace_eq s c a dt v k ca g mp
  rw [he, hp kind t ht]

theorem lone_enter {cfg : Config} {s : TI} (hs : Lone s) (d : Nat) (hd : 2 ≤ d) (h : Header) (s' : TI) :
    s.hook cfg (h.enter d) ≠ .ok s' := by
  intro hh
  cases h with
  | call c inp =>
    simp only [Header.enter, TI.hook, TI.call] at hh
    split at hh
    · cases hh
    · rw [lone_start hs (c.at d) hd] at hh
      cases hh
  | create c inp =>
    simp only [Header.enter, TI.hook, TI.create] at hh
    rw [lone_start hs (c.at d) hd] at hh
    cases hh

theorem lone_panics {cfg : Config} : ∀ (b : EofBody) (d x : Nat) {s : TI}, Lone s → b.firstEnter d = some x →
    2 ≤ x → ∀ (fs : List Event) (s' : TI), TI.run cfg s (b.events d ++ fs) ≠ .ok s'
  | .nil, _, _, _, _, hf, _, _, _ => by cases hf
  | .act a rest, d, x, s, hs, hf, hx, fs, s' => by
    intro h
    rw [EofBody.events, List.append_assoc, Rec.run_append] at h
    split at h
    · cases h
    · rename_i h1
      exact lone_panics rest d x (lone_hooks d a hs h1) hf hx fs s' h
  | .sub hd b o rest, d, x, s, hs, hf, hx, fs, s' => by
    intro h
    rw [EofBody.firstEnter, Option.some.injEq] at hf
    subst hf
    rw [EofBody.events, List.cons_append, TI.run] at h
    split at h
    · cases h
    · rename_i h1
      exact lone_enter hs d hx hd _ h1
  | .eof _ _ _ b rest, d, x, s, hs, hf, hx, fs, s' => by
    intro h
    rw [EofBody.firstEnter] at hf
    rw [EofBody.events, List.append_assoc] at h
    split at hf
    · rename_i y hy
      cases hf
      exact lone_panics b (d + 1) x hs hy hx _ s' h
    · rename_i h0
      rw [Rec.run_append] at h
      split at h
      · cases h
      · rename_i h1
        exact lone_panics rest d x (lone_body b (d + 1) hs h0 h1) hf hx fs s' h

theorem lone_root {cfg : Config} (h : Header) {s : TI} (hh : TI.new.hook cfg (h.enter 0) = .ok s) : Lone s := by
  have hp : ∀ c a dt v k ca g mp, (c.depth = 0) →
      TI.new.startTraceOnCall c a dt v k ca g mp = .ok s → Lone s := by
    intro c a dt v k ca g mp hc hs
    obtain ⟨kind, t, sp, ht, he⟩ := startTrace_eq TI.new c a dt v k ca g mp
    have hp : pushTrace TI.new.arena 0 kind t = .ok ([{ ({} : Node) with trace := t }], 0) := by
      rw [pushTrace, pushTraceLoop.eq_def]
      exact if_pos (ht.trans hc)
    rw [he, hp] at hs
    cases hs
    exact ⟨_, rfl, rfl, ht.trans hc⟩
  cases h with
  | call c inp =>
    simp only [Header.enter, TI.hook, TI.call] at hh
    split at hh
    · cases hh
    · exact hp _ _ _ _ _ _ _ _ rfl hh
  | create c inp =>
    simp only [Header.enter, TI.hook, TI.create] at hh
    exact hp _ _ _ _ _ _ _ _ rfl hh

/-- **C96 fails:** whatever the configuration, the recorder panics if the first frame that is entered by a call
or a create is entered by the init code of a frame of EOFCREATE. -/
theorem C96_panics (cfg : Config) (t : EofTx) (x : Nat) (hx : t.body.firstEnter 1 = some x) (h2 : 2 ≤ x)
    (s : TI) : TI.run cfg TI.new t.events ≠ .ok s := by
  intro h
  rw [EofTx.events, TI.run] at h
  split at h
  · cases h
  · rename_i h1
    exact lone_panics t.body 1 x (lone_root t.hdr h1) hx h2 _ s h

namespace EofExample
open Example

/-- EOFCREATE with a value of 7; the init code executes one instruction, and calls 0xb if told so. -/
def creates (calls : Bool) (rest : EofBody) : EofBody :=
  .act (stepAct 0xec 1 490 .CallOrCreate)
    (.eof 0xa 0xc 7 (.act (stepAct Op.ADD 0 400)
      (if calls then .sub (callHdr .Call 0xc 0xb 0xb 0) .nil (out .Stop) .nil else .nil)) rest)

/-- The init code makes the only call. -/
def disconnected : EofTx := ⟨callHdr .Call 1 0xa 0xa 0, creates true .nil, out .Stop⟩

/-- The init code makes a call after its creator called 0xd. -/
def astray : EofTx :=
  ⟨callHdr .Call 1 0xa 0xa 0, .sub (callHdr .Call 0xa 0xd 0xd 0) .nil (out .Stop) (creates true .nil), out .Stop⟩

/-- The init code makes no call. -/
def quiet : EofTx := ⟨callHdr .Call 1 0xa 0xa 0, creates false .nil, out .Stop⟩

end EofExample

/-- The hypotheses of `C96_panics` and `C96_without_eof_partial` can be met. -/
example : EofExample.disconnected.body.firstEnter 1 = some 2 ∧
    (EofBody.act (Example.stepAct Op.ADD 0 500) (.sub Example.createHdr .nil (Example.out .Stop) .nil)).plain =
      some (.act (Example.stepAct Op.ADD 0 500) (.sub Example.createHdr .nil (Example.out .Stop) .nil)) :=
  ⟨rfl, rfl⟩

/-- **C96 fails:** the frame of EOFCREATE is not recorded; its instruction is recorded as one of its creator,
the call it makes as one of the frame its creator entered before, its value is in no list of transfers. -/
theorem C96_refuted :
    (∃ s n, TI.run { (default : Config) with recordSteps := true } TI.new EofExample.quiet.events = .ok s ∧
      EofExample.quiet.body.size = 1 ∧ s.arena = [n] ∧ n.trace.address = 0xa ∧
      n.trace.steps.map (fun x => (x.op, x.depth)) = [(0xec, 1), (Op.ADD, 2)]) ∧
    (∃ s n m k, TI.run { (default : Config) with recordSteps := true } TI.new EofExample.astray.events = .ok s ∧
      EofExample.astray.body.size = 3 ∧ s.arena = [n, m, k] ∧ m.trace.address = 0xd ∧
      k.trace.address = 0xb ∧ k.trace.caller = 0xc ∧ k.parent = some 1 ∧ m.children = [2]) ∧
    runHooks (transferHook false) [] EofExample.quiet.events = .ok [] :=
  ⟨⟨_, _, rfl, rfl, rfl, rfl, rfl⟩, ⟨_, _, _, _, rfl, rfl, rfl, rfl, rfl, rfl, rfl, rfl⟩, rfl⟩

end Verif.Props
