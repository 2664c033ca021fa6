import Verif.Props.MuxExamples
import Verif.Props.Several
import Verif.Props.UnfusedLogs
import Verif.Props.UnfusedSelfdestructs
/-! C138: what a mux inspector returns that was used for several transactions. -/
namespace Verif.Props
open Spec Rec

/-- A new mux with this configuration that is told this history gives this frame. -/
def MuxGives {ε : Type} (env : MuxEnv ε) (c : MuxConfig) (es : List Event) (F : MuxFrame) : Prop :=
  ∃ m m', Mux.ofConfig c = .ok m ∧ runReplies Mux.respond m es = .ok m' ∧ m'.tryIntoFrame env = .ok F

theorem gives_entry {ε : Type} {env : MuxEnv ε} {c : MuxConfig} (hd : DistinctTypes c) {es : List Event}
    {F : MuxFrame} (h : MuxGives env c es F) {t : TracerType} {o : Option TracerConfig} (he : (t, o) ∈ entries c) :
    ∃ x, aloneEntry env es (t, o) = some x ∧ F.get? t = some x := by
  obtain ⟨m, m', h1, h2, h3⟩ := h
  exact ((C42_independent env es c hd).2 m m' F h1 h2 h3).1 _ he

theorem gives_absent {ε : Type} {env : MuxEnv ε} {c : MuxConfig} (hd : DistinctTypes c) {es : List Event}
    {F : MuxFrame} (h : MuxGives env c es F) {t : TracerType} (ht : t ∉ types c) : F.get? t = none := by
  obtain ⟨m, m', h1, h2, h3⟩ := h
  exact ((C42_independent env es c hd).2 m m' F h1 h2 h3).2 t ht

theorem entry_of_type : ∀ (c : MuxConfig) (t : TracerType), t ∈ types c → ∃ o, (t, o) ∈ entries c
  | .nil, _, h => by simp [types] at h
  | .bare s rest, t, h => by
    simp only [types, List.mem_cons] at h
    rcases h with rfl | h
    · exact ⟨none, by simp [entries]⟩
    · obtain ⟨o, ho⟩ := entry_of_type rest t h
      exact ⟨o, by simp [entries, ho]⟩
  | .conf s k rest, t, h => by
    simp only [types, List.mem_cons] at h
    rcases h with rfl | h
    · exact ⟨some k, by simp [entries]⟩
    · obtain ⟨o, ho⟩ := entry_of_type rest t h
      exact ⟨o, by simp [entries, ho]⟩

theorem selector_length (es : List Event) (h : ∀ sel size, callsWith sel size es < 2 ^ 64) (sel : Bytes) (size : Nat)
    (hne : callsWith sel size es ≠ 0) : sel.length = 4 := by
  obtain ⟨s', -, h2, h3, h4⟩ := fourByte_run es [] (by simp [AMap.Nodup]) (by simp)
    (by simpa [AMap.get?] using h)
  have hg := h4 sel size
  rw [if_neg hne] at hg
  exact h3 _ _ ((AMap.get?_eq_some_iff h2).1 hg)

/-- The count that a four-byte inspector alone reports under a key. -/
theorem alone_count {ε : Type} {es : List Event} {x : GethTrace}
    (hx : (aloneFourByte (ε := ε) es).toOption = some x) (h : ∀ sel size, callsWith sel size es < 2 ^ 64) :
    ∃ f, x = .fourByte f ∧ ∀ (sel : Bytes) (size : Nat), sel.length = 4 →
      (AMap.get? f (fourByteKey (sel, size))).getD 0 = callsWith sel size es := by
  obtain ⟨s, hs, -⟩ := C37_counts es h
  refine ⟨fourByteFrame s, ?_, ?_⟩
  · have : aloneFourByte (ε := ε) es = .ok (.fourByte (fourByteFrame s)) := by
      simp only [aloneFourByte, hs, orPanic]; rfl
    rw [this] at hx
    exact (Option.some.inj hx).symm
  · intro sel size hl
    have key := C37_frame es s hs h s (List.Perm.refl _) (fourByteKey (sel, size))
    by_cases h0 : callsWith sel size es = 0
    · rw [h0]
      cases hg : AMap.get? (fourByteFrame s) (fourByteKey (sel, size)) with
      | none => rfl
      | some n =>
        obtain ⟨sel', size', hk, hn, hne⟩ := (key n).1 hg
        have := C37_keys _ _ hl (selector_length es h sel' size' (by rw [hn]; exact hne)) hk
        injection this with h1 h2
        subst h1; subst h2
        exact absurd (hn.symm.trans h0) hne
    · rw [(key _).2 ⟨sel, size, rfl, rfl, h0⟩]; rfl

/-- **C138**, state and nothing: a mux that was used for several transactions reports for the prestate tracer
(which looks at the result it is given) and the noop tracer what it would report for any of them alone. -/
theorem C138_state_partial {ε : Type} (env : MuxEnv ε) (c : MuxConfig) (hd : DistinctTypes c) (es es' : List Event)
    (F F' : MuxFrame) (h : MuxGives env c es F) (h' : MuxGives env c es' F') (t : TracerType)
    (ht : t = .preState ∨ t = .noop) : F.get? t = F'.get? t := by
  by_cases hm : t ∈ types c
  · obtain ⟨o, ho⟩ := entry_of_type c t hm
    obtain ⟨x, hx, hFx⟩ := gives_entry hd h ho
    obtain ⟨x', hx', hFx'⟩ := gives_entry hd h' ho
    rw [hFx, hFx']
    rcases ht with rfl | rfl
    · cases o with
      | none => simp [aloneEntry] at hx
      | some k =>
        obtain ⟨a, p, q⟩ := k
        simp only [aloneEntry, alone] at hx hx'
        cases p with
        | none => simp at hx
        | some pc =>
          simp only [Option.bind_some, alonePreState] at hx hx'
          cases h1 : TI.run (Config.fromGethPrestateConfig pc) TI.new es with
          | error e => rw [h1] at hx; simp [orPanic, bind, Except.bind, Except.toOption] at hx
          | ok s =>
            cases h2 : TI.run (Config.fromGethPrestateConfig pc) TI.new es' with
            | error e => rw [h2] at hx'; simp [orPanic, bind, Except.bind, Except.toOption] at hx'
            | ok s' =>
              rw [h1] at hx
              rw [h2] at hx'
              exact hx.symm.trans hx'
    · cases o with
      | none => exact hx.symm.trans hx'
      | some k => obtain ⟨a, p, q⟩ := k; simp [aloneEntry, alone] at hx
  · rw [gives_absent hd h hm, gives_absent hd h' hm]

/-- **C138**, selectors: under every key a mux that was used for several transactions reports the sum of the
counts that new ones report. -/
theorem C138_fourbyte {ε : Type} (env : MuxEnv ε) (c : MuxConfig) (hd : DistinctTypes c)
    (hc : TracerType.fourByte ∈ types c) (ts : List Tx) (r : Tx → MuxFrame) (F : MuxFrame)
    (hr : ∀ t ∈ ts, MuxGives env c t.events (r t)) (hF : MuxGives env c (eventsOf ts) F)
    (hb : ∀ sel size, (ts.map (fun t => callsWith sel size t.events)).sum < 2 ^ 64) :
    ∃ (n : Tx → AMap (List Char) Nat) (f : AMap (List Char) Nat),
      (∀ t ∈ ts, (r t).get? .fourByte = some (.fourByte (n t))) ∧ F.get? .fourByte = some (.fourByte f) ∧
      ∀ (sel : Bytes) (size : Nat), sel.length = 4 → (AMap.get? f (fourByteKey (sel, size))).getD 0 =
        (ts.map (fun t => (AMap.get? (n t) (fourByteKey (sel, size))).getD 0)).sum := by
  obtain ⟨o, ho⟩ := entry_of_type c _ hc
  have hone : ∀ (es : List Event) (G : MuxFrame), MuxGives env c es G →
      (∀ sel size, callsWith sel size es < 2 ^ 64) → ∃ f, G.get? .fourByte = some (.fourByte f) ∧
        ∀ (sel : Bytes) (size : Nat), sel.length = 4 →
          (AMap.get? f (fourByteKey (sel, size))).getD 0 = callsWith sel size es := by
    intro es G hG hlt
    obtain ⟨x, hx, hGx⟩ := gives_entry hd hG ho
    cases o with
    | some k => obtain ⟨a, p, q⟩ := k; simp [aloneEntry, alone] at hx
    | none =>
      obtain ⟨f, rfl, hf⟩ := alone_count hx hlt
      exact ⟨f, hGx, hf⟩
  have hsum := fun sel size => sum_events (callsWith sel size) rfl (callsWith_append sel size) ts
  obtain ⟨f, hf1, hf2⟩ := hone _ F hF (fun sel size => by rw [hsum]; exact hb sel size)
  have hall : ∀ t, ∃ n : AMap (List Char) Nat, t ∈ ts → (r t).get? .fourByte = some (.fourByte n) ∧
      ∀ (sel : Bytes) (size : Nat), sel.length = 4 →
        (AMap.get? n (fourByteKey (sel, size))).getD 0 = callsWith sel size t.events := by
    intro t
    by_cases ht : t ∈ ts
    · obtain ⟨n, hn⟩ := hone _ _ (hr t ht) (fun sel size =>
        Nat.lt_of_le_of_lt (le_sum (fun t => callsWith sel size t.events) ht) (hb sel size))
      exact ⟨n, fun _ => hn⟩
    · exact ⟨[], fun h => absurd h ht⟩
  refine ⟨fun t => Classical.choose (hall t), f, fun t ht => (Classical.choose_spec (hall t) ht).1, hf1, ?_⟩
  intro sel size hl
  rw [hf2 sel size hl, hsum]
  congr 1
  apply List.map_congr_left
  intro t ht
  exact ((Classical.choose_spec (hall t) ht).2 sel size hl).symm

theorem gives_calls {ε : Type} {env : MuxEnv ε} {c : MuxConfig} (hd : DistinctTypes c) {opts : CallConfig}
    {p : Option PreStateConfig} {q : MuxParse} (hc : (.call, some (.mk (some opts) p q)) ∈ entries c)
    {es : List Event} {G : MuxFrame} (hG : MuxGives env c es G) : ∃ s f,
      TI.run (Config.fromGethCallConfig opts) TI.new es = .ok s ∧
      gethCallTraces env.decode s.arena opts env.gasUsed = .ok f ∧ G.get? .call = some (.call f) := by
  obtain ⟨x, hx, hGx⟩ := gives_entry hd hG hc
  simp only [aloneEntry, alone, Option.bind_some, aloneCall] at hx
  cases h1 : TI.run (Config.fromGethCallConfig opts) TI.new es with
  | error e => rw [h1] at hx; simp [orPanic, bind, Except.bind, Except.toOption] at hx
  | ok s =>
    rw [h1] at hx
    cases h2 : gethCallTraces env.decode s.arena opts env.gasUsed with
    | error e => simp [orPanic, bind, Except.bind, Except.toOption, h2] at hx
    | ok f =>
      simp [orPanic, bind, Except.bind, Except.toOption, h2, pure, Except.pure] at hx
      exact ⟨s, f, rfl, h2, by rw [hGx, hx]⟩

/-- **C138**, call frames: without logs, and if no root and no first frame below a root selfdestructs, a mux that
was used for several transactions reports for the call tracer the root frame of the last one with the calls of all
of them, in order. -/
theorem C138_calls {ε : Type} (env : MuxEnv ε) (c : MuxConfig) (hd : DistinctTypes c) (opts : CallConfig)
    (p : Option PreStateConfig) (q : MuxParse) (hc : (.call, some (.mk (some opts) p q)) ∈ entries c)
    (t : Tx) (ts : List Tx) (r : Tx → MuxFrame) (F : MuxFrame)
    (hall : ∀ u ∈ t :: ts, (u.WF ∧ Safe (Config.fromGethCallConfig opts) u.body) ∧
      MuxGives env c u.events (r u) ∧ ∀ f ∈ frames u, f.index ≤ 1 → selfdestructed f = false)
    (hF : MuxGives env c (eventsOf (t :: ts)) F)
    (honly : opts.onlyTopCall.getD false = false) (hlog : opts.withLog.getD false = false) :
    ∃ g : Tx → CallFrame, (∀ u ∈ t :: ts, (r u).get? .call = some (.call (g u))) ∧
      F.get? .call = some (.call { g (ts.getLastD t) with calls := (t :: ts).flatMap (fun u => (g u).calls) }) := by
  have hch : ∀ u, ∃ sf : TI × CallFrame, u ∈ t :: ts →
      TI.run (Config.fromGethCallConfig opts) TI.new u.events = .ok sf.1 ∧
      gethCallTraces env.decode sf.1.arena opts env.gasUsed = .ok sf.2 ∧ (r u).get? .call = some (.call sf.2) := by
    intro u
    by_cases hu : u ∈ t :: ts
    · obtain ⟨s, f, h⟩ := gives_calls hd hc (hall u hu).2.1
      exact ⟨(s, f), fun _ => h⟩
    · obtain ⟨s, f, h⟩ := gives_calls hd hc hF
      exact ⟨(s, f), fun h => absurd h hu⟩
  have hsp := fun u hu => Classical.choose_spec (hch u) hu
  obtain ⟨s, hs, hg⟩ := C135_call_frames env.decode (Config.fromGethCallConfig opts) opts env.gasUsed
    (fun u => (Classical.choose (hch u)).1) (fun u => (Classical.choose (hch u)).2) t ts
    (fun u hu => ⟨(hall u hu).1, (hsp u hu).1, (hsp u hu).2.1⟩) (fun u hu => (hall u hu).2.2) honly hlog
  obtain ⟨s', f, hs', hf, hGf⟩ := gives_calls hd hc hF
  have he : s' = s := by
    rw [show eventsOf (t :: ts) = (t :: ts).flatMap Tx.events from rfl, hs] at hs'
    injection hs' with h; exact h.symm
  subst he
  rw [hg] at hf
  injection hf with hf
  exact ⟨_, fun u hu => (hsp u hu).2.2, by rw [hGf, ← hf]⟩

/-- **C138**, call frames with logs: if no transaction failed, and no root and no first frame below a root
selfdestructs, a mux that was used for several transactions reports for the call tracer the root frame of the last
one with the calls of all of them, in order, and with the logs of all roots, as if the account of the last root had
emitted them. -/
theorem C138_logs {ε : Type} (env : MuxEnv ε) (c : MuxConfig) (hd : DistinctTypes c) (opts : CallConfig)
    (p : Option PreStateConfig) (q : MuxParse) (hc : (.call, some (.mk (some opts) p q)) ∈ entries c)
    (t : Tx) (ts : List Tx) (r : Tx → MuxFrame) (F : MuxFrame)
    (hall : ∀ u ∈ t :: ts, (u.WF ∧ Safe (Config.fromGethCallConfig opts) u.body) ∧
      MuxGives env c u.events (r u) ∧ (∀ f ∈ frames u, f.index ≤ 1 → selfdestructed f = false) ∧
      u.out.result.result.isOk = true)
    (hF : MuxGives env c (eventsOf (t :: ts)) F)
    (honly : opts.onlyTopCall.getD false = false) :
    ∃ g : Tx → CallFrame, (∀ u ∈ t :: ts, (r u).get? .call = some (.call (g u))) ∧
      F.get? .call = some (.call { g (ts.getLastD t) with
        calls := (t :: ts).flatMap (fun u => (g u).calls)
        logs := (t :: ts).flatMap (fun u => (g u).logs.map (fun l =>
          { l with address := frameAccount (g (ts.getLastD t)) })) }) := by
  have hch : ∀ u, ∃ sf : TI × CallFrame, u ∈ t :: ts →
      TI.run (Config.fromGethCallConfig opts) TI.new u.events = .ok sf.1 ∧
      gethCallTraces env.decode sf.1.arena opts env.gasUsed = .ok sf.2 ∧ (r u).get? .call = some (.call sf.2) := by
    intro u
    by_cases hu : u ∈ t :: ts
    · obtain ⟨s, f, h⟩ := gives_calls hd hc (hall u hu).2.1
      exact ⟨(s, f), fun _ => h⟩
    · obtain ⟨s, f, h⟩ := gives_calls hd hc hF
      exact ⟨(s, f), fun h => absurd h hu⟩
  have hsp := fun u hu => Classical.choose_spec (hch u) hu
  obtain ⟨s, hs, hg⟩ := same_ending env.decode (Config.fromGethCallConfig opts) opts env.gasUsed false
    (fun u => (Classical.choose (hch u)).1) (fun u => (Classical.choose (hch u)).2) t ts
    (fun u hu => ⟨(hall u hu).1, (hsp u hu).1, (hsp u hu).2.1⟩) (fun u hu => (hall u hu).2.2.1)
    (fun u hu => (hall u hu).2.2.2) honly
  obtain ⟨s', f, hs', hf, hGf⟩ := gives_calls hd hc hF
  have he : s' = s := by
    rw [show eventsOf (t :: ts) = (t :: ts).flatMap Tx.events from rfl, hs] at hs'
    injection hs' with h; exact h.symm
  subst he
  rw [hg] at hf
  injection hf with hf
  exact ⟨_, fun u hu => (hsp u hu).2.2, by rw [hGf, ← hf]⟩

/-- **C138**, call frames with logs after transactions that end differently: if no root and no first frame below a
root selfdestructs, the call tracer of a mux that was used for several transactions reports the root frame of the last
one with the calls of all of them, in order, and with the logs of all roots, as if the account of the last root had
emitted them. Calls and logs are those that a mux of its own reports for each transaction had it ended as the last
one did. -/
theorem C138_logs_ended {ε : Type} (env : MuxEnv ε) (c : MuxConfig) (hd : DistinctTypes c) (opts : CallConfig)
    (p : Option PreStateConfig) (q : MuxParse) (hc : (.call, some (.mk (some opts) p q)) ∈ entries c)
    (t : Tx) (ts : List Tx) (r : Tx → MuxFrame) (F : MuxFrame)
    (hall : ∀ u ∈ t :: ts, (u.WF ∧ Safe (Config.fromGethCallConfig opts) u.body) ∧
      MuxGives env c (endedAs (ts.getLastD t).out u).events (r u) ∧
      (∀ f ∈ frames u, f.index ≤ 1 → selfdestructed f = false))
    (hF : MuxGives env c (eventsOf (t :: ts)) F)
    (honly : opts.onlyTopCall.getD false = false) :
    ∃ g : Tx → CallFrame, (∀ u ∈ t :: ts, (r u).get? .call = some (.call (g u))) ∧
      F.get? .call = some (.call { g (ts.getLastD t) with
        calls := (t :: ts).flatMap (fun u => (g u).calls)
        logs := (t :: ts).flatMap (fun u => (g u).logs.map (fun l =>
          { l with address := frameAccount (g (ts.getLastD t)) })) }) := by
  have hch : ∀ u, ∃ sf : TI × CallFrame, u ∈ t :: ts →
      TI.run (Config.fromGethCallConfig opts) TI.new (endedAs (ts.getLastD t).out u).events = .ok sf.1 ∧
      gethCallTraces env.decode sf.1.arena opts env.gasUsed = .ok sf.2 ∧ (r u).get? .call = some (.call sf.2) := by
    intro u
    by_cases hu : u ∈ t :: ts
    · obtain ⟨s, f, h⟩ := gives_calls hd hc (hall u hu).2.1
      exact ⟨(s, f), fun _ => h⟩
    · obtain ⟨s, f, h⟩ := gives_calls hd hc hF
      exact ⟨(s, f), fun h => absurd h hu⟩
  have hsp := fun u hu => Classical.choose_spec (hch u) hu
  obtain ⟨s, hs, hg⟩ := C135_logs env.decode (Config.fromGethCallConfig opts) opts env.gasUsed
    (fun u => (Classical.choose (hch u)).1) (fun u => (Classical.choose (hch u)).2) t ts
    (fun u hu => ⟨(hall u hu).1, (hsp u hu).1, (hsp u hu).2.1⟩) (fun u hu => (hall u hu).2.2) honly
  obtain ⟨s', f, hs', hf, hGf⟩ := gives_calls hd hc hF
  have he : s' = s := by
    rw [show eventsOf (t :: ts) = (t :: ts).flatMap Tx.events from rfl, hs] at hs'
    injection hs' with h; exact h.symm
  subst he
  rw [hg] at hf
  injection hf with hf
  exact ⟨_, fun u hu => (hsp u hu).2.2, by rw [hGf, ← hf]⟩

/-- **C138**, call frames of transactions that selfdestruct: without logs, and apart from the frames of selfdestructs,
the call tracer of a mux that was used for several transactions reports the root frame of the last one with the calls
of all of them, in order. -/
theorem C138_apart_from_selfdestructs {ε : Type} (env : MuxEnv ε) (c : MuxConfig) (hd : DistinctTypes c)
    (opts : CallConfig) (p : Option PreStateConfig) (q : MuxParse)
    (hc : (.call, some (.mk (some opts) p q)) ∈ entries c)
    (t : Tx) (ts : List Tx) (r : Tx → MuxFrame) (F : MuxFrame)
    (hall : ∀ u ∈ t :: ts, (u.WF ∧ Safe (Config.fromGethCallConfig opts) u.body) ∧ MuxGives env c u.events (r u))
    (hF : MuxGives env c (eventsOf (t :: ts)) F)
    (honly : opts.onlyTopCall.getD false = false) (hlog : opts.withLog.getD false = false) :
    ∃ (g : Tx → CallFrame) (f : CallFrame), (∀ u ∈ t :: ts, (r u).get? .call = some (.call (g u))) ∧
      F.get? .call = some (.call f) ∧
      withoutSd f = { withoutSd (g (ts.getLastD t)) with
        calls := (t :: ts).flatMap (fun u => (withoutSd (g u)).calls) } := by
  have hch : ∀ u, ∃ sf : TI × CallFrame, u ∈ t :: ts →
      TI.run (Config.fromGethCallConfig opts) TI.new u.events = .ok sf.1 ∧
      gethCallTraces env.decode sf.1.arena opts env.gasUsed = .ok sf.2 ∧ (r u).get? .call = some (.call sf.2) := by
    intro u
    by_cases hu : u ∈ t :: ts
    · obtain ⟨s, f, h⟩ := gives_calls hd hc (hall u hu).2
      exact ⟨(s, f), fun _ => h⟩
    · obtain ⟨s, f, h⟩ := gives_calls hd hc hF
      exact ⟨(s, f), fun h => absurd h hu⟩
  have hsp := fun u hu => Classical.choose_spec (hch u) hu
  obtain ⟨s, f, hs, hg, hw⟩ := C135_apart_from_selfdestructs env.decode (Config.fromGethCallConfig opts) opts
    env.gasUsed (fun u => (Classical.choose (hch u)).1) (fun u => (Classical.choose (hch u)).2) t ts
    (fun u hu => ⟨(hall u hu).1, (hsp u hu).1, (hsp u hu).2.1⟩) honly hlog
  obtain ⟨s', f', hs', hf, hGf⟩ := gives_calls hd hc hF
  have he : s' = s := by
    rw [show eventsOf (t :: ts) = (t :: ts).flatMap Tx.events from rfl, hs] at hs'
    injection hs' with h; exact h.symm
  subst he
  rw [hg] at hf
  injection hf with hf
  subst hf
  exact ⟨_, _, fun u hu => (hsp u hu).2.2, hGf, hw⟩

/-! ### Concrete cases -/

theorem callsWith_le (sel : Bytes) (size : Nat) (es : List Event) : callsWith sel size es ≤ es.length := by
  induction es with
  | nil => simp [callsWith]
  | cons e es ih =>
    unfold callsWith
    split
    · rename_i h; exact absurd h (by simp)
    · rename_i h
      injection h with h1 h2
      subst h2
      rw [List.length_cons]
      split <;> omega
    · rename_i h
      injection h with h1 h2
      subst h2
      rw [List.length_cons]
      omega

/-- `{"4byteTracer": null, "callTracer": {}, "prestateTracer": {}}`. -/
def threeTracers : MuxConfig :=
  .bare .fourByte (.conf .call (.mk (some {}) none .invalid) (.conf .preState (.mk none (some {}) .invalid) .nil))

theorem threeTracers_distinct : DistinctTypes threeTracers := by
  simp [threeTracers, DistinctTypes, DistinctIn, DistinctParse, types]

/-- A transaction with a selector that calls a contract. -/
def sentTx : Tx := { callerOf Op.ADD with hdr := StandaloneExample.hdr 5 [1, 2, 3, 4, 5] }

theorem sentTx_wf : sentTx.WF :=
  ⟨fun _ => rfl, fun h => absurd h Bool.false_ne_true, ⟨fun _ => rfl, fun h => absurd h Bool.false_ne_true,
    trivial, trivial⟩⟩

theorem sentTx_safe (cfg : Config) : Safe cfg sentTx.body :=
  ⟨Example.stepSafe _ _ _ _ (by decide), ⟨Example.stepSafe _ _ _ _ (by decide), trivial⟩, trivial⟩

/-- What a mux frame says about the calls of the root and about one selector. -/
def muxSummary (F : MuxFrame) : Option Nat × Option Nat :=
  ((F.get? .call).bind fun
    | .call f => some f.calls.length
    | _ => none,
   (F.get? .fourByte).bind fun
    | .fourByte f => AMap.get? f "0x01020304-1".toList
    | _ => none)

/-- The frame of a new mux that is told this history. -/
def muxRun {ε : Type} (env : MuxEnv ε) (c : MuxConfig) (es : List Event) : Option MuxFrame :=
  match Mux.ofConfig c with
  | .error _ => none
  | .ok m =>
    match runReplies Mux.respond m es with
    | .error _ => none
    | .ok m' =>
      match m'.tryIntoFrame env with
      | .error _ => none
      | .ok F => some F

theorem muxRun_gives {ε : Type} {env : MuxEnv ε} {c : MuxConfig} {es : List Event} {F : MuxFrame}
    (h : muxRun env c es = some F) : MuxGives env c es F := by
  unfold muxRun at h
  split at h
  · simp at h
  · rename_i m hm
    split at h
    · simp at h
    · rename_i m' hm'
      split at h
      · simp at h
      · rename_i G hG
        injection h with h
        subst h
        exact ⟨m, m', hm, hm', hG⟩

theorem sentTx_once : ∃ F, MuxGives MuxExamples.env threeTracers sentTx.events F ∧
    muxSummary F = (some 1, some 2) := by
  have h : (muxRun MuxExamples.env threeTracers sentTx.events).map muxSummary = some (some 1, some 2) := by
    decide +kernel
  obtain ⟨F, hF, hs⟩ := Option.map_eq_some_iff.1 h
  exact ⟨F, muxRun_gives hF, hs⟩

theorem sentTx_twice : ∃ F, MuxGives MuxExamples.env threeTracers (eventsOf [sentTx, sentTx]) F ∧
    muxSummary F = (some 2, some 4) := by
  have h : (muxRun MuxExamples.env threeTracers (eventsOf [sentTx, sentTx])).map muxSummary =
      some (some 2, some 4) := by
    decide +kernel
  obtain ⟨F, hF, hs⟩ := Option.map_eq_some_iff.1 h
  exact ⟨F, muxRun_gives hF, hs⟩

/-- **C138** does not hold: a transaction with one call below its root, executed twice with the same mux, is
reported with two calls, and its selector (used in both calls) is counted four times instead of twice. -/
theorem C138_refuted : ∃ (t : Tx) (F F2 : MuxFrame), (t.WF ∧ ∀ cfg, Safe cfg t.body) ∧
    MuxGives MuxExamples.env threeTracers t.events F ∧ MuxGives MuxExamples.env threeTracers (eventsOf [t, t]) F2 ∧
    muxSummary F = (some 1, some 2) ∧ muxSummary F2 = (some 2, some 4) := by
  obtain ⟨F, hF, hs⟩ := sentTx_once
  obtain ⟨F2, hF2, hs2⟩ := sentTx_twice
  exact ⟨sentTx, F, F2, ⟨sentTx_wf, sentTx_safe⟩, hF, hF2, hs, hs2⟩

/-- The two executions meet the hypotheses of the theorems. -/
example : ∃ (r : Tx → MuxFrame) (F : MuxFrame),
    MuxGives MuxExamples.env threeTracers (eventsOf [sentTx, sentTx]) F ∧
    F.get? .preState = (r sentTx).get? .preState ∧
    ∃ g : Tx → CallFrame, (r sentTx).get? .call = some (.call (g sentTx)) ∧
      F.get? .call = some (.call { g sentTx with calls := (g sentTx).calls ++ (g sentTx).calls }) := by
  obtain ⟨F, hF, -⟩ := sentTx_once
  obtain ⟨F2, hF2, -⟩ := sentTx_twice
  obtain ⟨g, h1, h2⟩ := C138_calls MuxExamples.env threeTracers threeTracers_distinct {} none .invalid
    (by simp [threeTracers, entries]) sentTx [sentTx] (fun _ => F) F2
    (by
      intro u hu
      have : u = sentTx := by simpa using hu
      subst this
      exact ⟨⟨sentTx_wf, sentTx_safe _⟩, hF, by decide⟩) hF2 rfl rfl
  refine ⟨fun _ => F, F2, hF2, C138_state_partial _ _ threeTracers_distinct _ _ _ _ hF2 hF _ (.inl rfl), g,
    h1 _ (by simp), ?_⟩
  simpa using h2

/-- They also meet those of `C138_logs`. -/
example : ∃ (F : MuxFrame) (g : Tx → CallFrame),
    MuxGives MuxExamples.env threeTracers (eventsOf [sentTx, sentTx]) F ∧
    F.get? .call = some (.call { g sentTx with
      calls := [sentTx, sentTx].flatMap (fun u => (g u).calls)
      logs := [sentTx, sentTx].flatMap (fun u => (g u).logs.map (fun l =>
        { l with address := frameAccount (g sentTx) })) }) := by
  obtain ⟨F, hF, -⟩ := sentTx_once
  obtain ⟨F2, hF2, -⟩ := sentTx_twice
  obtain ⟨g, -, h2⟩ := C138_logs MuxExamples.env threeTracers threeTracers_distinct {} none .invalid
    (by simp [threeTracers, entries]) sentTx [sentTx] (fun _ => F) F2
    (by
      intro u hu
      have : u = sentTx := by simpa using hu
      subst this
      exact ⟨⟨sentTx_wf, sentTx_safe _⟩, hF, by decide, rfl⟩) hF2 rfl
  exact ⟨F2, g, hF2, h2⟩

/-- The selector is seen as often as the two executions together see it. -/
example : ∃ (n : Tx → AMap (List Char) Nat) (F : MuxFrame) (f : AMap (List Char) Nat),
    MuxGives MuxExamples.env threeTracers (eventsOf [sentTx, sentTx]) F ∧
    F.get? .fourByte = some (.fourByte f) ∧
      (AMap.get? f (fourByteKey ([1, 2, 3, 4], 1))).getD 0 =
        (AMap.get? (n sentTx) (fourByteKey ([1, 2, 3, 4], 1))).getD 0 +
        (AMap.get? (n sentTx) (fourByteKey ([1, 2, 3, 4], 1))).getD 0 := by
  obtain ⟨F, hF, -⟩ := sentTx_once
  obtain ⟨F2, hF2, -⟩ := sentTx_twice
  have hle : ∀ sel size, callsWith sel size sentTx.events ≤ sentTx.events.length :=
    fun sel size => callsWith_le sel size _
  obtain ⟨n, f, -, h2, h3⟩ := C138_fourbyte _ _ threeTracers_distinct (by simp [threeTracers, types])
    [sentTx, sentTx] (fun _ => F) F2
    (by
      intro t ht
      have : t = sentTx := by simpa using ht
      subst this
      exact hF) hF2
    (by
      intro sel size
      have h1 := hle sel size
      have h2 : sentTx.events.length < 100 := by decide
      simp only [List.map_cons, List.map_nil, List.sum_cons, List.sum_nil]
      omega)
  refine ⟨n, F2, f, hF2, h2, ?_⟩
  have := h3 [1, 2, 3, 4] 1 rfl
  simpa using this

/-- `{"callTracer": {"withLog": true}}`. -/
def logTracer : MuxConfig := .conf .call (.mk (some { withLog := some true }) none .invalid) .nil

theorem logTracer_distinct : DistinctTypes logTracer := by
  simp [logTracer, DistinctTypes, DistinctIn, DistinctParse, types]

/-- The logs of the root frame that the call tracer of a mux reports. -/
def muxLogs (F : MuxFrame) : Option (List CallLogFrame) :=
  (F.get? .call).bind fun
    | .call f => some f.logs
    | _ => none

theorem loggerTx_gives (es : List Event) (l : List CallLogFrame)
    (h : (muxRun MuxExamples.env logTracer es).map muxLogs = some (some l)) :
    ∃ F, MuxGives MuxExamples.env logTracer es F ∧ muxLogs F = some l := by
  obtain ⟨F, hF, hs⟩ := Option.map_eq_some_iff.1 h
  exact ⟨F, muxRun_gives hF, hs⟩

/-- A reverted transaction with a log and then a successful one meet the hypotheses of `C138_logs_ended`: both logs
are reported. -/
example : ∃ (F : MuxFrame) (g : Tx → CallFrame),
    MuxGives MuxExamples.env logTracer (eventsOf [loggerTx 0xa 7 .Revert, loggerTx 0xb 8 .Stop]) F ∧
    muxLogs F = some [⟨some 0xb, some [7], some [2]⟩, ⟨some 0xb, some [8], some [2]⟩] ∧
    F.get? .call = some (.call { g (loggerTx 0xb 8 .Stop) with
      calls := [loggerTx 0xa 7 .Revert, loggerTx 0xb 8 .Stop].flatMap (fun u => (g u).calls)
      logs := [loggerTx 0xa 7 .Revert, loggerTx 0xb 8 .Stop].flatMap (fun u => (g u).logs.map (fun l =>
        { l with address := frameAccount (g (loggerTx 0xb 8 .Stop)) })) }) := by
  obtain ⟨F1, hF1, -⟩ := loggerTx_gives (endedAs (Example.out .Stop) (loggerTx 0xa 7 .Revert)).events
    [⟨some 0xa, some [7], some [2]⟩] (by decide +kernel)
  obtain ⟨F2, hF2, -⟩ := loggerTx_gives (endedAs (Example.out .Stop) (loggerTx 0xb 8 .Stop)).events
    [⟨some 0xb, some [8], some [2]⟩] (by decide +kernel)
  obtain ⟨F, hF, hl⟩ := loggerTx_gives (eventsOf [loggerTx 0xa 7 .Revert, loggerTx 0xb 8 .Stop])
    [⟨some 0xb, some [7], some [2]⟩, ⟨some 0xb, some [8], some [2]⟩] (by decide +kernel)
  have hch : ∀ u : Tx, ∃ G : MuxFrame, u ∈ [loggerTx 0xa 7 .Revert, loggerTx 0xb 8 .Stop] →
      MuxGives MuxExamples.env logTracer (endedAs (Example.out .Stop) u).events G := by
    intro u
    by_cases hu : u ∈ [loggerTx 0xa 7 .Revert, loggerTx 0xb 8 .Stop]
    · rcases mem_two.1 hu with rfl | rfl
      · exact ⟨F1, fun _ => hF1⟩
      · exact ⟨F2, fun _ => hF2⟩
    · exact ⟨F, fun h => absurd h hu⟩
  obtain ⟨g, -, h⟩ := C138_logs_ended MuxExamples.env logTracer logTracer_distinct { withLog := some true } none
    .invalid (by simp [logTracer, entries]) (loggerTx 0xa 7 .Revert) [loggerTx 0xb 8 .Stop]
    (fun u => Classical.choose (hch u)) F
    (by
      intro u hu
      refine ⟨?_, Classical.choose_spec (hch u) hu, ?_⟩
      · rcases mem_two.1 hu with rfl | rfl
        · exact ⟨loggerTx_a _, trivial⟩
        · exact ⟨loggerTx_b, trivial⟩
      · rcases mem_two.1 hu with rfl | rfl <;> decide) hF rfl
  exact ⟨F, g, hF, hl, h⟩

/-- Two transactions whose first call selfdestructs meet the hypotheses of `C138_apart_from_selfdestructs`. -/
example : ∃ (F : MuxFrame) (g : Tx → CallFrame) (f : CallFrame),
    MuxGives MuxExamples.env threeTracers (eventsOf [destroyerTx, destroyerTx]) F ∧
    F.get? .call = some (.call f) ∧
    withoutSd f = { withoutSd (g destroyerTx) with
      calls := [destroyerTx, destroyerTx].flatMap (fun u => (withoutSd (g u)).calls) } := by
  obtain ⟨F, hF, -⟩ := Option.map_eq_some_iff.1 (show (muxRun MuxExamples.env threeTracers
    destroyerTx.events).map (fun F => (muxSummary F).1) = some (some 2) by decide +kernel)
  obtain ⟨F2, hF2, -⟩ := Option.map_eq_some_iff.1 (show (muxRun MuxExamples.env threeTracers
    (eventsOf [destroyerTx, destroyerTx])).map (fun F => (muxSummary F).1) = some (some 3) by decide +kernel)
  obtain ⟨g, f, -, h2, h3⟩ := C138_apart_from_selfdestructs MuxExamples.env threeTracers threeTracers_distinct {} none
    .invalid (by simp [threeTracers, entries]) destroyerTx [destroyerTx] (fun _ => F) F2
    (by
      intro u hu
      have : u = destroyerTx := by simpa using hu
      subst this
      exact ⟨⟨⟨fun _ => rfl, fun h => absurd h (by decide),
        ⟨fun _ => rfl, fun h => absurd h (by decide), trivial, trivial⟩⟩, ⟨trivial, trivial⟩⟩, muxRun_gives hF⟩)
    (muxRun_gives hF2) rfl rfl
  exact ⟨F2, g, f, muxRun_gives hF2, h2, h3⟩

end Verif.Props
