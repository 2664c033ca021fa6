import Verif.Lemmas.Mux
/-! C15, C42, C43: observers, independence of the tracers of a mux, validation of its configuration. -/
namespace Verif
namespace Props
open Spec

/-! ### C15 -/

/-- C15: in every state, for every hook call, the reply of each of the inspectors is the passive one:
no override from `call`/`create`, the outcome unchanged from `call_end`/`create_end`. -/
theorem C15_observers (cfg : Config) (known : OpCode → Bool) (internalOnly : Bool) (e : Event)
    (r : Reply) :
    (∀ s s' : TI, TI.respond cfg s e = .ok (s', r) → Passive e r) ∧
    (∀ s s' : FourByte, fourByteRespond s e = .ok (s', r) → Passive e r) ∧
    (∀ s s' : OpcodeGas, OpcodeGas.respond known s e = .ok (s', r) → Passive e r) ∧
    (∀ s s' : Nat, opcountRespond s e = .ok (s', r) → Passive e r) ∧
    (∀ s s' : AccessList, AccessList.respond s e = .ok (s', r) → Passive e r) ∧
    (∀ s s' : List Transfer, transferRespond internalOnly s e = .ok (s', r) → Passive e r) ∧
    (∀ m m' : Mux, Mux.respond m e = .ok (m', r) → Passive e r) := by
  have key : ∀ {σ : Type} (x : R σ) (s' : σ),
      x.map (fun s' => (s', Reply.default e)) = .ok (s', r) → Passive e r := by
    intro σ x s' h
    rw [passive_iff]
    cases x with
    | error p => simp [Except.map] at h
    | ok s1 =>
      simp only [Except.map, Except.ok.injEq, Prod.mk.injEq] at h
      exact h.2.symm
  refine ⟨?_, ?_, ?_, ?_, ?_, ?_, ?_⟩
  · intro s s' h; rw [TI.respond_eq] at h; exact key _ _ h
  · intro s s' h; rw [fourByteRespond_eq] at h; exact key _ _ h
  · intro s s' h; rw [OpcodeGas.respond_eq] at h; exact key _ _ h
  · intro s s' h; rw [opcountRespond_eq] at h; exact key _ _ h
  · intro s s' h; rw [AccessList.respond_eq] at h; exact key _ _ h
  · intro s s' h; rw [transferRespond_eq] at h; exact key _ _ h
  · intro m m' h; rw [passive_iff]; exact Mux.respond_default m e m' r h

/-! ### C43 -/

mutual
theorem fresh_of_ok : ∀ (t : TracerType) (c : TracerConfig) (d : Delegate),
    Delegate.ofConfig t c = .ok d → ValidFor t c ∧ Fresh t c d
  | t, .mk a p m, d, h => by
    cases t <;> simp only [Delegate.ofConfig] at h
    · simp at h
    · cases a with
      | none => simp at h
      | some cc =>
        simp only [Except.ok.injEq] at h
        subst h
        exact ⟨by simp [ValidFor], .call⟩
    · cases p with
      | none => simp at h
      | some cc =>
        simp only [Except.ok.injEq] at h
        subst h
        exact ⟨by simp [ValidFor], .preState⟩
    · simp at h
    · cases hm : Mux.ofParse m with
      | error e => simp [hm] at h
      | ok m1 =>
        simp only [hm, Except.ok.injEq] at h
        subst h
        obtain ⟨hv, c, hc, hq⟩ := requested_of_parse m m1 hm
        subst hc
        exact ⟨by simpa [ValidFor] using hv, .mux hq⟩
  termination_by structural _ c => c

theorem requested_of_parse : ∀ (p : MuxParse) (m : Mux), Mux.ofParse p = .ok m →
    ValidParse p ∧ ∃ c, p = .config c ∧ Requested c m
  | .invalid, m, h => by simp [Mux.ofParse] at h
  | .config c, m, h => by
    simp only [Mux.ofParse] at h
    obtain ⟨hv, hq⟩ := requested_of_ok c m h
    exact ⟨by simpa [ValidParse] using hv, c, rfl, hq⟩
  termination_by structural p => p

theorem requested_of_ok : ∀ (c : MuxConfig) (m : Mux), Mux.ofConfig c = .ok m →
    Valid c ∧ Requested c m
  | .nil, m, h => by
    simp only [Mux.ofConfig, Except.ok.injEq] at h
    subst h
    exact ⟨by simp [Valid], .nil⟩
  | .bare t rest, m, h => by
    cases t <;> simp only [Mux.ofConfig] at h
    · cases hr : Mux.ofConfig rest with
      | error e => simp [hr] at h
      | ok m1 =>
        simp only [hr, Except.ok.injEq] at h
        subst h
        obtain ⟨hv, hq⟩ := requested_of_ok rest m1 hr
        exact ⟨by simp [Valid, NeedsConfig, hv], .fourByte hq⟩
    · simp at h
    · simp at h
    · cases hr : Mux.ofConfig rest with
      | error e => simp [hr] at h
      | ok m1 =>
        simp only [hr, Except.ok.injEq] at h
        subst h
        obtain ⟨hv, hq⟩ := requested_of_ok rest m1 hr
        exact ⟨by simp [Valid, NeedsConfig, hv], .noop hq⟩
    · simp at h
  | .conf t c rest, m, h => by
    simp only [Mux.ofConfig] at h
    cases hd : Delegate.ofConfig t c with
    | error e => simp [hd] at h
    | ok d =>
      cases hr : Mux.ofConfig rest with
      | error e => simp [hd, hr] at h
      | ok m1 =>
        simp only [hd, hr, Except.ok.injEq] at h
        subst h
        obtain ⟨hv, hq⟩ := requested_of_ok rest m1 hr
        obtain ⟨hv1, hq1⟩ := fresh_of_ok t c d hd
        exact ⟨by simp [Valid, hv, hv1], .conf hq1 hq⟩
  termination_by structural c => c
end

mutual
theorem faultOf_of_error : ∀ (t : TracerType) (c : TracerConfig) (e : MuxError),
    Delegate.ofConfig t c = .error e → ¬ ValidFor t c ∧ FaultOf t c e
  | t, .mk a p m, e, h => by
    cases t <;> simp only [Delegate.ofConfig] at h
    · simp only [Except.error.injEq] at h
      subst h
      exact ⟨by simp [ValidFor], .unexpected (by simp [NeedsConfig])⟩
    · cases a with
      | none =>
        simp only [Except.error.injEq] at h
        subst h
        exact ⟨by simp [ValidFor], .call⟩
      | some cc => simp at h
    · cases p with
      | none =>
        simp only [Except.error.injEq] at h
        subst h
        exact ⟨by simp [ValidFor], .preState⟩
      | some cc => simp at h
    · simp only [Except.error.injEq] at h
      subst h
      exact ⟨by simp [ValidFor], .unexpected (by simp [NeedsConfig])⟩
    · cases hm : Mux.ofParse m with
      | ok m1 => simp [hm] at h
      | error e1 =>
        simp only [hm, Except.error.injEq] at h
        subst h
        obtain ⟨hv, hq⟩ := fault_of_parse m e1 hm
        refine ⟨by simpa [ValidFor] using hv, ?_⟩
        rcases hq with ⟨h1, h2⟩ | ⟨c, h1, h2⟩
        · subst h1 h2; exact .mux
        · subst h1; exact .nested h2
  termination_by structural _ c => c

theorem fault_of_parse : ∀ (p : MuxParse) (e : MuxError), Mux.ofParse p = .error e →
    ¬ ValidParse p ∧ ((p = .invalid ∧ e = .invalidConfig) ∨ ∃ c, p = .config c ∧ Fault c e)
  | .invalid, e, h => by
    simp only [Mux.ofParse, Except.error.injEq] at h
    exact ⟨by simp [ValidParse], .inl ⟨rfl, h.symm⟩⟩
  | .config c, e, h => by
    simp only [Mux.ofParse] at h
    obtain ⟨hv, hq⟩ := fault_of_error c e h
    exact ⟨by simpa [ValidParse] using hv, .inr ⟨c, rfl, hq⟩⟩
  termination_by structural p => p

theorem fault_of_error : ∀ (c : MuxConfig) (e : MuxError), Mux.ofConfig c = .error e →
    ¬ Valid c ∧ Fault c e
  | .nil, e, h => by simp [Mux.ofConfig] at h
  | .bare t rest, e, h => by
    cases t <;> simp only [Mux.ofConfig] at h
    · cases hr : Mux.ofConfig rest with
      | ok m1 => simp [hr] at h
      | error e1 =>
        simp only [hr, Except.error.injEq] at h
        subst h
        obtain ⟨hv, hq⟩ := fault_of_error rest e1 hr
        exact ⟨by simp [Valid, hv], .afterBare (by simp [NeedsConfig]) hq⟩
    · simp only [Except.error.injEq] at h
      subst h
      exact ⟨by simp [Valid, NeedsConfig], .missing (by simp [NeedsConfig])⟩
    · simp only [Except.error.injEq] at h
      subst h
      exact ⟨by simp [Valid, NeedsConfig], .missing (by simp [NeedsConfig])⟩
    · cases hr : Mux.ofConfig rest with
      | ok m1 => simp [hr] at h
      | error e1 =>
        simp only [hr, Except.error.injEq] at h
        subst h
        obtain ⟨hv, hq⟩ := fault_of_error rest e1 hr
        exact ⟨by simp [Valid, hv], .afterBare (by simp [NeedsConfig]) hq⟩
    · simp only [Except.error.injEq] at h
      subst h
      exact ⟨by simp [Valid, NeedsConfig], .missing (by simp [NeedsConfig])⟩
  | .conf t c rest, e, h => by
    simp only [Mux.ofConfig] at h
    cases hd : Delegate.ofConfig t c with
    | error e1 =>
      simp only [hd, Except.error.injEq] at h
      subst h
      obtain ⟨hv, hq⟩ := faultOf_of_error t c e1 hd
      exact ⟨by simp [Valid, hv], .here hq⟩
    | ok d =>
      cases hr : Mux.ofConfig rest with
      | ok m1 => simp [hd, hr] at h
      | error e1 =>
        simp only [hd, hr, Except.error.injEq] at h
        subst h
        obtain ⟨hv, hq⟩ := fault_of_error rest e1 hr
        exact ⟨by simp [Valid, hv], .afterConf (fresh_of_ok t c d hd).1 hq⟩
  termination_by structural c => c
end

/-- C43: a mux is made exactly from the valid configurations; its tracers are then fresh ones of the
requested types, in order. -/
theorem C43_validation (c : MuxConfig) :
    ((∃ m, Mux.ofConfig c = .ok m) ↔ Valid c) ∧
    ∀ m, Mux.ofConfig c = .ok m → Requested c m := by
  refine ⟨⟨?_, ?_⟩, fun m h => (requested_of_ok c m h).2⟩
  · rintro ⟨m, h⟩; exact (requested_of_ok c m h).1
  · intro hv
    cases h : Mux.ofConfig c with
    | ok m => exact ⟨m, rfl⟩
    | error e => exact absurd hv (fault_of_error c e h).1

/-- C43: the error reported is what is wrong with the first wrong entry. -/
theorem C43_error (c : MuxConfig) (e : MuxError) (h : Mux.ofConfig c = .error e) : Fault c e :=
  (fault_of_error c e h).2

/-! ### C42 -/

theorem toOption_eq_some {ε α : Type} {x : Except ε α} {a : α} :
    x.toOption = some a ↔ x = .ok a := by
  cases x <;> simp [Except.toOption]

theorem alone_fourByte {ε : Type} (env : MuxEnv ε) (es : List Event) (x : GethTrace) :
    (∃ d', runReplies Delegate.respond (.fourByte []) es = .ok d' ∧
      Delegate.intoTrace env d' = .ok x) ↔ (aloneFourByte (ε := ε) es).toOption = some x := by
  rw [run_fourByte, toOption_eq_some]
  unfold aloneFourByte
  cases runHooks fourByteHook [] es with
  | error p => simp [Except.map, orPanic, bind, Except.bind]
  | ok s => simp [Except.map, orPanic, bind, Except.bind, pure, Except.pure, Delegate.intoTrace]

theorem alone_call {ε : Type} (env : MuxEnv ε) (es : List Event) (cc : CallConfig)
    (x : GethTrace) :
    (∃ d', runReplies Delegate.respond (.call cc (Config.fromGethCallConfig cc) TI.new) es = .ok d' ∧
      Delegate.intoTrace env d' = .ok x) ↔ (aloneCall env es cc).toOption = some x := by
  rw [run_call, toOption_eq_some]
  unfold aloneCall
  cases TI.run (Config.fromGethCallConfig cc) TI.new es with
  | error p => simp [Except.map, orPanic, bind, Except.bind]
  | ok s =>
    simp only [Except.map, orPanic, bind, Except.bind, pure, Except.pure, Except.ok.injEq]
    constructor
    · rintro ⟨d', h1, h2⟩
      subst h1
      simp only [Delegate.intoTrace] at h2
      cases hg : gethCallTraces env.decode s.arena cc env.gasUsed with
      | error p => simp [hg] at h2
      | ok f => simpa [hg] using h2
    · intro h
      refine ⟨_, rfl, ?_⟩
      simp only [Delegate.intoTrace]
      cases hg : gethCallTraces env.decode s.arena cc env.gasUsed with
      | error p => simp [hg] at h
      | ok f => simpa [hg] using h

theorem alone_prestate {ε : Type} (env : MuxEnv ε) (es : List Event) (pc : PreStateConfig)
    (x : GethTrace) :
    (∃ d', runReplies Delegate.respond (.prestate pc (Config.fromGethPrestateConfig pc) TI.new) es =
        .ok d' ∧ Delegate.intoTrace env d' = .ok x) ↔
      (alonePreState env es pc).toOption = some x := by
  rw [run_prestate, toOption_eq_some]
  unfold alonePreState
  cases TI.run (Config.fromGethPrestateConfig pc) TI.new es with
  | error p => simp [Except.map, orPanic, bind, Except.bind]
  | ok s =>
    simp only [Except.map, orPanic, bind, Except.bind, Except.ok.injEq]
    constructor
    · rintro ⟨d', h1, h2⟩
      subst h1
      simp only [Delegate.intoTrace] at h2
      cases hg : gethPrestateTraces env.db env.state pc with
      | error p => simp [hg] at h2
      | ok f => simpa [hg] using h2
    · intro h
      refine ⟨_, rfl, ?_⟩
      simp only [Delegate.intoTrace]
      cases hg : gethPrestateTraces env.db env.state pc with
      | error p => simp [hg] at h
      | ok f => simpa [hg] using h

/-- A mux whose first tracer is `d`. -/
theorem frame_cons {ε : Type} (env : MuxEnv ε) (es : List Event) (t : TracerType) (d : Delegate)
    (m : Mux) (ht : t ∉ m.keys) (hn : m.keys.Nodup) (F : MuxFrame) :
    (∃ m', runReplies Mux.respond (.cons t d m) es = .ok m' ∧
      Mux.intoFrameLoop env .nil m' = .ok F) ↔
    ∃ x G, F = .cons t x G ∧
      (∃ d', runReplies Delegate.respond d es = .ok d' ∧ Delegate.intoTrace env d' = .ok x) ∧
      (∃ m', runReplies Mux.respond m es = .ok m' ∧ Mux.intoFrameLoop env .nil m' = .ok G) := by
  constructor
  · rintro ⟨m', h1, h2⟩
    obtain ⟨d', rest', he, hd, hr⟩ := (run_cons t es d m m').mp h1
    subst he
    have hk := run_keys es m rest' hr
    rw [intoFrameLoop_cons env t d' rest' (by rw [hk]; exact ht) (by rw [hk]; exact hn)] at h2
    cases hx : Delegate.intoTrace env d' with
    | error e => simp [hx] at h2
    | ok x =>
      cases hG : Mux.intoFrameLoop env .nil rest' with
      | error e => simp [hx, hG, Except.map] at h2
      | ok G =>
        simp only [hx, hG, Except.map, Except.ok.injEq] at h2
        exact ⟨x, G, h2.symm, ⟨d', hd, hx⟩, rest', hr, hG⟩
  · rintro ⟨x, G, hF, ⟨d', hd, hx⟩, rest', hr, hG⟩
    refine ⟨.cons t d' rest', (run_cons t es d m _).mpr ⟨d', rest', rfl, hd, hr⟩, ?_⟩
    have hk := run_keys es m rest' hr
    rw [intoFrameLoop_cons env t d' rest' (by rw [hk]; exact ht) (by rw [hk]; exact hn), hx, hG, hF]
    rfl

mutual
theorem delegate_alone {ε : Type} (env : MuxEnv ε) (es : List Event) (t : TracerType) :
    ∀ (c : TracerConfig) (_ : DistinctIn c) (x : GethTrace),
      (∃ d, Delegate.ofConfig t c = .ok d ∧ ∃ d', runReplies Delegate.respond d es = .ok d' ∧
        Delegate.intoTrace env d' = .ok x) ↔ alone env es t c = some x
  | .mk a p m, hc, x => by
    cases t
    · simp [Delegate.ofConfig, alone]
    · cases a with
      | none => simp [Delegate.ofConfig, alone]
      | some cc =>
        simp only [Delegate.ofConfig, alone, Option.bind_some, Except.ok.injEq]
        rw [← alone_call]
        simp
    · cases p with
      | none => simp [Delegate.ofConfig, alone]
      | some pc =>
        simp only [Delegate.ofConfig, alone, Option.bind_some, Except.ok.injEq]
        rw [← alone_prestate]
        simp
    · simp [Delegate.ofConfig, alone]
    · simp only [DistinctIn] at hc
      have ih := parse_alone env es m hc
      simp only [alone, Option.map_eq_some_iff]
      constructor
      · rintro ⟨d, h1, d', h2, h3⟩
        simp only [Delegate.ofConfig] at h1
        cases hm : Mux.ofParse m with
        | error e => simp [hm] at h1
        | ok m1 =>
          simp only [hm, Except.ok.injEq] at h1
          subst h1
          rw [run_mux] at h2
          cases hr : runReplies Mux.respond m1 es with
          | error p => simp [hr, Except.map] at h2
          | ok m2 =>
            simp only [hr, Except.map, Except.ok.injEq] at h2
            subst h2
            simp only [Delegate.intoTrace] at h3
            cases hl : Mux.intoFrameLoop env .nil m2 with
            | error e => simp [hl] at h3
            | ok F =>
              simp only [hl, Except.ok.injEq] at h3
              exact ⟨F, (ih F).mp ⟨m1, hm, m2, hr, hl⟩, h3⟩
      · rintro ⟨F, h1, h2⟩
        obtain ⟨m1, hm, m2, hr, hl⟩ := (ih F).mpr h1
        refine ⟨.mux m1, by simp [Delegate.ofConfig, hm], .mux m2, ?_, ?_⟩
        · rw [run_mux, hr]; rfl
        · simp [Delegate.intoTrace, hl, h2]
  termination_by structural c => c

theorem parse_alone {ε : Type} (env : MuxEnv ε) (es : List Event) :
    ∀ (p : MuxParse) (_ : DistinctParse p) (F : MuxFrame),
      (∃ m, Mux.ofParse p = .ok m ∧ ∃ m', runReplies Mux.respond m es = .ok m' ∧
        Mux.intoFrameLoop env .nil m' = .ok F) ↔ aloneParse env es p = some F
  | .invalid, _, F => by simp [Mux.ofParse, aloneParse]
  | .config c, h, F => by
    simp only [DistinctParse] at h
    simpa only [Mux.ofParse, aloneParse] using mux_alone env es c h F
  termination_by structural p => p

theorem mux_alone {ε : Type} (env : MuxEnv ε) (es : List Event) :
    ∀ (c : MuxConfig) (_ : DistinctTypes c) (F : MuxFrame),
      (∃ m, Mux.ofConfig c = .ok m ∧ ∃ m', runReplies Mux.respond m es = .ok m' ∧
        Mux.intoFrameLoop env .nil m' = .ok F) ↔ aloneAll env es c = some F
  | .nil, _, F => by
    simp only [Mux.ofConfig, aloneAll, Except.ok.injEq, Option.some.injEq]
    constructor
    · rintro ⟨m, h1, m', h2, h3⟩
      subst h1
      rw [run_nil] at h2
      simp only [Except.ok.injEq] at h2
      subst h2
      simpa [Mux.intoFrameLoop] using h3
    · intro h
      exact ⟨.nil, rfl, .nil, run_nil es, by simpa [Mux.intoFrameLoop] using h⟩
  | .bare t rest, hd, F => by
    simp only [DistinctTypes] at hd
    have ih := mux_alone env es rest hd.2
    have hn := types_nodup rest hd.2
    cases t
    · simp only [Mux.ofConfig, aloneAll, Option.bind_eq_some_iff, Option.map_eq_some_iff]
      constructor
      · rintro ⟨m, h1, h2⟩
        cases hr : Mux.ofConfig rest with
        | error e => simp [hr] at h1
        | ok m1 =>
          simp only [hr, Except.ok.injEq] at h1
          subst h1
          have hk := ofConfig_keys rest m1 hr
          obtain ⟨x, G, hF, hx, hG⟩ := (frame_cons env es _ _ m1 (by rw [hk]; exact hd.1)
            (by rw [hk]; exact hn) F).mp h2
          exact ⟨x, (alone_fourByte env es x).mp hx, G, (ih G).mp ⟨m1, hr, hG⟩, hF.symm⟩
      · rintro ⟨x, hx, G, hG, hF⟩
        obtain ⟨m1, hr, hm⟩ := (ih G).mpr hG
        have hk := ofConfig_keys rest m1 hr
        exact ⟨_, by rw [hr], (frame_cons env es _ _ m1 (by rw [hk]; exact hd.1)
            (by rw [hk]; exact hn) F).mpr ⟨x, G, hF.symm, (alone_fourByte env es x).mpr hx, hm⟩⟩
    · simp [Mux.ofConfig, aloneAll]
    · simp [Mux.ofConfig, aloneAll]
    · simp only [Mux.ofConfig, aloneAll, Option.map_eq_some_iff]
      constructor
      · rintro ⟨m, h1, h2⟩
        cases hr : Mux.ofConfig rest with
        | error e => simp [hr] at h1
        | ok m1 =>
          simp only [hr, Except.ok.injEq] at h1
          subst h1
          have hk := ofConfig_keys rest m1 hr
          obtain ⟨x, G, hF, ⟨d', hd', hx⟩, hG⟩ := (frame_cons env es _ _ m1
            (by rw [hk]; exact hd.1) (by rw [hk]; exact hn) F).mp h2
          rw [run_noop] at hd'
          simp only [Except.ok.injEq] at hd'
          subst hd'
          simp only [Delegate.intoTrace, Except.ok.injEq] at hx
          subst hx
          exact ⟨G, (ih G).mp ⟨m1, hr, hG⟩, hF.symm⟩
      · rintro ⟨G, hG, hF⟩
        obtain ⟨m1, hr, hm⟩ := (ih G).mpr hG
        have hk := ofConfig_keys rest m1 hr
        exact ⟨_, by rw [hr], (frame_cons env es _ _ m1 (by rw [hk]; exact hd.1)
            (by rw [hk]; exact hn) F).mpr
              ⟨.noop, G, hF.symm, ⟨.noop, run_noop es, by simp [Delegate.intoTrace]⟩, hm⟩⟩
    · simp [Mux.ofConfig, aloneAll]
  | .conf t c rest, hd, F => by
    simp only [DistinctTypes] at hd
    have ih := mux_alone env es rest hd.2.2
    have ihd := delegate_alone env es t c hd.2.1
    have hn := types_nodup rest hd.2.2
    simp only [Mux.ofConfig, aloneAll, Option.bind_eq_some_iff, Option.map_eq_some_iff]
    constructor
    · rintro ⟨m, h1, h2⟩
      cases hdc : Delegate.ofConfig t c with
      | error e => simp [hdc] at h1
      | ok d =>
        cases hr : Mux.ofConfig rest with
        | error e => simp [hdc, hr] at h1
        | ok m1 =>
          simp only [hdc, hr, Except.ok.injEq] at h1
          subst h1
          have hk := ofConfig_keys rest m1 hr
          obtain ⟨x, G, hF, hx, hG⟩ := (frame_cons env es _ _ m1 (by rw [hk]; exact hd.1)
            (by rw [hk]; exact hn) F).mp h2
          exact ⟨x, (ihd x).mp ⟨d, hdc, hx⟩, G, (ih G).mp ⟨m1, hr, hG⟩, hF.symm⟩
    · rintro ⟨x, hx, G, hG, hF⟩
      obtain ⟨d, hdc, hx'⟩ := (ihd x).mpr hx
      obtain ⟨m1, hr, hm⟩ := (ih G).mpr hG
      have hk := ofConfig_keys rest m1 hr
      exact ⟨_, by rw [hdc, hr], (frame_cons env es _ _ m1 (by rw [hk]; exact hd.1)
          (by rw [hk]; exact hn) F).mpr ⟨x, G, hF.symm, hx', hm⟩⟩
  termination_by structural c => c
end

theorem aloneAll_entries {ε : Type} (env : MuxEnv ε) (es : List Event) :
    ∀ (c : MuxConfig) (_ : DistinctTypes c) (F : MuxFrame), aloneAll env es c = some F →
      F.keys = types c ∧
      ∀ e ∈ entries c, ∃ x, aloneEntry env es e = some x ∧ F.get? e.1 = some x
  | .nil, _, F, h => by
    simp only [aloneAll, Option.some.injEq] at h
    subst h
    exact ⟨rfl, by simp [entries]⟩
  | .bare t rest, hd, F, h => by
    simp only [DistinctTypes] at hd
    have hcons : ∃ x G, aloneEntry env es (t, none) = some x ∧ aloneAll env es rest = some G ∧
        F = .cons t x G := by
      cases t <;> simp only [aloneAll, Option.bind_eq_some_iff, Option.map_eq_some_iff] at h
      · obtain ⟨x, hx, G, hG, hF⟩ := h
        exact ⟨x, G, hx, hG, hF.symm⟩
      · simp at h
      · simp at h
      · obtain ⟨G, hG, hF⟩ := h
        exact ⟨.noop, G, rfl, hG, hF.symm⟩
      · simp at h
    obtain ⟨x, G, hx, hG, hF⟩ := hcons
    obtain ⟨ihk, ih⟩ := aloneAll_entries env es rest hd.2 G hG
    subst hF
    refine ⟨by simp [MuxFrame.keys, types, ihk], ?_⟩
    intro e he
    simp only [entries, List.mem_cons] at he
    rcases he with he | he
    · subst he; exact ⟨x, hx, by simp [MuxFrame.get?]⟩
    · obtain ⟨y, hy, hg⟩ := ih e he
      refine ⟨y, hy, ?_⟩
      have hne : e.1 ≠ t := by
        intro heq
        apply hd.1
        rw [← ihk, ← heq]
        refine Classical.byContradiction fun hc => ?_
        rw [MuxFrame.get?_none G e.1 hc] at hg
        simp at hg
      simp [MuxFrame.get?, hne, hg]
  | .conf t c rest, hd, F, h => by
    simp only [DistinctTypes] at hd
    simp only [aloneAll, Option.bind_eq_some_iff, Option.map_eq_some_iff] at h
    obtain ⟨x, hx, G, hG, hF⟩ := h
    obtain ⟨ihk, ih⟩ := aloneAll_entries env es rest hd.2.2 G hG
    subst hF
    refine ⟨by simp [MuxFrame.keys, types, ihk], ?_⟩
    intro e he
    simp only [entries, List.mem_cons] at he
    rcases he with he | he
    · subst he; exact ⟨x, hx, by simp [MuxFrame.get?]⟩
    · obtain ⟨y, hy, hg⟩ := ih e he
      refine ⟨y, hy, ?_⟩
      have hne : e.1 ≠ t := by
        intro heq
        apply hd.1
        rw [← ihk, ← heq]
        refine Classical.byContradiction fun hc => ?_
        rw [MuxFrame.get?_none G e.1 hc] at hg
        simp at hg
      simp [MuxFrame.get?, hne, hg]

theorem aloneAll_of_entries {ε : Type} (env : MuxEnv ε) (es : List Event) :
    ∀ (c : MuxConfig), (∀ e ∈ entries c, aloneEntry env es e ≠ none) → aloneAll env es c ≠ none
  | .nil, _ => by simp [aloneAll]
  | .bare t rest, h => by
    have ih := aloneAll_of_entries env es rest (fun e he => h e (by simp [entries, he]))
    have h0 := h (t, none) (by simp [entries])
    cases t <;> simp only [aloneEntry, ne_eq] at h0 <;> simp only [aloneAll]
    · cases hx : (aloneFourByte (ε := ε) es).toOption with
      | none => exact absurd hx h0
      | some x => simpa using ih
    · simp at h0
    · simp at h0
    · simpa using ih
    · simp at h0
  | .conf t c rest, h => by
    have ih := aloneAll_of_entries env es rest (fun e he => h e (by simp [entries, he]))
    have h0 := h (t, some c) (by simp [entries])
    simp only [aloneEntry] at h0
    simp only [aloneAll]
    cases hx : alone env es t c with
    | none => exact absurd hx h0
    | some x => simpa using ih

/-- C42: for every configuration (any nesting) and every history of hook calls, the frame of the mux
exists iff every tracer alone gives a trace, and it then maps each configured tracer to exactly the
trace that this tracer gives alone (and nothing else). -/
theorem C42_independent {ε : Type} (env : MuxEnv ε) (es : List Event) (c : MuxConfig)
    (hd : DistinctTypes c) :
    ((∃ m m' F, Mux.ofConfig c = .ok m ∧ runReplies Mux.respond m es = .ok m' ∧
        m'.tryIntoFrame env = .ok F) ↔ ∀ e ∈ entries c, aloneEntry env es e ≠ none) ∧
    ∀ m m' F, Mux.ofConfig c = .ok m → runReplies Mux.respond m es = .ok m' →
      m'.tryIntoFrame env = .ok F →
      (∀ e ∈ entries c, ∃ x, aloneEntry env es e = some x ∧ F.get? e.1 = some x) ∧
      ∀ t, t ∉ types c → F.get? t = none := by
  have key : ∀ m m' F, Mux.ofConfig c = .ok m → runReplies Mux.respond m es = .ok m' →
      m'.tryIntoFrame env = .ok F → aloneAll env es c = some F := fun m m' F h1 h2 h3 =>
    (mux_alone env es c hd F).mp ⟨m, h1, m', h2, h3⟩
  refine ⟨⟨?_, ?_⟩, ?_⟩
  · rintro ⟨m, m', F, h1, h2, h3⟩ e he
    obtain ⟨x, hx, _⟩ := (aloneAll_entries env es c hd F (key m m' F h1 h2 h3)).2 e he
    simp [hx]
  · intro h
    have := aloneAll_of_entries env es c h
    cases hF : aloneAll env es c with
    | none => exact absurd hF this
    | some F =>
      obtain ⟨m, h1, m', h2, h3⟩ := (mux_alone env es c hd F).mpr hF
      exact ⟨m, m', F, h1, h2, h3⟩
  · intro m m' F h1 h2 h3
    obtain ⟨hk, h⟩ := aloneAll_entries env es c hd F (key m m' F h1 h2 h3)
    exact ⟨h, fun t ht => MuxFrame.get?_none F t (by rw [hk]; exact ht)⟩

/-- C42: the trace of a nested mux alone is the map of the traces its tracers give alone. -/
theorem C42_nested {ε : Type} (env : MuxEnv ε) (es : List Event) (a : Option CallConfig)
    (p : Option PreStateConfig) (c : MuxConfig) (hd : DistinctTypes c) (x : GethTrace)
    (h : aloneEntry env es (.mux, some (.mk a p (.config c))) = some x) :
    ∃ F, x = .mux F ∧
      (∀ e ∈ entries c, ∃ y, aloneEntry env es e = some y ∧ F.get? e.1 = some y) ∧
      ∀ t, t ∉ types c → F.get? t = none := by
  simp only [aloneEntry, alone, aloneParse, Option.map_eq_some_iff] at h
  obtain ⟨F, hF, hx⟩ := h
  obtain ⟨hk, h⟩ := aloneAll_entries env es c hd F hF
  exact ⟨F, hx.symm, h, fun t ht => MuxFrame.get?_none F t (by rw [hk]; exact ht)⟩

end Props
end Verif
