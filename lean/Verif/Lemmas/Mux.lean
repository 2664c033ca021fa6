import Verif.Spec.Mux
/-! Lemmas on the mux inspector. -/
namespace Verif
open Spec

theorem default_passive (e : Event) : Passive e (Reply.default e) := by
  cases e <;> rfl

theorem passive_iff (e : Event) (r : Reply) : Passive e r ↔ r = Reply.default e := by
  cases e <;> exact Iff.rfl

theorem discard_default (e : Event) : (Reply.default e).discardOverride = Reply.default e := by
  cases e <;> rfl

theorem TI.respond_eq (cfg : Config) (s : TI) (e : Event) :
    TI.respond cfg s e = (TI.hook cfg s e).map (fun s' => (s', Reply.default e)) := by
  unfold TI.respond
  cases TI.hook cfg s e with
  | error p => rfl
  | ok s' => cases e <;> rfl

theorem fourByteRespond_eq (s : FourByte) (e : Event) :
    fourByteRespond s e = (fourByteHook s e).map (fun s' => (s', Reply.default e)) := by
  unfold fourByteRespond
  cases fourByteHook s e with
  | error p => rfl
  | ok s' => cases e <;> rfl

theorem OpcodeGas.respond_eq (known : OpCode → Bool) (s : OpcodeGas) (e : Event) :
    OpcodeGas.respond known s e =
      (OpcodeGas.hook known s e).map (fun s' => (s', Reply.default e)) := by
  unfold OpcodeGas.respond
  cases OpcodeGas.hook known s e <;> rfl

theorem opcountRespond_eq (s : Nat) (e : Event) :
    opcountRespond s e = (opcountHook s e).map (fun s' => (s', Reply.default e)) := by
  unfold opcountRespond
  cases opcountHook s e <;> rfl

theorem AccessList.respond_eq (s : AccessList) (e : Event) :
    AccessList.respond s e = (AccessList.hook s e).map (fun s' => (s', Reply.default e)) := by
  unfold AccessList.respond
  cases AccessList.hook s e <;> rfl

theorem transferRespond_eq (b : Bool) (s : List Transfer) (e : Event) :
    transferRespond b s e = (transferHook b s e).map (fun s' => (s', Reply.default e)) := by
  unfold transferRespond
  cases transferHook b s e with
  | error p => rfl
  | ok s' => cases e <;> rfl

mutual
theorem Delegate.respond_default : ∀ (d : Delegate) (e : Event) (d' : Delegate) (r : Reply),
    Delegate.respond d e = .ok (d', r) → r = Reply.default e
  | .fourByte s, e, d', r, h => by
    simp only [Delegate.respond, fourByteRespond_eq] at h
    cases hh : fourByteHook s e with
    | error p => simp [hh, Except.map] at h
    | ok s' =>
      simp only [hh, Except.map, discard_default, Except.ok.injEq, Prod.mk.injEq] at h
      exact h.2.symm
  | .call cc cfg s, e, d', r, h => by
    simp only [Delegate.respond, TI.respond_eq] at h
    cases hh : TI.hook cfg s e with
    | error p => simp [hh, Except.map] at h
    | ok s' =>
      simp only [hh, Except.map, discard_default, Except.ok.injEq, Prod.mk.injEq] at h
      exact h.2.symm
  | .prestate cc cfg s, e, d', r, h => by
    simp only [Delegate.respond, TI.respond_eq] at h
    cases hh : TI.hook cfg s e with
    | error p => simp [hh, Except.map] at h
    | ok s' =>
      simp only [hh, Except.map, discard_default, Except.ok.injEq, Prod.mk.injEq] at h
      exact h.2.symm
  | .noop, e, d', r, h => by
    simp only [Delegate.respond, Except.ok.injEq, Prod.mk.injEq] at h
    exact h.2.symm
  | .mux m, e, d', r, h => by
    simp only [Delegate.respond] at h
    cases hh : Mux.respond m e with
    | error p => simp [hh] at h
    | ok x =>
      obtain ⟨m', r'⟩ := x
      have := Mux.respond_default m e m' r' hh
      subst this
      simp only [hh, discard_default, Except.ok.injEq, Prod.mk.injEq] at h
      exact h.2.symm
  termination_by structural d => d

theorem Mux.respond_default : ∀ (m : Mux) (e : Event) (m' : Mux) (r : Reply),
    Mux.respond m e = .ok (m', r) → r = Reply.default e
  | .nil, e, m', r, h => by
    simp only [Mux.respond, Except.ok.injEq, Prod.mk.injEq] at h
    exact h.2.symm
  | .cons t d rest, e, m', r, h => by
    simp only [Mux.respond] at h
    cases hd : Delegate.respond d e with
    | error p => simp [hd] at h
    | ok x =>
      obtain ⟨d', rd⟩ := x
      have hr := Delegate.respond_default d e d' rd hd
      subst hr
      rw [hd] at h
      cases hm : Mux.respond rest e with
      | error p =>
        cases e <;> simp [Reply.default, Event.withOutcome, hm] at h
      | ok y =>
        obtain ⟨rest', r'⟩ := y
        have := Mux.respond_default rest e rest' r' hm
        subst this
        cases e <;> simp [Reply.default, Event.withOutcome, hm] at h <;> simp [h.2.symm, Reply.default]
  termination_by structural m => m
end

/-- The mux hook is the hooks of its inspectors. -/
theorem Mux.respond_cons (t : TracerType) (d : Delegate) (rest : Mux) (e : Event) :
    Mux.respond (.cons t d rest) e =
      match Delegate.respond d e with
      | .error p => .error p
      | .ok (d', _) =>
        match Mux.respond rest e with
        | .error p => .error p
        | .ok (rest', _) => .ok (.cons t d' rest', Reply.default e) := by
  simp only [Mux.respond]
  cases hd : Delegate.respond d e with
  | error p => rfl
  | ok x =>
    obtain ⟨d', rd⟩ := x
    have hr := Delegate.respond_default d e d' rd hd
    subst hr
    cases hm : Mux.respond rest e with
    | error p =>
      cases e <;> simp [Reply.default, Event.withOutcome, hm]
    | ok y =>
      obtain ⟨rest', r'⟩ := y
      have := Mux.respond_default rest e rest' r' hm
      subst this
      cases e <;> simp [Reply.default, Event.withOutcome, hm]

/-! ### Runs -/

theorem run_fourByte (es : List Event) : ∀ s : FourByte,
    runReplies Delegate.respond (.fourByte s) es =
      (runHooks fourByteHook s es).map Delegate.fourByte := by
  induction es with
  | nil => intro s; rfl
  | cons e es ih =>
    intro s
    simp only [runReplies, runHooks, Delegate.respond, fourByteRespond_eq]
    cases fourByteHook s e with
    | error p => rfl
    | ok s' => simp only [Except.map]; rw [ih s']; rfl

theorem run_call (cc : CallConfig) (cfg : Config) (es : List Event) : ∀ s : TI,
    runReplies Delegate.respond (.call cc cfg s) es =
      (TI.run cfg s es).map (Delegate.call cc cfg) := by
  induction es with
  | nil => intro s; rfl
  | cons e es ih =>
    intro s
    simp only [runReplies, TI.run, Delegate.respond, TI.respond_eq]
    cases TI.hook cfg s e with
    | error p => rfl
    | ok s' => simp only [Except.map]; rw [ih s']; rfl

theorem run_prestate (pc : PreStateConfig) (cfg : Config) (es : List Event) : ∀ s : TI,
    runReplies Delegate.respond (.prestate pc cfg s) es =
      (TI.run cfg s es).map (Delegate.prestate pc cfg) := by
  induction es with
  | nil => intro s; rfl
  | cons e es ih =>
    intro s
    simp only [runReplies, TI.run, Delegate.respond, TI.respond_eq]
    cases TI.hook cfg s e with
    | error p => rfl
    | ok s' => simp only [Except.map]; rw [ih s']; rfl

theorem run_noop (es : List Event) :
    runReplies Delegate.respond .noop es = .ok .noop := by
  induction es with
  | nil => rfl
  | cons e es ih => simp only [runReplies, Delegate.respond, ih]

theorem run_mux (es : List Event) : ∀ m : Mux,
    runReplies Delegate.respond (.mux m) es =
      (runReplies Mux.respond m es).map Delegate.mux := by
  induction es with
  | nil => intro s; rfl
  | cons e es ih =>
    intro m
    simp only [runReplies, Delegate.respond]
    cases Mux.respond m e with
    | error p => rfl
    | ok x => obtain ⟨m', r⟩ := x; simp only; rw [ih m']

theorem run_nil (es : List Event) : runReplies Mux.respond .nil es = .ok .nil := by
  induction es with
  | nil => rfl
  | cons e es ih => simp only [runReplies, Mux.respond, ih]

theorem run_cons (t : TracerType) (es : List Event) : ∀ (d : Delegate) (rest m' : Mux),
    runReplies Mux.respond (.cons t d rest) es = .ok m' ↔
      ∃ d' rest', m' = .cons t d' rest' ∧ runReplies Delegate.respond d es = .ok d' ∧
        runReplies Mux.respond rest es = .ok rest' := by
  induction es with
  | nil =>
    intro d rest m'
    simp only [runReplies, Except.ok.injEq]
    constructor
    · intro h; exact ⟨d, rest, h.symm, rfl, rfl⟩
    · rintro ⟨d', rest', h1, h2, h3⟩; rw [h1, h2, h3]
  | cons e es ih =>
    intro d rest m'
    simp only [runReplies, Mux.respond_cons]
    cases hd : Delegate.respond d e with
    | error p => simp
    | ok x =>
      obtain ⟨d1, rd⟩ := x
      cases hm : Mux.respond rest e with
      | error p => simp
      | ok y =>
        obtain ⟨rest1, r1⟩ := y
        simpa using ih d1 rest1 m'

/-! ### Frames -/

def MuxFrame.keys : MuxFrame → List TracerType
  | .nil => []
  | .cons t _ rest => t :: rest.keys

def MuxFrame.append : MuxFrame → MuxFrame → MuxFrame
  | .nil, g => g
  | .cons t x rest, g => .cons t x (rest.append g)

def Mux.keys : Mux → List TracerType
  | .nil => []
  | .cons t _ rest => t :: rest.keys

theorem MuxFrame.append_nil : ∀ f : MuxFrame, f.append .nil = f
  | .nil => rfl
  | .cons t x rest => by simp [MuxFrame.append, MuxFrame.append_nil rest]

theorem MuxFrame.append_assoc : ∀ f g h : MuxFrame, (f.append g).append h = f.append (g.append h)
  | .nil, _, _ => rfl
  | .cons t x rest, g, h => by simp [MuxFrame.append, MuxFrame.append_assoc rest]

theorem MuxFrame.keys_append : ∀ f g : MuxFrame, (f.append g).keys = f.keys ++ g.keys
  | .nil, _ => rfl
  | .cons t x rest, g => by simp [MuxFrame.append, MuxFrame.keys, MuxFrame.keys_append rest]

theorem MuxFrame.insert_new : ∀ (f : MuxFrame) (t : TracerType) (x : GethTrace), t ∉ f.keys →
    f.insert t x = f.append (.cons t x .nil)
  | .nil, _, _, _ => rfl
  | .cons t' x' rest, t, x, h => by
    simp only [MuxFrame.keys, List.mem_cons, not_or] at h
    simp [MuxFrame.insert, MuxFrame.append, h.1, MuxFrame.insert_new rest t x h.2]

theorem MuxFrame.get?_none : ∀ (f : MuxFrame) (t : TracerType), t ∉ f.keys → f.get? t = none
  | .nil, _, _ => rfl
  | .cons t' x' rest, t, h => by
    simp only [MuxFrame.keys, List.mem_cons, not_or] at h
    simp [MuxFrame.get?, h.1, MuxFrame.get?_none rest t h.2]

/-- The loop appends the entries one by one. -/
theorem intoFrameLoop_eq {ε : Type} (env : MuxEnv ε) : ∀ (m : Mux) (frame : MuxFrame),
    m.keys.Nodup → (∀ t ∈ m.keys, t ∉ frame.keys) →
    Mux.intoFrameLoop env frame m = (Mux.intoFrameLoop env .nil m).map frame.append
  | .nil, frame, _, _ => by simp [Mux.intoFrameLoop, Except.map, MuxFrame.append_nil]
  | .cons t d rest, frame, hn, hd => by
    simp only [Mux.keys, List.nodup_cons] at hn
    have ht : t ∉ frame.keys := hd t (by simp [Mux.keys])
    simp only [Mux.intoFrameLoop]
    cases Delegate.intoTrace env d with
    | error e => rfl
    | ok x =>
      simp only
      rw [MuxFrame.insert_new frame t x ht, MuxFrame.insert_new .nil t x (by simp [MuxFrame.keys]),
        intoFrameLoop_eq env rest _ hn.2, intoFrameLoop_eq env rest (MuxFrame.append .nil _) hn.2]
      · cases Mux.intoFrameLoop env .nil rest with
        | error e => rfl
        | ok f => simp [Except.map, MuxFrame.append_assoc, MuxFrame.append]
      · intro t' h' hk
        simp [MuxFrame.append, MuxFrame.keys] at hk
        subst hk; exact hn.1 h'
      · intro t' h' hk
        rw [MuxFrame.keys_append] at hk
        simp only [MuxFrame.keys, List.mem_append, List.mem_cons, List.not_mem_nil, or_false] at hk
        rcases hk with hk | hk
        · exact hd t' (by simp [Mux.keys, h']) hk
        · subst hk; exact hn.1 h'

theorem intoFrameLoop_cons {ε : Type} (env : MuxEnv ε) (t : TracerType) (d : Delegate) (rest : Mux)
    (ht : t ∉ rest.keys) (hn : rest.keys.Nodup) :
    Mux.intoFrameLoop env .nil (.cons t d rest) =
      match Delegate.intoTrace env d with
      | .error e => .error e
      | .ok x => (Mux.intoFrameLoop env .nil rest).map (MuxFrame.cons t x) := by
  simp only [Mux.intoFrameLoop]
  cases Delegate.intoTrace env d with
  | error e => rfl
  | ok x =>
    simp only
    rw [intoFrameLoop_eq env rest (MuxFrame.insert .nil t x) hn]
    · rfl
    · intro t' h' hk
      simp [MuxFrame.insert, MuxFrame.keys] at hk
      subst hk; exact ht h'

/-! ### Configurations -/

theorem ofConfig_keys : ∀ (c : MuxConfig) (m : Mux), Mux.ofConfig c = .ok m → m.keys = types c
  | .nil, m, h => by
    simp only [Mux.ofConfig, Except.ok.injEq] at h
    subst h; rfl
  | .bare t rest, m, h => by
    cases t <;> simp only [Mux.ofConfig] at h
    all_goals try (exact absurd h (by simp))
    all_goals
      cases hr : Mux.ofConfig rest with
      | error e => simp [hr] at h
      | ok m1 =>
        simp only [hr, Except.ok.injEq] at h
        subst h
        simp [Mux.keys, types, ofConfig_keys rest m1 hr]
  | .conf t c rest, m, h => by
    simp only [Mux.ofConfig] at h
    cases hd : Delegate.ofConfig t c with
    | error e => simp [hd] at h
    | ok d =>
      cases hr : Mux.ofConfig rest with
      | error e => simp [hd, hr] at h
      | ok m1 =>
        simp only [hd, hr, Except.ok.injEq] at h
        subst h
        simp [Mux.keys, types, ofConfig_keys rest m1 hr]

theorem run_keys (es : List Event) : ∀ (m m' : Mux), runReplies Mux.respond m es = .ok m' →
    m'.keys = m.keys
  | .nil, m', h => by
    rw [run_nil] at h
    simp only [Except.ok.injEq] at h
    subst h; rfl
  | .cons t d rest, m', h => by
    obtain ⟨d', rest', h1, _, h3⟩ := (run_cons t es d rest m').mp h
    subst h1
    simp [Mux.keys, run_keys es rest rest' h3]

theorem types_nodup : ∀ c : MuxConfig, DistinctTypes c → (types c).Nodup
  | .nil, _ => by simp [types]
  | .bare t rest, h => by
    simp only [DistinctTypes] at h
    simp [types, h.1, types_nodup rest h.2]
  | .conf t c rest, h => by
    simp only [DistinctTypes] at h
    simp [types, h.1, types_nodup rest h.2.2]

end Verif
