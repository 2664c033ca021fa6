import Verif.Model.Mux
/-! Specifications for the mux inspector. -/
namespace Verif
namespace Spec

/-- The reply of an inspector that only watches. -/
def Passive (e : Event) (r : Reply) : Prop :=
  match e with
  | .call _ _ => r = .start none
  | .create _ _ => r = .start none
  | .callEnd _ _ res => r = .finish res none
  | .createEnd _ _ res a => r = .finish res a
  | _ => r = .unit

/-- Tracers that are configured. -/
def NeedsConfig : TracerType → Prop
  | .call => True
  | .preState => True
  | .mux => True
  | .fourByte => False
  | .noop => False

/-- The tracers requested. -/
def types : MuxConfig → List TracerType
  | .nil => []
  | .bare t rest => t :: types rest
  | .conf t _ rest => t :: types rest

/-- The entries of a mux configuration. -/
def entries : MuxConfig → List (TracerType × Option TracerConfig)
  | .nil => []
  | .bare t rest => (t, none) :: entries rest
  | .conf t c rest => (t, some c) :: entries rest

mutual
/-- The configuration is in the format of the tracer (and that tracer takes one). -/
def ValidFor (t : TracerType) : TracerConfig → Prop
  | .mk asCall asPre asMux =>
    match t with
    | .call => asCall ≠ none
    | .preState => asPre ≠ none
    | .mux => ValidParse asMux
    | .fourByte => False
    | .noop => False
  termination_by structural c => c
def ValidParse : MuxParse → Prop
  | .invalid => False
  | .config c => Valid c
  termination_by structural p => p
/-- Every entry has a configuration of its own format if its tracer takes one, and none otherwise. -/
def Valid : MuxConfig → Prop
  | .nil => True
  | .bare t rest => ¬ NeedsConfig t ∧ Valid rest
  | .conf t c rest => ValidFor t c ∧ Valid rest
  termination_by structural c => c
end

mutual
/-- What is wrong with a configuration given for a tracer. -/
inductive FaultOf : TracerType → TracerConfig → MuxError → Prop
  | unexpected {t c} : ¬ NeedsConfig t → FaultOf t c (.unexpectedConfig t)
  | call {p m} : FaultOf .call (.mk none p m) .invalidConfig
  | preState {a m} : FaultOf .preState (.mk a none m) .invalidConfig
  | mux {a p} : FaultOf .mux (.mk a p .invalid) .invalidConfig
  | nested {a p c e} : Fault c e → FaultOf .mux (.mk a p (.config c)) e
/-- `e` is what is wrong with the first wrong entry. -/
inductive Fault : MuxConfig → MuxError → Prop
  | missing {t rest} : NeedsConfig t → Fault (.bare t rest) (.missingConfig t)
  | afterBare {t rest e} : ¬ NeedsConfig t → Fault rest e → Fault (.bare t rest) e
  | here {t c rest e} : FaultOf t c e → Fault (.conf t c rest) e
  | afterConf {t c rest e} : ValidFor t c → Fault rest e → Fault (.conf t c rest) e
end

mutual
/-- A fresh tracer of the type, with the configuration. -/
inductive Fresh : TracerType → TracerConfig → Delegate → Prop
  | call {cc p m} : Fresh .call (.mk (some cc) p m) (.call cc (Config.fromGethCallConfig cc) TI.new)
  | preState {a pc m} :
    Fresh .preState (.mk a (some pc) m) (.prestate pc (Config.fromGethPrestateConfig pc) TI.new)
  | mux {a p c m} : Requested c m → Fresh .mux (.mk a p (.config c)) (.mux m)
/-- The tracers of the mux are fresh ones, of the requested types, in order. -/
inductive Requested : MuxConfig → Mux → Prop
  | nil : Requested .nil .nil
  | fourByte {rest m} : Requested rest m →
    Requested (.bare .fourByte rest) (.cons .fourByte (.fourByte []) m)
  | noop {rest m} : Requested rest m → Requested (.bare .noop rest) (.cons .noop .noop m)
  | conf {t c rest d m} : Fresh t c d → Requested rest m →
    Requested (.conf t c rest) (.cons t d m)
end

mutual
/-- No tracer type twice (the entries are those of a map), also in nested configurations. -/
def DistinctIn : TracerConfig → Prop
  | .mk _ _ m => DistinctParse m
  termination_by structural c => c
def DistinctParse : MuxParse → Prop
  | .invalid => True
  | .config c => DistinctTypes c
  termination_by structural p => p
def DistinctTypes : MuxConfig → Prop
  | .nil => True
  | .bare t rest => t ∉ types rest ∧ DistinctTypes rest
  | .conf t c rest => t ∉ types rest ∧ DistinctIn c ∧ DistinctTypes rest
  termination_by structural c => c
end

/-- Results that fail with a panic. -/
def orPanic {ε α : Type} : R α → Except (Fail ε) α
  | .error p => .error (.panic p)
  | .ok a => .ok a

/-- The trace a four byte inspector alone gives. -/
def aloneFourByte {ε : Type} (es : List Event) : Except (Fail ε) GethTrace := do
  let s ← orPanic (runHooks fourByteHook [] es)
  return .fourByte (fourByteFrame s)

/-- The trace a call tracer alone gives. -/
def aloneCall {ε : Type} (env : MuxEnv ε) (es : List Event) (cc : CallConfig) :
    Except (Fail ε) GethTrace := do
  let s ← orPanic (TI.run (Config.fromGethCallConfig cc) TI.new es)
  let f ← orPanic (gethCallTraces env.decode s.arena cc env.gasUsed)
  return .call f

/-- The trace a prestate tracer alone gives. -/
def alonePreState {ε : Type} (env : MuxEnv ε) (es : List Event) (pc : PreStateConfig) :
    Except (Fail ε) GethTrace := do
  let _ ← orPanic (TI.run (Config.fromGethPrestateConfig pc) TI.new es)
  match gethPrestateTraces env.db env.state pc with
  | .error e => .error (.db e)
  | .ok f => .ok (.preState f)

mutual
/-- The trace that a tracer of type `t` with configuration `c` gives on its own; `none` if the
configuration is not valid or the tracer fails. -/
def alone {ε : Type} (env : MuxEnv ε) (es : List Event) (t : TracerType) :
    TracerConfig → Option GethTrace
  | .mk asCall asPre asMux =>
    match t with
    | .call => asCall.bind (fun cc => (aloneCall env es cc).toOption)
    | .preState => asPre.bind (fun pc => (alonePreState env es pc).toOption)
    | .mux => (aloneParse env es asMux).map GethTrace.mux
    | .fourByte => none
    | .noop => none
  termination_by structural c => c
def aloneParse {ε : Type} (env : MuxEnv ε) (es : List Event) : MuxParse → Option MuxFrame
  | .invalid => none
  | .config c => aloneAll env es c
  termination_by structural p => p
/-- The traces that the tracers of a configuration give, each on its own. -/
def aloneAll {ε : Type} (env : MuxEnv ε) (es : List Event) : MuxConfig → Option MuxFrame
  | .nil => some .nil
  | .bare t rest =>
    match t with
    | .fourByte => (aloneFourByte (ε := ε) es).toOption.bind
        (fun x => (aloneAll env es rest).map (MuxFrame.cons .fourByte x))
    | .noop => (aloneAll env es rest).map (MuxFrame.cons .noop .noop)
    | .call => none
    | .preState => none
    | .mux => none
  | .conf t c rest =>
    (alone env es t c).bind (fun x => (aloneAll env es rest).map (MuxFrame.cons t x))
  termination_by structural c => c
end

/-- The trace of the tracer of an entry, alone. -/
def aloneEntry {ε : Type} (env : MuxEnv ε) (es : List Event) :
    TracerType × Option TracerConfig → Option GethTrace
  | (t, some c) => alone env es t c
  | (.fourByte, none) => (aloneFourByte (ε := ε) es).toOption
  | (.noop, none) => some .noop
  | (_, none) => none

end Spec
end Verif
