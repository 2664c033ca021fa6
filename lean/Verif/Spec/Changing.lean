import Verif.Spec.Frames
import Verif.Spec.Calls
/-!
Executions during which the configuration of the recorder changes, and what is to be recorded then: what
the configuration of the moment asks for.
-/
namespace Verif

/-- What happens inside a frame, each thing with the configuration that is set when it happens. An
instruction has one configuration: it is changed between instructions. -/
inductive CBody where
  | nil
  | act (cfg : Config) (a : Act) (rest : CBody)
  | sub (cfg : Config) (h : Header) (body : CBody) (cfg' : Config) (o : Outcome) (rest : CBody)

/-- A transaction with the configuration set at each moment. -/
structure CTx where
  cfg : Config
  hdr : Header
  body : CBody
  cfg' : Config
  out : Outcome

/-- The execution alone. -/
def CBody.plain : CBody → Body
  | .nil => .nil
  | .act _ a rest => .act a rest.plain
  | .sub _ h b _ o rest => .sub h b.plain o rest.plain

/-- The execution alone. -/
def CTx.plain (t : CTx) : Tx := ⟨t.hdr, t.body.plain, t.out⟩

/-- The hook calls, each with the configuration. -/
def CBody.hooks (d : Nat) : CBody → List (Config × Event)
  | .nil => []
  | .act cfg a rest => (a.events d).map (fun e => (cfg, e)) ++ rest.hooks d
  | .sub cfg h b cfg' o rest =>
    (cfg, h.enter d) :: (b.hooks (d + 1) ++ (cfg', h.leave d o) :: rest.hooks d)

/-- The hook calls of a transaction, each with the configuration. -/
def CTx.hooks (t : CTx) : List (Config × Event) :=
  (t.cfg, t.hdr.enter 0) :: (t.body.hooks 1 ++ [(t.cfg', t.hdr.leave 0 t.out)])

/-- The steps are safe (see `StepSafe`) with the configuration of their moment. -/
def CBody.Safe : CBody → Prop
  | .nil => True
  | .act cfg a rest => (∀ i c i' c', a = .step i c i' c' → StepSafe cfg i c i' c') ∧ rest.Safe
  | .sub _ _ b _ _ rest => b.Safe ∧ rest.Safe

namespace Spec

/-- The frames below a frame, in the order in which they are entered, each with what happens inside and
the configurations. -/
def subFramesC (d p : Nat) (v : U256) (n : Nat) : CBody → List (FrameCtx × CBody)
  | .nil => []
  | .act _ _ rest => subFramesC d p v n rest
  | .sub _ h b _ o rest =>
    (⟨n, some p, d, some v, h, b.plain, o⟩, b) ::
      (subFramesC (d + 1) n (valueInScope (some v) h) (n + 1) b ++
        subFramesC d p v (n + 1 + b.plain.size) rest)

/-- All frames of a transaction, likewise. -/
def framesC (t : CTx) : List (FrameCtx × CBody) :=
  (⟨0, none, 0, none, t.hdr, t.body.plain, t.out⟩, t.body) ::
    subFramesC 1 0 (valueInScope none t.hdr) 1 t.body

/-- What happens in a frame, in order, as far as the configuration of each moment asks to record it. -/
def bodyItemsC (d p : Nat) (v : U256) (n : Nat) : CBody → List Item
  | .nil => []
  | .act cfg a rest => bodyItems cfg d p v n (.act a .nil) ++ bodyItemsC d p v n rest
  | .sub cfg h b _ o rest =>
    (if excluded cfg ⟨n, some p, d, some v, h, b.plain, o⟩ then [] else [.call n]) ++
      bodyItemsC d p v (n + 1 + b.plain.size) rest

/-- The chronological record of a frame. -/
def itemsC (f : FrameCtx) (b : CBody) : List Item :=
  bodyItemsC (f.depth + 1) f.index f.value (f.index + 1) b

/-- The instructions of a frame that are to be recorded, in order, with their configurations. -/
def instrsC : CBody → List (Config × Instr)
  | .nil => []
  | .act cfg a rest => (instrs cfg (.act a .nil)).map (fun x => (cfg, x)) ++ instrsC rest
  | .sub _ _ _ _ _ rest => instrsC rest

end Spec
end Verif
