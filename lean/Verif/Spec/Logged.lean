import Verif.Spec.Parity
import Verif.Spec.Calls
/-! Which instructions the struct logs of an execution list, whatever was recorded. -/
namespace Verif.Spec

/-- The recorded instructions of a frame; after each that is CALL- or CREATE-like the next of the given
lists, as long as there is one. -/
def weave (f : FrameCtx) : List Instr → List (List (FrameCtx × Instr)) → List (FrameCtx × Instr)
  | [], _ => []
  | a :: as, subs =>
    (f, a) ::
      (if entersFrame a.before.op then subs.head?.getD [] ++ weave f as subs.tail
        else weave f as subs)

/-- The instructions listed for each shown direct call of a frame, in call order. -/
def loggedBelow (cfg : Config) : (d p : Nat) → (v : U256) → (n : Nat) → Body →
    List (List (FrameCtx × Instr))
  | _, _, _, _, .nil => []
  | d, p, v, n, .act _ rest => loggedBelow cfg d p v n rest
  | d, p, v, n, .sub h b o rest =>
    (if excluded cfg ⟨n, some p, d, some v, h, b, o⟩ then []
      else [weave ⟨n, some p, d, some v, h, b, o⟩ (instrs cfg b)
        (loggedBelow cfg (d + 1) n (valueInScope (some v) h) (n + 1) b)]) ++
      loggedBelow cfg d p v (n + 1 + b.size) rest

/-- The instructions the struct logs of an execution list: those of the transaction that are recorded,
where the i-th CALL- or CREATE-like one is followed by those of the i-th shown call, and so on. -/
def logged (cfg : Config) (t : Tx) : List (FrameCtx × Instr) :=
  weave (rootOf t) (instrs cfg t.body) (loggedBelow cfg 1 0 (valueInScope none t.hdr) 1 t.body)

/-- The recorded instructions of the shown frames. -/
def recordedInstrs (cfg : Config) (t : Tx) : List (FrameCtx × Instr) :=
  (located cfg t).flatMap (fun e => (instrs cfg e.2.body).map (fun a => (e.2, a)))

end Verif.Spec
