import Verif.Spec.Exec
/-!
# Executions with EOFCREATE

revm 10 runs contracts in the EVM object format. Its EOFCREATE instruction enters a frame, too, and
announces it with hooks of its own, `eofcreate` and `eofcreate_end`. No inspector in /repo defines them
(`impl Inspector for …`: /repo/src/access_list.rs:61-99, /repo/src/opcode.rs:57-79,
/repo/src/transfer.rs:46-104, /repo/src/tracing/fourbyte.rs:46-64, /repo/src/tracing/js/mod.rs:380-573,
/repo/src/tracing/mod.rs:496-613, /repo/src/tracing/mux.rs:66-174, /repo/src/tracing/opcount.rs:22-29), so that
revm's own take their place, which do nothing. The journal's depth counts these frames as it does the others.

This file does not mention any definition of the recording model.
-/
namespace Verif

/-- What happens inside a frame, in order; `eof` is a frame entered by EOFCREATE. -/
inductive EofBody where
  | nil
  | act (a : Act) (rest : EofBody)
  | sub (h : Header) (body : EofBody) (o : Outcome) (rest : EofBody)
  | eof (creator created : Address) (value : U256) (body : EofBody) (rest : EofBody)

/-- A transaction: its root frame. -/
structure EofTx where
  hdr : Header
  body : EofBody
  out : Outcome

/-- Hook calls of a frame body, `d` frames (this one included) being open, without those of the two hooks
that do nothing. -/
def EofBody.events (d : Nat) : EofBody → List Event
  | .nil => []
  | .act a rest => a.events d ++ rest.events d
  | .sub h b o rest => h.enter d :: (b.events (d + 1) ++ h.leave d o :: rest.events d)
  | .eof _ _ _ b rest => b.events (d + 1) ++ rest.events d

/-- Hook calls of a whole transaction. -/
def EofTx.events (t : EofTx) : List Event :=
  t.hdr.enter 0 :: (t.body.events 1 ++ [t.hdr.leave 0 t.out])

/-- The number of frames below, of every kind. -/
def EofBody.size : EofBody → Nat
  | .nil => 0
  | .act _ rest => rest.size
  | .sub _ b _ rest => 1 + b.size + rest.size
  | .eof _ _ _ b rest => 1 + b.size + rest.size

/-- The number of frames below that EOFCREATE entered. -/
def EofBody.eofs : EofBody → Nat
  | .nil => 0
  | .act _ rest => rest.eofs
  | .sub _ b _ rest => b.eofs + rest.eofs
  | .eof _ _ _ b rest => 1 + b.eofs + rest.eofs

/-- The body as one without EOFCREATE, if it has none. -/
def EofBody.plain : EofBody → Option Body
  | .nil => some .nil
  | .act a rest => rest.plain.map (Body.act a)
  | .sub h b o rest =>
    match b.plain, rest.plain with
    | some b', some r' => some (.sub h b' o r')
    | _, _ => none
  | .eof _ _ _ _ _ => none

/-- How many frames are open when, `d` being open now, a frame is entered by a call or a create for the
first time. -/
def EofBody.firstEnter (d : Nat) : EofBody → Option Nat
  | .nil => none
  | .act _ rest => rest.firstEnter d
  | .sub _ _ _ _ => some d
  | .eof _ _ _ b rest =>
    match b.firstEnter (d + 1) with
    | some x => some x
    | none => rest.firstEnter d

end Verif
