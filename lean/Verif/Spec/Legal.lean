import Verif.Spec.Exec
/-!
Which sequences of hook calls the EVM can produce, said of the sequences themselves: a watcher that knows the
frames that are open and whether an instruction has been started just before. `Tx.events` (`Spec.Exec`) says
the same of execution trees.
-/
namespace Verif.Spec

/-- May the hook calls `es` follow, if the frames `open_` (innermost first) are open and `started` is the
instruction whose start was the last hook call? Frames are closed in the reverse order by hooks of their kind
with the inputs they were opened with; instructions, logs and selfdestructs happen in frames, and an instruction
ends right after it has started, if it ends; a frame of a precompile opens no frame; the depth of the journal is
the number of open frames. `P` is a condition on every instruction that ends, and with `closed` no frame may be
left open. -/
def Legal (P : Interp → Ctx → Interp → Ctx → Prop) (closed : Bool) :
    (open_ : List Header) → (started : Option (Interp × Ctx)) → List Event → Prop
  | fs, _, [] => closed = true → fs = []
  | fs, _, .step i c :: es => fs ≠ [] ∧ c.depth = fs.length ∧ Legal P closed fs (some (i, c)) es
  | fs, o, .stepEnd i c :: es => (∃ i0 c0, o = some (i0, c0) ∧ P i0 c0 i c) ∧ c.depth = fs.length ∧
      Legal P closed fs none es
  | fs, _, .log c _ :: es => fs ≠ [] ∧ c.depth = fs.length ∧ Legal P closed fs none es
  | fs, _, .selfdestruct _ _ _ :: es => fs ≠ [] ∧ Legal P closed fs none es
  | fs, _, .call c inp :: es => c.depth = fs.length ∧ (Header.call c inp).WF ∧
      (∀ h ∈ fs.head?, h.isPrecompile = false) ∧ Legal P closed (.call c inp :: fs) none es
  | fs, _, .create c inp :: es => c.depth = fs.length ∧
      (∀ h ∈ fs.head?, h.isPrecompile = false) ∧ Legal P closed (.create c inp :: fs) none es
  | .call _ inp0 :: fs, _, .callEnd c inp _ :: es => inp = inp0 ∧ c.depth = fs.length ∧
      Legal P closed fs none es
  | .create _ inp0 :: fs, _, .createEnd c inp _ _ :: es => inp = inp0 ∧ c.depth = fs.length ∧
      Legal P closed fs none es
  | _, _, .callEnd _ _ _ :: _ => False
  | _, _, .createEnd _ _ _ _ :: _ => False

end Verif.Spec
