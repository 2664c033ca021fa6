import Verif.Spec.Calls
/-!
# Instructions with the frames they enter

The instructions of a frame in order, each with the instructions of the frame it enters (none if it enters no
frame, or one without instructions). `cut` is how a reader finds this in a list of entries with depths.
-/
namespace Verif.Spec

/-- The instructions of a frame: the first one, those of the frame it enters, and the following ones. -/
inductive StepTree (α : Type) where
  | nil
  | cons (first : α) (entered rest : StepTree α)
  deriving DecidableEq

namespace StepTree
variable {α β : Type}

/-- All instructions, those of an entered frame behind the instruction that enters it. -/
def flat : StepTree α → List α
  | nil => []
  | cons a e r => a :: (e.flat ++ r.flat)

/-- The same tree with something else in place of each instruction. -/
def map (g : α → β) : StepTree α → StepTree β
  | nil => nil
  | cons a e r => cons (g a) (e.map g) (r.map g)

/-- Reading a list of entries with depths: what follows an entry with greater depths, up to the first that is not
deeper, belongs to the frame the entry enters; the rest belongs to the frame of the entry. -/
def cut (depth : α → Nat) : List α → StepTree α
  | [] => nil
  | a :: l => cons a (cut depth (l.takeWhile fun b => depth a < depth b))
      (cut depth (l.dropWhile fun b => depth a < depth b))
termination_by l => l.length
decreasing_by
  · exact Nat.lt_succ_of_le (List.takeWhile_sublist _).length_le
  · exact Nat.lt_succ_of_le (List.dropWhile_sublist _).length_le

end StepTree

/-- The instruction of an action, if it is one. -/
def instrOf : Act → Option Instr
  | .step i c i' c' => some ⟨i, c, some (i', c')⟩
  | .aborted i c => some ⟨i, c, none⟩
  | _ => none

/-- The recorded instructions of a frame, each with those of the frame entered right behind it. `n` is the index of
the next frame. -/
def bodySteps (cfg : Config) : FrameCtx → Nat → Body → StepTree (FrameCtx × Instr)
  | _, _, .nil => .nil
  | f, n, .sub _ b _ rest => bodySteps cfg f (n + 1 + b.size) rest
  | f, n, .act a rest =>
    match instrOf a with
    | some i =>
      if records cfg i.before.op then
        .cons (f, i)
          (match rest with
            | .sub h b o _ => bodySteps cfg ⟨n, some f.index, f.depth + 1, some f.value, h, b, o⟩ (n + 1) b
            | _ => .nil)
          (bodySteps cfg f n rest)
      else bodySteps cfg f n rest
    | none => bodySteps cfg f n rest

/-- The recorded instructions of a transaction. -/
def txSteps (cfg : Config) (t : Tx) : StepTree (FrameCtx × Instr) :=
  bodySteps cfg ⟨0, none, 0, none, t.hdr, t.body, t.out⟩ 1 t.body

end Verif.Spec
