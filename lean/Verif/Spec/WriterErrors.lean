import Verif.Spec.Writer
/-!
# What a failed write leaves behind

The lines of a text of which a part has been written, and the level at which the writer then stands.
-/
namespace Verif.Spec

/-- Of the lines `L` the glyphs `p` have been written, the last of them in a line that is not the first or
is at level `n`; and `n` is the level of that line or, if the line is followed by a deeper one and its margin
is complete, the level of the deeper one. -/
def StopsIn (L : List Line) (p : List Glyph) (n : Nat) : Prop :=
  ∃ (A : List Line) (l : Line) (B : List Line) (q : List Glyph),
    L = A ++ l :: B ∧ p = printLines A ++ q ∧ q <+: l.print ∧
    (n = l.level ∨ (A ≠ [] ∧ n = l.level + 1 ∧ B.head?.map Line.level = some n ∧
      margin l.level l.mark <+: q))

/-- The lines, `by_` levels deeper. -/
def deeper (by_ : Nat) (L : List Line) : List Line := L.map fun l => { l with level := l.level + by_ }

end Verif.Spec
