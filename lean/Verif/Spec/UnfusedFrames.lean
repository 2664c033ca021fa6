import Verif.Spec.Frames
/-! One body after another: for C135. -/
namespace Verif.Spec

/-- The body that does all that `a` does and then all that `b` does. -/
def joinBody : Body → Body → Body
  | .nil, b => b
  | .act x rest, b => .act x (joinBody rest b)
  | .sub h c o rest, b => .sub h c o (joinBody rest b)

end Verif.Spec
