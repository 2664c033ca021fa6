import Verif.Spec.BigInt
/-! Random numbers. -/
namespace Verif.Spec

/-- What `Math.random()` may give: a double from zero on and below one. -/
def IsRandom (r : Rat) : Prop := IsDouble r ∧ 0 ≤ r ∧ r < 1

end Verif.Spec
