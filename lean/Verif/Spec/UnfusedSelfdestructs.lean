import Verif.Model.Geth
/-! Call frames without those of selfdestructs: for C135. -/
namespace Verif.Spec

mutual

/-- A call frame without the frames of selfdestructs, in all frames below it. -/
def withoutSd (f : CallFrame) : CallFrame := { f with calls := withoutSds f.calls }
termination_by sizeOf f
decreasing_by cases f; simp; omega

/-- Call frames without those of selfdestructs. -/
def withoutSds (l : List CallFrame) : List CallFrame :=
  match l with
  | [] => []
  | c :: cs => if c.typ = "SELFDESTRUCT" then withoutSds cs else withoutSd c :: withoutSds cs
termination_by sizeOf l

end

mutual

/-- The frames of selfdestructs below a call frame. -/
def sdsOf (f : CallFrame) : List CallFrame := sdsIn f.calls
termination_by sizeOf f
decreasing_by cases f; simp; omega

/-- The frames of selfdestructs among call frames and below them. -/
def sdsIn (l : List CallFrame) : List CallFrame :=
  match l with
  | [] => []
  | c :: cs => (if c.typ = "SELFDESTRUCT" then [c] else sdsOf c) ++ sdsIn cs
termination_by sizeOf l

end

end Verif.Spec
