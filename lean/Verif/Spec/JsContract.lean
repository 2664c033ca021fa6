import Verif.Spec.Frames
/-! What the code of a frame can find out about the frame itself, and which frame each instruction runs
in. -/
namespace Verif.Spec

/-- What the instructions ADDRESS, CALLER, CALLVALUE and CALLDATACOPY give in a frame. -/
structure Environment where
  address : Address
  caller : Address
  callvalue : U256
  calldata : Bytes
  deriving DecidableEq, Repr

/-- The environment of a frame: DELEGATECALL passes on the caller and the value of the frame that called;
init code has no call data. -/
def environment : Header → Environment
  | .call c inp =>
    { address := executingAs (.call c inp)
      caller := inp.caller
      callvalue := match inp.value with
        | .transfer v => v
        | .apparent v => v
      calldata := inp.input }
  | .create c inp =>
    { address := executingAs (.create c inp)
      caller := inp.caller
      callvalue := inp.value
      calldata := [] }

/-- The instructions that were started, in order of execution, each with the frame it runs in. -/
def runningIn (h : Header) : Body → List (Header × Interp)
  | .nil => []
  | .act (.step i _ _ _) rest => (h, i) :: runningIn h rest
  | .act (.aborted i _) rest => (h, i) :: runningIn h rest
  | .act _ rest => runningIn h rest
  | .sub h' b _ rest => runningIn h' b ++ runningIn h rest

/-- The frame runs the code of the account it executes as, and not init code: a CALL or STATICCALL. -/
def OwnCode : Header → Prop
  | .call _ inp => (inp.scheme = .Call ∨ inp.scheme = .StaticCall)
  | .create _ _ => False

/-- What revm fills in for the frames that CALL and STATICCALL enter: the code is that of the account
called, and the value is transferred (nothing for STATICCALL). -/
def Filled : Header → Prop
  | .call _ inp =>
    (inp.scheme = .Call ∨ inp.scheme = .StaticCall → inp.bytecodeAddress = inp.targetAddress ∧
      ∃ v, inp.value = .transfer v) ∧
    (inp.scheme = .CallCode → inp.caller = inp.targetAddress ∧ ∃ v, inp.value = .transfer v)
  | .create _ _ => True

end Verif.Spec
