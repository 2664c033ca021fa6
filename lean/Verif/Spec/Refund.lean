import Verif.Spec.Calls
/-! The refund counter of a transaction. -/
namespace Verif.Spec

/-- The refund counter of the transaction before each instruction, in the order of execution, and at the
end, if it is `c` at the beginning: instructions add to it or take from it, and a call or creation that
fails leaves it as it was before (EIP-2200, EIP-3529). -/
def counters : Int → Body → List Int × Int
  | c, .nil => ([], c)
  | c, .act (.step i _ i' _) rest =>
    let r := counters (c + (i'.gas.refunded - i.gas.refunded)) rest
    (c :: r.1, r.2)
  | c, .act (.aborted _ _) rest =>
    let r := counters c rest
    (c :: r.1, r.2)
  | c, .act _ rest => counters c rest
  | c, .sub _ b o rest =>
    let r := counters c b
    let q := counters (if o.result.result.isOk then r.2 else c) rest
    (r.1 ++ q.1, q.2)

/-- How revm keeps the counter: every frame has its own, which is `r` at the beginning of the body and `e`
at its end. A new frame begins with zero, and what a call or creation that succeeded has in the end is
added to that of its caller. -/
def FrameRefunds : Int → Body → Int → Prop
  | r, .nil, e => e = r
  | r, .act (.step i _ i' _) rest, e => i.gas.refunded = r ∧ FrameRefunds i'.gas.refunded rest e
  | r, .act (.aborted i _) rest, e => i.gas.refunded = r ∧ FrameRefunds r rest e
  | r, .act _ rest, e => FrameRefunds r rest e
  | r, .sub _ b o rest, e => ∃ x, FrameRefunds 0 b x ∧
    (o.result.result.isOk = true → o.result.gas.refunded = x) ∧
    FrameRefunds (if o.result.result.isOk then r + o.result.gas.refunded else r) rest e

/-- For each instruction, in the order of execution, what the counters of the frames around its own had
when they called: `c` is that for this frame, `r` is the frame's counter. -/
def around : Int → Int → Body → List Int
  | _, _, .nil => []
  | c, _, .act (.step _ _ i' _) rest => c :: around c i'.gas.refunded rest
  | c, r, .act (.aborted _ _) rest => c :: around c r rest
  | c, r, .act _ rest => around c r rest
  | c, r, .sub _ b o rest => around (c + r) 0 b ++
    around c (if o.result.result.isOk then r + o.result.gas.refunded else r) rest

/-- A counter as it is to be shown: none if it is zero. -/
def shownRefund (c : Int) : Option Nat := if c = 0 then none else some c.toNat

end Verif.Spec
