import Verif.Spec.Gas
/-! The gas used in the receipt of a transaction. -/
namespace Verif.Spec

/-- The greatest part of the gas that can be refunded: a fifth (London on), or a half. -/
def refundQuotient (spec : SpecId) : Nat := if LONDON ≤ spec then 5 else 2

/-- The gas used in the receipt, as revm computes it from the end of the root frame: the gas limit of the
transaction less what the root frame gives back, less the refund (that of a successful root frame and
`authRefund` for the authorisations of the transaction, at most the allowed part); at least `floor` (0 before
Prague). -/
def receiptGas (floor authRefund : Nat) (t : Tx) : Nat :=
  let spent := txGasLimit t.hdr - givenBack t.out
  let refund := (if t.out.result.result.isOk then i64AsU64 t.out.result.gas.refunded else 0) + authRefund
  max floor (spent - min refund (spent / refundQuotient t.out.ctx.specId))

/-- The gas paid for before the root frame starts. -/
def paidBefore (t : Tx) : Nat := txGasLimit t.hdr - gasLimit t.hdr

end Verif.Spec
