import Verif.Spec.Ledger
import Verif.Spec.Parity
/-! The payments a reader of call frames or of parity traces finds in them. -/
namespace Verif.Spec

/-- The frames that pay from one account to another: CALL, creations and selfdestructs. -/
def frameType (typ : String) : Option TransferKind :=
  if typ = "CALL" then some .call
  else if typ = "CREATE" then some .create
  else if typ = "CREATE2" then some .create2
  else if typ = "SELFDESTRUCT" then some .selfDestruct
  else none

/-- The payment a call frame itself stands for. -/
def framePayment (typ : String) (from_ : Address) (to : Option Address) (value : Option U256) : List Transfer :=
  match frameType typ, to, value with
  | some k, some t, some v => [⟨k, from_, t, v⟩]
  | _, _, _ => []

mutual
/-- The payments in a call frame and below it. What failed is undone, with everything below it. -/
def payments : CallFrame → List Transfer
  | ⟨typ, from_, to, value, _, _, _, _, error, _, calls, _⟩ =>
    if error.isSome then []
    else framePayment typ from_ to value ++ paymentsAll calls
/-- The same for several frames. -/
def paymentsAll : List CallFrame → List Transfer
  | [] => []
  | c :: cs => payments c ++ paymentsAll cs
end

/-- The payment a parity trace stands for. -/
def paidIn (tr : TransactionTrace) : List Transfer :=
  match tr.action, tr.result with
  | .call frm to v _ _ .call, _ => [⟨.call, frm, to, v⟩]
  | .create frm v _ _, some (.create _ _ a) => [⟨.create, frm, a, v⟩]
  | .selfdestruct a to v, _ => [⟨.selfDestruct, a, to, v⟩]
  | _, _ => []

/-- The trace failed, or one it is below of. -/
def undone (ts : List TransactionTrace) (tr : TransactionTrace) : Bool :=
  ts.any fun u => u.error.isSome && u.traceAddress.isPrefixOf tr.traceAddress

/-- The payments in a list of parity traces. -/
def tracePayments (ts : List TransactionTrace) : List Transfer :=
  (ts.filter fun tr => !undone ts tr).flatMap paidIn

/-- The frames of a body that succeeded, with all that are above them in it. -/
def keptFrames (d p : Nat) (v : U256) : (n : Nat) → Body → List FrameCtx
  | _, .nil => []
  | n, .act _ rest => keptFrames d p v n rest
  | n, .sub h b o rest =>
    (if o.result.result.isOk then ⟨n, some p, d, some v, h, b, o⟩ ::
      keptFrames (d + 1) n (valueInScope (some v) h) (n + 1) b else []) ++
    keptFrames d p v (n + 1 + b.size) rest

/-- The frames of a transaction whose effects last. -/
def lasting (t : Tx) : List FrameCtx :=
  if t.out.result.result.isOk then ⟨0, none, 0, none, t.hdr, t.body, t.out⟩ ::
    keptFrames 1 0 (valueInScope none t.hdr) 1 t.body else []

end Verif.Spec
