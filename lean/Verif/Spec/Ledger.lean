import Verif.Spec.Exec
import Verif.Model.Standalone
/-! The balances of the accounts while a transaction runs: a frame that fails takes back everything that
was paid on entering it and below it. Gas is left out, and balances may be any integers. -/
namespace Verif.Spec

/-- Balances. -/
abbrev Ledger := Address → Int

/-- Move an amount. -/
def move (frm to : Address) (v : U256) (l : Ledger) : Ledger :=
  fun a => l a - (if a = frm then (v.toNat : Int) else 0) + (if a = to then (v.toNat : Int) else 0)

/-- What is paid on entering a frame. -/
def pay : Header → Outcome → Ledger → Ledger
  | .call _ inp, _, l =>
    match inp.value with
    | .transfer v => move inp.caller inp.targetAddress v l
    | .apparent _ => l
  | .create _ inp, o, l =>
    match o.address with
    | some a => move inp.caller a inp.value l
    | none => l

/-- The balances after what happens inside a frame. -/
def balances : Body → Ledger → Ledger
  | .nil, l => l
  | .act (.selfdestruct a t v) rest, l => balances rest (move a t v l)
  | .act _ rest, l => balances rest l
  | .sub h b o rest, l =>
    balances rest (if o.result.result.isOk then balances b (pay h o l) else l)

/-- The balances after a transaction. -/
def txBalances (t : Tx) (l : Ledger) : Ledger :=
  if t.out.result.result.isOk then balances t.body (pay t.hdr t.out l) else l

/-- The balances a reader of a list of transfers arrives at. -/
def settle (ts : List Transfer) (l : Ledger) : Ledger :=
  ts.foldl (fun l tr => move tr.frm tr.to tr.value l) l

/-- Every frame below succeeds. -/
def AllOk : Body → Prop
  | .nil => True
  | .act _ rest => AllOk rest
  | .sub _ b o rest => o.result.result.isOk = true ∧ AllOk b ∧ AllOk rest

end Verif.Spec
