import Verif.Spec.Ledger
import Verif.Props.Standalone
/-! C78: the transfers of an execution and the balances. -/
namespace Verif.Props
open Spec

/-- What a transfer adds to the balance of an account. -/
def effect (tr : Transfer) (a : Address) : Int :=
  (if a = tr.to then (tr.value.toNat : Int) else 0) - (if a = tr.frm then (tr.value.toNat : Int) else 0)

/-- What a list of transfers adds to the balance of an account. -/
def net (ts : List Transfer) (a : Address) : Int := (ts.map (effect · a)).sum

theorem net_append (xs ys : List Transfer) (a : Address) : net (xs ++ ys) a = net xs a + net ys a := by
  simp [net, List.sum_append]

theorem net_cons (x : Transfer) (ys : List Transfer) (a : Address) :
    net (x :: ys) a = effect x a + net ys a := by
  simp [net]

theorem settle_eq (ts : List Transfer) (l : Ledger) (a : Address) :
    settle ts l a = l a + net ts a := by
  induction ts generalizing l with
  | nil => simp [settle, net]
  | cons x xs ih =>
    rw [net_cons]
    have : settle (x :: xs) l = settle xs (move x.frm x.to x.value l) := rfl
    rw [this, ih, move, effect]
    omega

/-- What is listed for a frame itself. -/
def own : Header → Outcome → List Transfer
  | .call _ inp, _ => callTransfer inp
  | .create _ inp, o => createTransfer inp o.address

theorem net_singleton (x : Transfer) (a : Address) : net [x] a = effect x a := by
  simp [net]

theorem pay_eq (h : Header) (o : Outcome) (l : Ledger) (a : Address) :
    pay h o l a = l a + net (own h o) a := by
  cases h with
  | call c inp =>
    simp only [pay, own, callTransfer]
    cases inp.value with
    | apparent v => simp [net]
    | transfer v =>
      by_cases h0 : v = 0
      · simp [net, move, h0]
      · simp only [if_neg h0, net_singleton, effect, move]
        omega
  | create c inp =>
    simp only [pay, own, createTransfer]
    cases o.address with
    | none => simp [net]
    | some x => cases inp.scheme <;> simp only [net_singleton, effect, move] <;> omega

theorem net_sub (h : Header) (b : Body) (o : Outcome) (rest : Body) (a : Address) :
    net (transfers (.sub h b o rest)) a
      = net (own h o) a + net (transfers b) a + net (transfers rest) a := by
  cases h with
  | call c inp => simp only [transfers, net_append, own]
  | create c inp => simp only [transfers, net_append, own]; omega

/-- The listed transfers that were taken back: those of the failed frames and below them, in order of
the frames. -/
def takenBack : Body → List Transfer
  | .nil => []
  | .act _ rest => takenBack rest
  | .sub h b o rest =>
    (if o.result.result.isOk then takenBack b else own h o ++ transfers b) ++ takenBack rest

/-- The same for a transaction. -/
def txTakenBack (t : Tx) : List Transfer :=
  if t.out.result.result.isOk then takenBack t.body else own t.hdr t.out ++ transfers t.body

theorem balances_eq (b : Body) (l : Ledger) (a : Address) :
    balances b l a + net (takenBack b) a = l a + net (transfers b) a := by
  induction b generalizing l with
  | nil => simp [balances, takenBack, transfers]
  | act x rest ih =>
    cases x with
    | selfdestruct f t v =>
      simp only [balances, takenBack, transfers, net_cons, effect]
      rw [ih, move]
      omega
    | _ => exact ih l
  | sub h b o rest ihb ihr =>
    rw [net_sub, balances, takenBack, net_append]
    by_cases hk : o.result.result.isOk = true
    · rw [if_pos hk, if_pos hk]
      have h1 := ihr (balances b (pay h o l))
      have h2 := ihb (pay h o l)
      have h3 := pay_eq h o l a
      omega
    · rw [if_neg hk, if_neg hk, net_append]
      have h1 := ihr l
      omega

theorem net_tx (t : Tx) (a : Address) :
    net (txTransfers t) a = net (own t.hdr t.out) a + net (transfers t.body) a := by
  unfold txTransfers
  cases t.hdr with
  | call c inp => simp only [net_append, own]
  | create c inp => simp only [net_append, own]; omega

/-- **C78, exact**: for every execution, the listed transfers, read as payments, give each account the
balance it has after the transaction and what the transfers taken back would have added. -/
theorem C78_exact (t : Tx) (l : Ledger) :
    ∃ ts, runHooks (transferHook false) [] t.events = .ok ts ∧
      ∀ a, settle ts l a = txBalances t l a + net (txTakenBack t) a := by
  refine ⟨txTransfers t, (C39_transfers t).1, fun a => ?_⟩
  rw [settle_eq, net_tx]
  unfold txBalances txTakenBack
  by_cases hk : t.out.result.result.isOk = true
  · rw [if_pos hk, if_pos hk]
    have h1 := balances_eq t.body (pay t.hdr t.out l) a
    have h2 := pay_eq t.hdr t.out l a
    omega
  · rw [if_neg hk, if_neg hk, net_append]

theorem takenBack_ok (b : Body) (h : AllOk b) : takenBack b = [] := by
  induction b with
  | nil => rfl
  | act x rest ih => exact ih h
  | sub hd b o rest ihb ihr =>
    rw [takenBack, if_pos h.1, ihb h.2.1, ihr h.2.2]; rfl

/-- C78, partial: if no frame fails, the listed transfers account for the change of every balance; the
internal ones for all but what the root itself pays. What is missing: executions with frames that fail,
see `C78_refuted` and `C78_exact`. -/
theorem C78_balances_partial (t : Tx) (l : Ledger) (hroot : t.out.result.result.isOk = true)
    (hok : AllOk t.body) :
    (∃ ts, runHooks (transferHook false) [] t.events = .ok ts ∧ settle ts l = txBalances t l) ∧
    ∃ ts, runHooks (transferHook true) [] t.events = .ok ts ∧
      settle ts (pay t.hdr t.out l) = txBalances t l := by
  constructor
  · obtain ⟨ts, h1, h2⟩ := C78_exact t l
    refine ⟨ts, h1, funext fun a => ?_⟩
    rw [h2 a, txTakenBack, if_pos hroot, takenBack_ok _ hok]
    simp [net]
  · refine ⟨_, (C39_transfers t).2, funext fun a => ?_⟩
    have h1 := balances_eq t.body (pay t.hdr t.out l) a
    rw [takenBack_ok _ hok] at h1
    rw [settle_eq, txBalances, if_pos hroot, ← h1]
    simp [net]

namespace LedgerExample

def frame (caller target : Address) (v : U256) : Header :=
  .call default { (default : CallInputs) with
    caller := caller, targetAddress := target, bytecodeAddress := target, value := .transfer v }

def ending (r : InstructionResult) (a : Option Address) : Outcome :=
  ⟨default, { (default : InterpreterResult) with result := r }, a⟩

def creation (caller : Address) (v : U256) : Header :=
  .create default { (default : CreateInputs) with caller := caller, value := v }

/-- A root that pays a contract, which calls another with value, creates a third and destroys itself;
`r` is the result of the call, `r'` that of the creation (revm gives the address in any case). -/
def tx (r r' : InstructionResult) : Tx where
  hdr := frame 1 2 10
  body :=
    .sub (frame 2 3 4) (.act (.selfdestruct 3 5 4) .nil) (ending r none) <|
    .sub (creation 2 6) .nil (ending r' (some 4)) .nil
  out := ending .Stop none

end LedgerExample

open LedgerExample in
/-- C78 fails: value of a call that reverts, and of a creation that fails, is listed as transferred. -/
theorem C78_refuted :
    (∃ ts, runHooks (transferHook false) [] (tx .Revert .Return).events = .ok ts ∧
      settle ts (fun _ => 0) 5 = 4 ∧ txBalances (tx .Revert .Return) (fun _ => 0) 5 = 0) ∧
    ∃ ts, runHooks (transferHook true) [] (tx .Return .Revert).events = .ok ts ∧
      ⟨.create, 2, 4, 6⟩ ∈ ts ∧ settle ts (fun _ => 0) 4 = 6 ∧
      txBalances (tx .Return .Revert) (fun _ => 0) 4 = 0 := by
  refine ⟨⟨_, (C39_transfers _).1, by decide, by decide⟩,
    ⟨_, (C39_transfers _).2, by decide, by decide, by decide⟩⟩

open LedgerExample in
/-- The execution in which both succeed meets the hypotheses of `C78_balances_partial`. -/
example : (tx .Return .Return).out.result.result.isOk = true ∧ AllOk (tx .Return .Return).body ∧
    txBalances (tx .Return .Return) (fun _ => 0) 5 = 4 ∧
    txBalances (tx .Return .Return) (fun _ => 0) 2 = 0 := by
  exact ⟨rfl, ⟨rfl, trivial, rfl, trivial, trivial⟩, by decide, by decide⟩

end Verif.Props
