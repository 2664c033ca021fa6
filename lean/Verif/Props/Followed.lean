import Verif.Props.Accounts
import Verif.Props.Ledger
import Verif.Props.CrossTransfers
import Verif.Spec.Followed
/-!
# C114: the balances can be followed from call frames and from parity traces
-/
namespace Verif.Props
open Spec Rec Parity

/-- The selfdestructs a frame executes itself. -/
def ownDestructs : Body → List Transfer
  | .nil => []
  | .act (.selfdestruct a t v) rest => ⟨.selfDestruct, a, t, v⟩ :: ownDestructs rest
  | .act _ rest => ownDestructs rest
  | .sub _ _ _ rest => ownDestructs rest

/-- What the EVM does with money: the inputs of calls are as revm makes them and frames name the account
they execute as, a creation that succeeds has an address, a frame executes one selfdestruct at most, as it
ends with it, and a precompile none. -/
structure MoneyLaw (f : FrameCtx) : Prop where
  call : RevmCall f
  addresses : AddressesOK f
  created : (∃ c inp, f.hdr = .create c inp) → f.out.result.result.isOk = true → f.out.address ≠ none
  once : (ownDestructs f.body).length ≤ 1
  precompile : f.hdr.isPrecompile = true → ownDestructs f.body = []

/-- What is paid, and not taken back, by the frames below. -/
def keptBelow : Body → List Transfer
  | .nil => []
  | .act _ rest => keptBelow rest
  | .sub h b o rest =>
    (if o.result.result.isOk then own h o ++ ownDestructs b ++ keptBelow b else []) ++ keptBelow rest

theorem balances_kept (b : Body) (l : Ledger) (a : Address) :
    balances b l a = l a + net (ownDestructs b) a + net (keptBelow b) a := by
  induction b generalizing l with
  | nil => simp [balances, ownDestructs, keptBelow, net]
  | act x rest ih =>
    cases x with
    | selfdestruct f t v =>
      simp only [balances, ownDestructs, keptBelow, net_cons, effect]
      rw [ih, move]
      omega
    | _ => exact ih l
  | sub h b o rest ihb ihr =>
    rw [balances, ihr, keptBelow, net_append, ownDestructs]
    by_cases hk : o.result.result.isOk = true
    · rw [if_pos hk, if_pos hk, ihb, pay_eq, net_append, net_append]
      omega
    · rw [if_neg hk, if_neg hk]
      simp [net]

theorem txBalances_kept (t : Tx) (l : Ledger) (a : Address) :
    txBalances t l a = l a + if t.out.result.result.isOk = true then
      net (own t.hdr t.out) a + net (ownDestructs t.body) a + net (keptBelow t.body) a else 0 := by
  unfold txBalances
  split
  · rw [balances_kept, pay_eq]; omega
  · omega

theorem effect_zero (k : TransferKind) (x y a : Address) : effect ⟨k, x, y, 0⟩ a = 0 := by
  simp [effect]

theorem effect_self (k : TransferKind) (x a : Address) (v : U256) : effect ⟨k, x, x, v⟩ a = 0 := by
  simp only [effect]; omega

theorem effect_kind (k k' : TransferKind) (x y a : Address) (v : U256) :
    effect ⟨k, x, y, v⟩ a = effect ⟨k', x, y, v⟩ a := rfl

theorem last_own (b : Body) : (ownDestructs b).length ≤ 1 →
    ((lastSelfdestruct b = none ∧ ownDestructs b = []) ∨
    ∃ x t v, lastSelfdestruct b = some (x, t, v) ∧ ownDestructs b = [⟨.selfDestruct, x, t, v⟩]) := by
  induction b with
  | nil => intro _; exact .inl ⟨rfl, rfl⟩
  | act x rest ih =>
    intro h
    cases x with
    | selfdestruct f t v =>
      simp only [ownDestructs, List.length_cons] at h
      have h0 : ownDestructs rest = [] := List.eq_nil_of_length_eq_zero (by omega)
      right
      refine ⟨f, t, v, ?_, by rw [ownDestructs, h0]⟩
      rcases ih (by omega) with ⟨h1, _⟩ | ⟨_, _, _, _, h2⟩
      · rw [lastSelfdestruct, h1]; rfl
      · rw [h0] at h2; cases h2
    | _ => exact ih h
  | sub h b o rest _ ihr => intro h; exact ihr h

/-- The account shown for a CALL is the one that was called. -/
theorem address_call {f : FrameCtx} (hl : MoneyLaw f) {c : Ctx} {inp : CallInputs} (hf : f.hdr = .call c inp)
    (hs : inp.scheme = .Call) : (frameData f).address = inp.targetAddress := by
  simp only [frameData, hf, createdAt]
  cases hsd : lastSelfdestruct f.body with
  | none => simp only [callee, hs]
  | some e =>
    obtain ⟨x, t, v⟩ := e
    have := hl.call.2 x t v hsd
    rw [hf] at this
    exact this

theorem value_call {f : FrameCtx} {c : Ctx} {inp : CallInputs} (hf : f.hdr = .call c inp)
    (hs : inp.scheme ≠ .DelegateCall) : f.value = inp.callValue := by
  simp [FrameCtx.value, valueInScope, hf, isDelegateCall, hs, ownValue]

theorem value_create {f : FrameCtx} {c : Ctx} {inp : CreateInputs} (hf : f.hdr = .create c inp) :
    f.value = inp.value := by
  simp [FrameCtx.value, valueInScope, hf, isDelegateCall, ownValue]

/-- What a frame that succeeded pays on being entered, in both formats. -/
theorem own_shown (decode : RevertDecoder) (cfg : Config) (b : Bool) (rootGas : Nat) (path : List Nat)
    (f : FrameCtx) (hl : MoneyLaw f) (hok : f.out.result.result.isOk = true) (a : Address) :
    net (paidIn (frameTrace cfg rootGas path f)) a = net (own f.hdr f.out) a ∧
    net (framePayment (leaf decode cfg b f).typ (leaf decode cfg b f).from_ (leaf decode cfg b f).to
      (leaf decode cfg b f).value) a = net (own f.hdr f.out) a := by
  cases hf : f.hdr with
  | call c inp =>
    have hlaw := hl.call.1 c inp hf
    simp only [frameTrace, leaf, action, hf, own, callTransfer, kind, caller, framePayment]
    cases hs : inp.scheme with
    | Call =>
      rw [hs] at hlaw
      obtain ⟨v, hv⟩ := hlaw
      have hval := value_call hf (by rw [hs]; decide)
      rw [CallInputs.callValue, hv] at hval
      have haddr := address_call hl hf hs
      simp only [callType, paidIn, kindText, hv, haddr]
      have hk : ¬ CallKind.Call = CallKind.StaticCall := by decide
      simp only [if_neg hk]
      rw [hval]
      by_cases h0 : v = 0
      · subst h0
        have h1 : frameType "CALL" = some .call := by decide
        simp only [h1, if_true, net_singleton]
        exact ⟨effect_zero .., effect_zero ..⟩
      · rw [if_neg h0]
        have h1 : frameType "CALL" = some .call := by decide
        rw [h1]
        exact ⟨rfl, rfl⟩
    | StaticCall =>
      rw [hs] at hlaw
      simp only at hlaw
      simp [callType, paidIn, kindText, frameType, hlaw, net]
    | CallCode =>
      rw [hs] at hlaw
      obtain ⟨⟨v, hv⟩, ht⟩ := hlaw
      have h1 : frameType "CALLCODE" = none := by decide
      simp only [callType, paidIn, kindText, hv, h1]
      by_cases h0 : v = 0
      · simp [h0]
      · rw [if_neg h0, ht, net_singleton, effect_self]; exact ⟨rfl, rfl⟩
    | DelegateCall =>
      rw [hs] at hlaw
      obtain ⟨v, hv⟩ := hlaw
      have h1 : frameType "DELEGATECALL" = none := by decide
      simp only [callType, paidIn, kindText, hv, h1]
      exact ⟨trivial, trivial⟩
  | create c inp =>
    have hval := value_create hf
    have hcr := hl.created ⟨c, inp, hf⟩ hok
    cases ha : f.out.address with
    | none => exact absurd ha hcr
    | some x =>
      have haddr : (frameData f).address = x := by
        simp only [frameData, hf, createdAt, ha]
      simp only [frameTrace, leaf, action, hf, own, createTransfer, ha, kind, caller, outcome, hok,
        framePayment, true_or, if_true,
        paidIn, haddr, hval]
      cases hs : inp.scheme with
      | Create =>
        have h1 : frameType "CREATE" = some .create := by decide
        have hk : ¬ CallKind.Create = CallKind.StaticCall := by decide
        simp only [kindText, h1, if_neg hk]
        exact ⟨trivial, trivial⟩
      | Create2 s =>
        have h1 : frameType "CREATE2" = some .create2 := by decide
        have hk : ¬ CallKind.Create2 = CallKind.StaticCall := by decide
        simp only [kindText, h1, if_neg hk]
        exact ⟨rfl, trivial⟩

/-! ## Call frames -/

theorem payments_failed {c : CallFrame} (h : c.error.isSome = true) : payments c = [] := by
  obtain ⟨_, _, _, _, _, _, _, _, _, _, _, _⟩ := c
  rw [payments, if_pos h]

theorem payments_ok {c : CallFrame} (h : c.error = none) :
    payments c = framePayment c.typ c.from_ c.to c.value ++ paymentsAll c.calls := by
  obtain ⟨_, _, _, _, _, _, _, _, error, _, _, _⟩ := c
  subst h
  rw [payments]
  rfl

theorem payments_tree (decode : RevertDecoder) (cfg : Config) (withLog : Bool) (b : Body) (a : Address) :
    ∀ (ok : Bool) (d p : Nat) (v : U256) (n : Nat), (∀ f ∈ subFrames d p v n b, MoneyLaw f) →
      (∀ f ∈ subFrames d p v n b, selfdestructed f = false) →
      net (paymentsAll (callTree decode cfg withLog (fun _ => []) ok d p v n b)) a = net (keptBelow b) a := by
  induction b with
  | nil => intro ok d p v n _ _; rfl
  | act x rest ih => intro ok d p v n h h'; exact ih ok d p v n h h'
  | sub h b o rest ihb ihr =>
    intro ok d p v n hl hs
    rw [callTree.eq_def]
    dsimp only
    rw [paymentsAll, net_append, keptBelow, net_append]
    rw [ihr _ _ _ _ _ (fun f hf => hl f (by simp [subFrames, hf])) (fun f hf => hs f (by simp [subFrames, hf]))]
    congr 1
    cases hok : o.result.result.isOk with
    | false =>
      rw [payments_failed (by simp [leaf, hok])]
      rfl
    | true =>
      have h0 := hl ⟨n, some p, d, some v, h, b, o⟩ (by simp [subFrames])
      have h1 := hs ⟨n, some p, d, some v, h, b, o⟩ (by simp [subFrames])
      have hsd : ownDestructs b = [] := by
        rcases last_own b h0.once with ⟨_, h2⟩ | ⟨x, t, w, h2, _⟩
        · exact h2
        · simp [selfdestructed, h2] at h1
      rw [payments_ok (by simp [leaf, hok]), net_append, (own_shown decode cfg _ 0 [] _ h0 hok a).2]
      dsimp only
      rw [List.append_nil, ihb _ _ _ _ _ (fun f hf => hl f (by simp [subFrames, hf]))
        (fun f hf => hs f (by simp [subFrames, hf])), hsd]
      simp [net_append]

/-! ## Parity traces -/

/-- No trace of the one list is above one of the other. -/
def Apart (xs ys : List TransactionTrace) : Prop :=
  ∀ x ∈ xs, ∀ y ∈ ys, ¬ x.traceAddress <+: y.traceAddress ∧ ¬ y.traceAddress <+: x.traceAddress

theorem undone_append (xs ys : List TransactionTrace) (tr : TransactionTrace) :
    undone (xs ++ ys) tr = (undone xs tr || undone ys tr) := by
  simp [undone]

theorem undone_false {xs : List TransactionTrace} {tr : TransactionTrace}
    (h : ∀ x ∈ xs, ¬ x.traceAddress <+: tr.traceAddress) : undone xs tr = false := by
  rw [undone, List.any_eq_false]
  intro x hx
  have := h x hx
  rw [← List.isPrefixOf_iff_prefix] at this
  simp [this]

theorem tracePayments_append {xs ys : List TransactionTrace} (h : Apart xs ys) :
    tracePayments (xs ++ ys) = tracePayments xs ++ tracePayments ys := by
  unfold tracePayments
  rw [List.filter_append, List.flatMap_append]
  congr 2
  · apply List.filter_congr
    intro x hx
    rw [undone_append, undone_false (fun y hy => (h x hx y hy).2), Bool.or_false]
  · apply List.filter_congr
    intro y hy
    rw [undone_append, undone_false (fun x hx => (h x hx y hy).1), Bool.false_or]

/-- All traces are below a failed one. -/
theorem tracePayments_failed {F : TransactionTrace} {xs : List TransactionTrace} (he : F.error.isSome = true)
    (h : ∀ x ∈ F :: xs, F.traceAddress <+: x.traceAddress) : tracePayments (F :: xs) = [] := by
  unfold tracePayments
  rw [List.filter_eq_nil_iff.2, List.flatMap_nil]
  intro x hx
  have := List.isPrefixOf_iff_prefix.2 (h x hx)
  simp [undone, he, this]

/-- A trace that succeeded, and those below it. -/
theorem tracePayments_ok {F : TransactionTrace} {xs : List TransactionTrace} (he : F.error = none)
    (h : ∀ x ∈ xs, ¬ x.traceAddress <+: F.traceAddress) :
    tracePayments (F :: xs) = paidIn F ++ tracePayments xs := by
  have hu : ∀ tr, undone (F :: xs) tr = undone xs tr := by
    intro tr; simp [undone, he]
  unfold tracePayments
  rw [List.filter_cons, hu, undone_false h]
  simp only [Bool.not_false, if_true, List.flatMap_cons]
  congr 2
  apply List.filter_congr
  intro x _
  rw [hu]

/-- The traces of the frames below a frame. -/
def below (cfg : Config) (g d p : Nat) (v : U256) (n : Nat) (path : List Nat) (k : Nat) (b : Body) :
    List TransactionTrace :=
  (locate cfg d p v n path k b).flatMap fun e => frameTrace cfg g e.1 e.2 :: sdTrace cfg e.1 e.2

/-- The traces of a frame and of those below it. -/
def traceTree (cfg : Config) (g : Nat) (path : List Nat) (f : FrameCtx) : List TransactionTrace :=
  frameTrace cfg g path f :: (sdTrace cfg path f ++
    below cfg g (f.depth + 1) f.index f.value (f.index + 1) path 0 f.body)

theorem below_sub (cfg : Config) (g d p : Nat) (v : U256) (n : Nat) (path : List Nat) (k : Nat)
    (h : Header) (b : Body) (o : Outcome) (rest : Body)
    (hex : Spec.excluded cfg ⟨n, some p, d, some v, h, b, o⟩ = false) :
    below cfg g d p v n path k (.sub h b o rest) =
      traceTree cfg g (path ++ [k]) ⟨n, some p, d, some v, h, b, o⟩ ++
        below cfg g d p v (n + 1 + b.size) path (k + 1) rest := by
  rw [below, locate, if_neg (by rw [hex]; decide)]
  simp only [List.flatMap_cons, List.flatMap_append, traceTree, List.cons_append, List.append_assoc]
  rfl

theorem below_addr (cfg : Config) (g : Nat) (b : Body) : ∀ (d p : Nat) (v : U256) (n : Nat) (path : List Nat)
    (k : Nat), ∀ tr ∈ below cfg g d p v n path k b,
    ∃ j q, tr.traceAddress = path ++ j :: q ∧ k ≤ j ∧ j < k + (shownBelow cfg d p v n b).length := by
  induction b with
  | nil => intro d p v n path k tr h; cases h
  | act x rest ih => intro d p v n path k tr h; exact ih d p v n path k tr h
  | sub h b o rest ihb ihr =>
    intro d p v n path k tr htr
    cases hex : Spec.excluded cfg ⟨n, some p, d, some v, h, b, o⟩ with
    | true =>
      rw [below, locate, if_pos hex] at htr
      obtain ⟨j, q, h1, h2, h3⟩ := ihr _ _ _ _ _ _ tr htr
      exact ⟨j, q, h1, h2, by rw [shownBelow, hex]; simpa using h3⟩
    | false =>
      rw [below_sub _ _ _ _ _ _ _ _ _ _ _ _ hex] at htr
      rw [shownBelow, hex]
      simp only [Bool.false_eq_true, if_false, List.length_append, List.length_singleton]
      rcases List.mem_append.1 htr with htr | htr
      · rcases List.mem_cons.1 htr with rfl | htr
        · exact ⟨k, [], rfl, Nat.le_refl _, by omega⟩
        · rcases List.mem_append.1 htr with htr | htr
          · rw [sdTrace] at htr
            split at htr
            · rw [List.mem_singleton] at htr
              subst htr
              exact ⟨k, [_], List.append_assoc .., Nat.le_refl _, by omega⟩
            · cases htr
          · obtain ⟨j, q, h1, _, _⟩ := ihb _ _ _ _ _ _ tr htr
            exact ⟨k, j :: q, by rw [h1, List.append_assoc]; rfl, Nat.le_refl _, by omega⟩
      · obtain ⟨j, q, h1, h2, h3⟩ := ihr _ _ _ _ _ _ tr htr
        exact ⟨j, q, h1, by omega, by omega⟩

theorem sd_addr {cfg : Config} {path : List Nat} {f : FrameCtx} {tr : TransactionTrace}
    (h : tr ∈ sdTrace cfg path f) :
    tr.traceAddress = path ++ [(shownCalls cfg f).length] ∧ tr.error = none := by
  rw [sdTrace] at h
  split at h
  · rw [List.mem_singleton] at h; subst h; exact ⟨rfl, rfl⟩
  · cases h

theorem tree_addr {cfg : Config} {g : Nat} {path : List Nat} {f : FrameCtx} {tr : TransactionTrace}
    (h : tr ∈ traceTree cfg g path f) : path <+: tr.traceAddress := by
  rcases List.mem_cons.1 h with rfl | h
  · exact List.prefix_refl _
  · rcases List.mem_append.1 h with h | h
    · exact ⟨_, (sd_addr h).1.symm⟩
    · obtain ⟨j, q, h1, _⟩ := below_addr _ _ _ _ _ _ _ _ _ _ h
      exact ⟨_, h1.symm⟩

/-- The payments of the selfdestruct trace. -/
theorem sd_paid {cfg : Config} {path : List Nat} {f : FrameCtx} (hl : MoneyLaw f)
    (hok : f.out.result.result.isOk = true) (a : Address) :
    net (tracePayments (sdTrace cfg path f)) a = net (ownDestructs f.body) a := by
  have hz : ∀ tr, tr ∈ sdTrace cfg path f → undone (sdTrace cfg path f) tr = false := by
    intro tr _
    rw [undone, List.any_eq_false]
    intro x hx
    rw [(sd_addr hx).2]
    simp
  have hp : tracePayments (sdTrace cfg path f) = (sdTrace cfg path f).flatMap paidIn := by
    unfold tracePayments
    rw [List.filter_eq_self.2]
    intro tr htr
    rw [hz tr htr]; rfl
  rw [hp]
  rcases last_own f.body hl.once with ⟨h1, h2⟩ | ⟨x, t, v, h1, h2⟩
  · rw [h2, sdTrace]
    split
    · simp only [h1, Option.map_none, Option.getD_none, List.flatMap_cons, List.flatMap_nil, List.append_nil,
        paidIn, net_singleton]
      exact effect_zero ..
    · rfl
  · have hx : (frameData f).address = x := by
      have he := hl.call.2 x t v h1
      cases hf : f.hdr with
      | call c inp => simp only [frameData, hf, createdAt, h1]
      | create c inp =>
        have hcr := hl.created ⟨c, inp, hf⟩ hok
        cases ha : f.out.address with
        | none => exact absurd ha hcr
        | some y =>
          have := hl.addresses.2.2 y (by rw [hf]; exact ha)
          simp only [frameData, hf, createdAt, ha]
          rw [this, he]
    rw [h2, sdTrace, if_pos (by simp [selfdestructed, h1])]
    simp [h1, paidIn, hx]

theorem tree_paid (cfg : Config) (g : Nat) (path : List Nat) (f : FrameCtx) (hl : MoneyLaw f) (a : Address)
    (hb : net (tracePayments (below cfg g (f.depth + 1) f.index f.value (f.index + 1) path 0 f.body)) a =
      net (keptBelow f.body) a) :
    net (tracePayments (traceTree cfg g path f)) a = if f.out.result.result.isOk = true then
      net (own f.hdr f.out) a + net (ownDestructs f.body) a + net (keptBelow f.body) a else 0 := by
  cases hok : f.out.result.result.isOk with
  | false =>
    rw [traceTree, tracePayments_failed (by simp [frameTrace, hok])]
    · rfl
    · intro x hx
      exact tree_addr (path := path) (f := f) hx
  | true =>
    rw [traceTree, tracePayments_ok (by simp [frameTrace, hok])]
    · rw [tracePayments_append, net_append, net_append, hb, sd_paid hl hok,
        (own_shown ⟨fun _ => none, fun _ => ""⟩ cfg false g path f hl hok a).1, if_pos rfl]
      · omega
      · intro x hx y hy
        obtain ⟨j, q, h1, _, h3⟩ := below_addr _ _ _ _ _ _ _ _ _ _ hy
        rw [(sd_addr hx).1, h1, List.prefix_append_right_inj, List.prefix_append_right_inj]
        have hj : j < (shownCalls cfg f).length := by simpa [shownCalls] using h3
        constructor <;> intro hpre <;> rw [List.cons_prefix_cons] at hpre <;> omega
    · intro x hx hpre
      have hlen := hpre.length_le
      rcases List.mem_append.1 hx with hx | hx
      · rw [(sd_addr hx).1] at hlen
        simp [frameTrace] at hlen
        omega
      · obtain ⟨j, q, h1, _⟩ := below_addr _ _ _ _ _ _ _ _ _ _ hx
        rw [h1] at hlen
        simp [frameTrace] at hlen
        omega

theorem keptBelow_noSub (b : Body) (h : b.hasSub = false) : keptBelow b = [] := by
  induction b with
  | nil => rfl
  | act x rest ih => exact ih h
  | sub _ _ _ _ => cases h

/-- A frame that is left out moved no money. -/
theorem excluded_paid {cfg : Config} {f : FrameCtx} (hl : MoneyLaw f)
    (hex : Spec.excluded cfg f = true) (hns : f.hdr.isPrecompile = true → f.body.hasSub = false) (a : Address) :
    net (own f.hdr f.out) a + net (ownDestructs f.body) a + net (keptBelow f.body) a = 0 := by
  simp only [Spec.excluded, Bool.and_eq_true, beq_iff_eq] at hex
  obtain ⟨⟨_, hp⟩, hv⟩ := hex
  rw [hl.precompile hp, keptBelow_noSub _ (hns hp)]
  cases hf : f.hdr with
  | create c inp => rw [hf] at hp; cases hp
  | call c inp =>
    have hlaw := hl.call.1 c inp hf
    simp only [own, callTransfer]
    cases hval : inp.value with
    | apparent v => rfl
    | transfer v =>
      have : inp.scheme ≠ .DelegateCall := by
        intro hs
        rw [hs] at hlaw
        obtain ⟨w, hw⟩ := hlaw
        rw [hw] at hval; cases hval
      have h0 := value_call hf this
      rw [hv, CallInputs.callValue, hval] at h0
      have h0 : v = 0 := h0.symm
      subst h0
      rfl

theorem below_paid (cfg : Config) (g : Nat) (b : Body) (a : Address) : ∀ (d p : Nat) (v : U256) (n : Nat)
    (path : List Nat) (k : Nat), b.WF → (∀ f ∈ subFrames d p v n b, MoneyLaw f) →
      net (tracePayments (below cfg g d p v n path k b)) a = net (keptBelow b) a := by
  induction b with
  | nil => intro d p v n path k _ _; rfl
  | act x rest ih => intro d p v n path k hwf h; exact ih d p v n path k hwf h
  | sub h b o rest ihb ihr =>
    intro d p v n path k hwf hl
    have h0 := hl ⟨n, some p, d, some v, h, b, o⟩ (by simp [subFrames])
    have hr := ihr d p v (n + 1 + b.size) path
    have hlr : ∀ f ∈ subFrames d p v (n + 1 + b.size) rest, MoneyLaw f :=
      fun f hf => hl f (by simp [subFrames, hf])
    cases hex : Spec.excluded cfg ⟨n, some p, d, some v, h, b, o⟩ with
    | true =>
      rw [below, locate, if_pos hex, ← below, hr k hwf.2.2.2 hlr, keptBelow, net_append]
      have := excluded_paid h0 hex hwf.2.1 a
      split
      · rw [net_append, net_append]
        simp only at this
        omega
      · simp [net]
    | false =>
      rw [below_sub _ _ _ _ _ _ _ _ _ _ _ _ hex, tracePayments_append, net_append, hr (k + 1) hwf.2.2.2 hlr,
        keptBelow, net_append, tree_paid _ _ _ _ h0]
      · simp only
        congr 1
        split
        · rw [net_append, net_append]
        · rfl
      · exact ihb _ _ _ _ _ _ hwf.2.2.1 (fun f hf => hl f (by
          simp only [subFrames, List.mem_cons, List.mem_append]; exact .inr (.inl hf)))
      · intro x hx y hy
        obtain ⟨q', h1⟩ := tree_addr hx
        obtain ⟨j, q, h2, h3, _⟩ := below_addr _ _ _ _ _ _ _ _ _ _ hy
        rw [← h1, h2, List.append_assoc, List.prefix_append_right_inj, List.prefix_append_right_inj]
        constructor <;> intro hpre <;> rw [List.singleton_append, List.cons_prefix_cons] at hpre <;> omega

/-- **C114.** For every execution in which money is moved as the EVM does, failing frames, selfdestructs and
calls of precompiles included, and every recording: paying what the parity traces say, except the traces that
failed or are below one that did, gives every account the balance it has after the transaction. -/
theorem C114_parity (cfg : Config) (t : Tx) (hwf : t.WF) (hsafe : Safe cfg t.body)
    (hl : ∀ f ∈ frames t, MoneyLaw f) (l : Ledger) :
    ∃ s ts, TI.run cfg TI.new t.events = .ok s ∧ intoTransactionTraces s.arena = .ok ts ∧
      settle (tracePayments ts) l = txBalances t l := by
  obtain ⟨s, root, hr, _, _, htr⟩ := run_traces cfg t hwf hsafe
  refine ⟨s, _, hr, htr, funext fun a => ?_⟩
  have htree : txTraces cfg root.trace.gasUsed t = traceTree cfg root.trace.gasUsed [] (rootOf t) := rfl
  rw [settle_eq, txBalances_kept, htree, tree_paid _ _ _ _ (hl _ (by simp [frames, rootOf]))]
  · rfl
  · exact below_paid _ _ _ _ _ _ _ _ _ _ hwf.2.2 (fun f hf => hl f (List.mem_cons_of_mem _ hf))

/-- **C114, call frames** (partial: missing are executions with selfdestructs, see the refutation). For every
execution without selfdestructs in which money is moved as the EVM does, failing frames included, every
recording and call configuration: paying what the call frames say, except those that failed and what is below
them, gives every account the balance it has after the transaction. -/
theorem C114_call_frames_partial (decode : RevertDecoder) (cfg : Config) (t : Tx) (hwf : t.WF)
    (hsafe : Safe cfg t.body) (hl : ∀ f ∈ frames t, MoneyLaw f)
    (hsd : ∀ f ∈ frames t, selfdestructed f = false) (opts : CallConfig)
    (honly : opts.onlyTopCall ≠ some true) (gas : Nat) (l : Ledger) :
    ∃ s g, TI.run cfg TI.new t.events = .ok s ∧ gethCallTraces decode s.arena opts gas = .ok g ∧
      settle (payments g) l = txBalances t l := by
  obtain ⟨s, hr, hg⟩ := C20_call_frame_tree decode cfg t hwf hsafe opts honly gas hsd
  refine ⟨s, _, hr, hg, funext fun a => ?_⟩
  rw [settle_eq, txBalances_kept, callFrameTree]
  congr 1
  have h0 := hl (rootOf t) (by simp [frames, rootOf])
  have h1 := hsd (rootOf t) (by simp [frames, rootOf])
  cases hok : t.out.result.result.isOk with
  | false =>
    rw [payments_failed (by simp [leaf, rootOf, hok])]
    rfl
  | true =>
    have hs0 : ownDestructs t.body = [] := by
      rcases last_own t.body h0.once with ⟨_, h2⟩ | ⟨x, u, w, h2, _⟩
      · exact h2
      · simp [selfdestructed, rootOf, h2] at h1
    rw [payments_ok (by simp [leaf, rootOf, hok]), net_append, if_pos rfl, hs0]
    dsimp only
    rw [(own_shown decode cfg _ 0 [] _ h0 hok a).2, List.append_nil,
      payments_tree decode cfg _ _ _ _ _ _ _ _ (fun f hf => hl f (List.mem_cons_of_mem _ hf))
        (fun f hf => hsd f (List.mem_cons_of_mem _ hf))]
    simp [rootOf, net]

/-- The contract 0xa is paid 11, pays 6 to 0xb, creates a contract with value, and sends 8 to 0xb, which it
sends on to 0xe before the call reverts. -/
def moneyTx : Tx where
  hdr := Example.callHdr .Call 0x99 0xa 0xa 11
  body := .sub (Example.callHdr .Call 0xa 0xb 0xb 6) (.sub delegateExample .nil (Example.out .Return) .nil)
      (Example.out .Return)
    (.sub Example.createHdr .nil { Example.out .Return with address := some 0xc3 }
      (.sub (Example.callHdr .Call 0xa 0xb 0xb 8)
        (.sub (Example.callHdr .Call 0xb 0xe 0xe 8) .nil (Example.out .Stop) .nil) (Example.out .Revert) .nil))
  out := Example.out .Stop

/-- It meets the hypotheses of both theorems; 0xb has been paid 6, and 0xe nothing. -/
example : moneyTx.WF ∧ (∀ cfg, Safe cfg moneyTx.body) ∧ (∀ f ∈ frames moneyTx, MoneyLaw f) ∧
    (∀ f ∈ frames moneyTx, selfdestructed f = false) ∧
    txBalances moneyTx (fun _ => 0) 0xb = 6 ∧ txBalances moneyTx (fun _ => 0) 0xe = 0 := by
  refine ⟨?_, fun cfg => ⟨⟨trivial, trivial⟩, trivial, ⟨trivial, trivial⟩, trivial⟩, ?_, ?_, by decide, by decide⟩
  · refine ⟨fun _ => rfl, fun h => absurd h (by decide), ?_⟩
    refine ⟨fun _ => rfl, fun h => absurd h (by decide), ⟨?_, ?_, trivial, trivial⟩, ?_⟩
    · exact fun h => absurd h (by decide)
    · exact fun h => absurd h (by decide)
    · refine ⟨trivial, fun h => absurd h (by decide), trivial, ?_⟩
      exact ⟨fun _ => rfl, fun h => absurd h (by decide), ⟨fun _ => rfl, fun h => absurd h (by decide), trivial, trivial⟩, trivial⟩
  · intro f hf
    simp only [frames, moneyTx, subFrames, List.mem_cons, List.append_nil, List.cons_append,
      List.nil_append, List.not_mem_nil, or_false] at hf
    rcases hf with rfl | rfl | rfl | rfl | rfl | rfl <;>
    refine ⟨⟨fun c inp h => by cases h <;> exact ⟨_, rfl⟩, fun a t v h => by cases h⟩,
      ⟨fun l hl => (nomatch hl), fun a ha => (by cases ha), fun a ha => (by cases ha <;> rfl)⟩, fun ⟨_, _, h⟩ _ => by cases h <;> decide,
      by decide, fun _ => rfl⟩
  · decide

/-- The account 0xb, called by 0xa, destroys itself and has its money sent to 0xe; the hypotheses of
`C114_parity` are met. -/
theorem destroysItself_law : ∀ f ∈ frames destroysItself, MoneyLaw f := by
  intro f hf
  simp only [frames, destroysItself, subFrames, List.mem_cons, List.append_nil, List.not_mem_nil,
    or_false] at hf
  rcases hf with rfl | rfl
  · exact ⟨⟨fun c inp h => by cases h; exact ⟨_, rfl⟩, fun a t v h => by cases h⟩,
      ⟨fun l hl => (nomatch hl), fun a ha => (by cases ha), fun a ha => (by cases ha)⟩, fun ⟨_, _, h⟩ _ => by cases h <;> decide,
      by decide, fun _ => rfl⟩
  · exact ⟨⟨fun c inp h => by cases h; exact ⟨_, rfl⟩, fun a t v h => by cases h; rfl⟩,
      ⟨fun l hl => (nomatch hl), fun a ha => (by cases ha; rfl), fun a ha => (by cases ha)⟩, fun ⟨_, _, h⟩ _ => by cases h <;> decide,
      by decide, fun h => absurd h (by decide)⟩

/-- **C114, refuted for call frames with selfdestructs.** The contract 0xb, called by 0xa, destroys itself and
its 4 go to 0xe; by the call frames 0xa pays them. -/
theorem C114_refuted_call_frames :
    destroysItself.WF ∧ (∀ cfg, Safe cfg destroysItself.body) ∧ (∀ f ∈ frames destroysItself, MoneyLaw f) ∧
    ∀ decode cfg gas, ∃ s g, TI.run cfg TI.new destroysItself.events = .ok s ∧
      gethCallTraces decode s.arena {} gas = .ok g ∧
      settle (payments g) (fun _ => 0) 0xa = -4 ∧ txBalances destroysItself (fun _ => 0) 0xa = 0 ∧
      settle (payments g) (fun _ => 0) 0xb = 0 ∧ txBalances destroysItself (fun _ => 0) 0xb = -4 := by
  refine ⟨C103_refuted.1.1, C103_refuted.1.2.1, destroysItself_law, fun decode cfg gas => ?_⟩
  obtain ⟨s, root, hr, _, har, htr⟩ := run_traces cfg destroysItself C103_refuted.1.1 (C103_refuted.1.2.1 cfg)
  have hg := gethCallTraces_run decode cfg destroysItself {} gas rfl
  rw [← har] at hg
  refine ⟨s, _, hr, hg, by rfl, by decide, by rfl, by decide⟩

/-! ## Call frames with selfdestructs -/

/-- The payment the SELFDESTRUCT frame of `f` tells of: the caller of the destroyed contract pays. -/
def accused (f : FrameCtx) : List Transfer :=
  match lastSelfdestruct f.body with
  | some (_, to, v) => [⟨.selfDestruct, caller f.hdr, to, v⟩]
  | none => []

/-- The frames whose selfdestruct is shown below frame `i`: the one entered next, and for the root itself. -/
def toldUnder (t : Tx) (i : Nat) : List FrameCtx :=
  (if i = 0 then [rootOf t] else []) ++ ((frames t)[i + 1]?).toList

theorem paymentsAll_append (xs ys : List CallFrame) :
    paymentsAll (xs ++ ys) = paymentsAll xs ++ paymentsAll ys := by
  induction xs with
  | nil => rfl
  | cons x xs ih => rw [List.cons_append, paymentsAll, paymentsAll, ih, List.append_assoc]

theorem paymentsAll_sdFrame (f : FrameCtx) : paymentsAll (sdFrame f) = accused f := by
  have h1 : frameType "SELFDESTRUCT" = some .selfDestruct := by decide
  unfold sdFrame accused
  cases h : lastSelfdestruct f.body with
  | none =>
    split
    · simp [paymentsAll, payments, framePayment]
    · rfl
  | some e =>
    obtain ⟨x, t, v⟩ := e
    rw [if_pos (by simp [selfdestructed, h])]
    simp [paymentsAll, payments, framePayment, h1]

theorem paymentsAll_sdUnder (t : Tx) (i : Nat) :
    paymentsAll (sdUnder t i) = (toldUnder t i).flatMap accused := by
  rw [sdUnder, toldUnder, paymentsAll_append, List.flatMap_append]
  congr 1
  · split
    · simp [paymentsAll_sdFrame]
    · rfl
  · cases (frames t)[i + 1]? with
    | none => rfl
    | some f => simp [paymentsAll_sdFrame]

theorem payments_tree_sd (decode : RevertDecoder) (cfg : Config) (withLog : Bool) (t : Tx) (b : Body)
    (a : Address) : ∀ (ok : Bool) (d p : Nat) (v : U256) (n : Nat), (∀ f ∈ subFrames d p v n b, MoneyLaw f) →
      net (paymentsAll (callTree decode cfg withLog (sdUnder t) ok d p v n b)) a +
        net ((keptFrames d p v n b).flatMap fun f => ownDestructs f.body) a =
      net (keptBelow b) a +
        net ((keptFrames d p v n b).flatMap fun f => (toldUnder t f.index).flatMap accused) a := by
  induction b with
  | nil => intro ok d p v n _; rfl
  | act x rest ih => intro ok d p v n h; exact ih ok d p v n h
  | sub h b o rest ihb ihr =>
    intro ok d p v n hl
    rw [callTree.eq_def]
    dsimp only
    rw [paymentsAll, net_append, keptBelow, net_append, keptFrames, List.flatMap_append, List.flatMap_append,
      net_append, net_append]
    have hr := ihr ok d p v (n + 1 + b.size) (fun f hf => hl f (by simp [subFrames, hf]))
    cases hok : o.result.result.isOk with
    | false =>
      rw [payments_failed (by simp [leaf, hok])]
      simp only [Bool.false_eq_true, if_false, List.flatMap_nil]
      have : net [] a = 0 := rfl
      omega
    | true =>
      have h0 := hl ⟨n, some p, d, some v, h, b, o⟩ (by simp [subFrames])
      have hb := ihb (ok && true) (d + 1) n (valueInScope (some v) h) (n + 1)
        (fun f hf => hl f (by simp [subFrames, hf]))
      rw [payments_ok (by simp [leaf, hok]), net_append, (own_shown decode cfg _ 0 [] _ h0 hok a).2]
      dsimp only
      rw [paymentsAll_append, net_append, paymentsAll_sdUnder]
      simp only [if_true, List.flatMap_cons, net_append]
      omega

/-- **C114, call frames, exactly.** For every execution in which money is moved as the EVM does, selfdestructs
included: what the payments of the call frames give is wrong by the selfdestructs and nothing else. What
the lasting selfdestructs paid is missing; instead the caller of each contract whose SELFDESTRUCT frame is
shown below a lasting frame pays (also if the selfdestruct itself did not last). The balances are right
exactly if both come to the same for every account. -/
theorem C114_call_frames_exact (decode : RevertDecoder) (cfg : Config) (t : Tx) (hwf : t.WF)
    (hsafe : Safe cfg t.body) (hl : ∀ f ∈ frames t, MoneyLaw f) (opts : CallConfig)
    (honly : opts.onlyTopCall.getD false = false) (gas : Nat) (l : Ledger) :
    ∃ s g, TI.run cfg TI.new t.events = .ok s ∧ gethCallTraces decode s.arena opts gas = .ok g ∧
      (∀ a, settle (payments g) l a + net ((lasting t).flatMap fun f => ownDestructs f.body) a =
        txBalances t l a + net ((lasting t).flatMap fun f => (toldUnder t f.index).flatMap accused) a) ∧
      (settle (payments g) l = txBalances t l ↔
        ∀ a, net ((lasting t).flatMap fun f => ownDestructs f.body) a =
          net ((lasting t).flatMap fun f => (toldUnder t f.index).flatMap accused) a) := by
  obtain ⟨s, hr, hg, _⟩ := C21_selfdestruct_placement_partial decode cfg t hwf hsafe opts honly gas
  have key : ∀ a, settle (payments (callFrameTree decode cfg (opts.withLog.getD false)
      (opts.withLog.getD false) (sdUnder t) gas t)) l a +
        net ((lasting t).flatMap fun f => ownDestructs f.body) a =
        txBalances t l a + net ((lasting t).flatMap fun f => (toldUnder t f.index).flatMap accused) a := by
    intro a
    rw [settle_eq, txBalances_kept, callFrameTree, lasting]
    have h0 := hl (rootOf t) (by simp [frames, rootOf])
    cases hok : t.out.result.result.isOk with
    | false =>
      rw [payments_failed (by simp [leaf, rootOf, hok])]
      rfl
    | true =>
      have hb := payments_tree_sd decode cfg (opts.withLog.getD false) t t.body a true 1 0
        (valueInScope none t.hdr) 1 (fun f hf => hl f (List.mem_cons_of_mem _ hf))
      rw [payments_ok (by simp [leaf, rootOf, hok]), net_append, if_pos rfl]
      dsimp only
      rw [(own_shown decode cfg _ 0 [] _ h0 hok a).2, paymentsAll_append, net_append, paymentsAll_sdUnder]
      simp only [if_true, List.flatMap_cons, net_append, rootOf] at hb ⊢
      omega
  refine ⟨s, _, hr, hg, key, ?_⟩
  constructor
  · intro h a
    have := key a
    rw [h] at this
    omega
  · intro h
    funext a
    have := key a
    rw [h a] at this
    omega

/-- The contract 0xb, called by 0xa, destroys itself: the frame below the root names 0xa. -/
example : (∀ f ∈ frames destroysItself, MoneyLaw f) ∧ destroysItself.WF ∧
    ((lasting destroysItself).flatMap fun f => ownDestructs f.body) = [⟨.selfDestruct, 0xb, 0xe, 4⟩] ∧
    ((lasting destroysItself).flatMap fun f => (toldUnder destroysItself f.index).flatMap accused) =
      [⟨.selfDestruct, 0xa, 0xe, 4⟩] :=
  ⟨destroysItself_law, C103_refuted.1.1, by decide, by decide⟩

end Verif.Props
