import Verif.Spec.JsResult
import Verif.Spec.JsObjects
/-! C62: the context of a JavaScript tracer's `result` function. -/
namespace Verif
namespace Props
open Spec

theorem f64OfU64_exact (n : Nat) (h : n ≤ 2 ^ 53) : f64OfU64 n = n := by
  unfold f64OfU64
  by_cases h' : n < 2 ^ 53
  · simp [h']
  · have : n = 2 ^ 53 := by omega
    subst this
    decide

theorem shows_ofU64 (n : Nat) (h : n ≤ 2 ^ 53) : shows (some (JsVal.ofU64 n)) n := by
  refine ⟨(n : Rat), ?_, rfl⟩
  unfold JsVal.ofU64 JsNum.ofNat
  rw [f64OfU64_exact n h]

/-- The fields of the object. -/
theorem intoJsObject_read (c : JsEvmContext) :
    let o := c.intoJsObject
    o.read "type" = some (.str c.type) ∧
    o.read "from" = some (.ofAddress c.from_) ∧
    o.read "to" = some (match c.to with | some a => .ofAddress a | none => .null) ∧
    o.read "input" = some (.bytes c.input) ∧
    o.read "gas" = some (.ofU64 c.gas) ∧
    o.read "gasUsed" = some (.ofU64 c.gasUsed) ∧
    o.read "gasPrice" = some (.ofU64 c.gasPrice) ∧
    o.read "intrinsicGas" = some (.ofU64 c.intrinsicGas) ∧
    o.read "value" = some (.bigint c.value.toNat) ∧
    o.read "block" = some (.ofU64 c.block) ∧
    o.read "output" = some (.bytes c.output) ∧
    o.read "time" = some (.str c.time) ∧
    o.read "blockHash" = c.transactionCtx.blockHash.map JsVal.bytes ∧
    o.read "txIndex" = c.transactionCtx.txIndex.map JsVal.ofU64 ∧
    o.read "txHash" = c.transactionCtx.txHash.map JsVal.bytes := by
  obtain ⟨ty, fr, to, inp, gas, gu, gp, ig, v, b, out, t, bh, ti, th⟩ := c
  refine ⟨?_, ?_, ?_, ?_, ?_, ?_, ?_, ?_, ?_, ?_, ?_, ?_, ?_, ?_, ?_⟩ <;>
    cases to <;> cases bh <;> cases ti <;> cases th <;> rfl

theorem u64OrMax_eq (x : U256) (h : x.toNat ≤ 2 ^ 53) : u64OrMax x = x.toNat := by
  unfold u64OrMax
  rw [if_pos (Nat.lt_of_le_of_lt h (by decide))]

theorem beBytes_eq (n x : Nat) :
    beBytes n x = (List.range n).map (fun i => UInt8.ofNat (x / 256 ^ (n - 1 - i) % 256)) := by
  induction n generalizing x with
  | zero => rfl
  | succ n ih =>
    rw [beBytes, ih, List.range_succ, List.map_append]
    congr 1
    · apply List.map_congr_left
      intro i hi
      have hi : i < n := List.mem_range.1 hi
      rw [Nat.div_div_eq_div_mul, ← Nat.pow_succ']
      rw [show (n - 1 - i).succ = n + 1 - 1 - i by omega]
    · simp

theorem address_bytes (a : Address) : beBytes 20 a.toNat = addressBytes a := beBytes_eq 20 a.toNat

/-- C62, partial: for every transaction and outcome the object passed to `result` gives the kind, the
sender, the target, the input, the value, the output and the block and transaction data; the numbers
are exact up to 2^53. Missing: the intrinsic gas (`C62_refuted`), numbers above 2^53. -/
theorem C62_context_partial (res : ExecutionResult) (env : TxEnv) (tctx : TransactionContext) :
    let o := jsResultArgument res env tctx
    ((o.read "type" = some (.str "CALL") ↔ ∃ a, env.transactTo = .call a) ∧
     (o.read "type" = some (.str "CREATE") ↔ env.transactTo = .create)) ∧
    o.read "from" = some (.bytes (addressBytes env.caller)) ∧
    (o.read "to" = match resultTo res env with
      | some a => some (.bytes (addressBytes a))
      | none => some .null) ∧
    o.read "input" = some (.bytes env.data) ∧
    o.read "value" = some (.bigint env.value.toNat) ∧
    o.read "output" = some (.bytes (resultOutput res)) ∧
    o.read "time" = some (.str (toString env.timestamp.toNat)) ∧
    (env.gasLimit ≤ 2 ^ 53 → shows (o.read "gas") env.gasLimit) ∧
    (res.gasUsed ≤ 2 ^ 53 → shows (o.read "gasUsed") res.gasUsed) ∧
    (env.gasPrice.toNat ≤ 2 ^ 53 → shows (o.read "gasPrice") env.gasPrice.toNat) ∧
    (env.blockNumber.toNat ≤ 2 ^ 53 → shows (o.read "block") env.blockNumber.toNat) ∧
    o.read "blockHash" = tctx.blockHash.map JsVal.bytes ∧
    o.read "txHash" = tctx.txHash.map JsVal.bytes ∧
    (tctx.txIndex = none → o.read "txIndex" = none) ∧
    (∀ i, tctx.txIndex = some i → i ≤ 2 ^ 53 → shows (o.read "txIndex") i) := by
  intro o
  simp only [← address_bytes]
  obtain ⟨h1, h2, h3, h4, h5, h6, h7, _, h9, h10, h11, h12, h13, h14, h15⟩ :=
    intoJsObject_read (resultContext res env tctx)
  have h1 : o.read "type" = some (.str (resultContext res env tctx).type) := h1
  refine ⟨⟨?_, ?_⟩, h2, ?_, h4, h9, ?_, h12, ?_, ?_, ?_, ?_, h13, h15, ?_, ?_⟩
  · rw [h1]
    unfold resultContext
    cases env.transactTo <;> simp
  · rw [h1]
    unfold resultContext
    cases env.transactTo <;> simp
  · refine Eq.trans h3 ?_
    unfold resultContext resultTo
    cases env.transactTo with
    | call a => rfl
    | create =>
      cases res with
      | success g out =>
        cases out with
        | call b => rfl
        | create b a => cases a <;> rfl
      | revert g b => rfl
      | halt g => rfl
  · refine Eq.trans h11 ?_
    cases res with
    | success g out => cases out <;> rfl
    | revert g b => rfl
    | halt g => rfl
  · intro h
    rw [show o.read "gas" = _ from h5]
    exact shows_ofU64 _ h
  · intro h
    rw [show o.read "gasUsed" = _ from h6]
    exact shows_ofU64 _ h
  · intro h
    rw [show o.read "gasPrice" = _ from h7]
    have := shows_ofU64 _ h
    rw [← u64OrMax_eq _ h] at this
    rw [← u64OrMax_eq _ h]
    exact this
  · intro h
    rw [show o.read "block" = _ from h10]
    have := shows_ofU64 _ h
    rw [← u64OrMax_eq _ h] at this
    rw [← u64OrMax_eq _ h]
    exact this
  · intro h
    rw [show o.read "txIndex" = _ from h14]
    show tctx.txIndex.map JsVal.ofU64 = none
    rw [h]
    rfl
  · intro i h hi
    rw [show o.read "txIndex" = _ from h14]
    show shows (tctx.txIndex.map JsVal.ofU64) i
    rw [h]
    exact shows_ofU64 i hi

/-- C62, what fails: the context says that the intrinsic gas is zero, for every transaction, although
no transaction has less than 21000; a gas price above 2^64 is shown as another number. -/
theorem C62_refuted (res : ExecutionResult) (env : TxEnv) (tctx : TransactionContext) :
    ¬ shows ((jsResultArgument res env tctx).read "intrinsicGas") (intrinsicGas env) ∧
    (2 ^ 65 ≤ env.gasPrice.toNat →
      ¬ shows ((jsResultArgument res env tctx).read "gasPrice") env.gasPrice.toNat) := by
  obtain ⟨_, _, _, _, _, _, h7, h8, _⟩ := intoJsObject_read (resultContext res env tctx)
  constructor
  · rintro ⟨q, hq, rfl⟩
    rw [show (jsResultArgument res env tctx).read "intrinsicGas" = _ from h8] at hq
    have h0 : (0 : Rat) = ((intrinsicGas env : Nat) : Rat) := by
      have : JsVal.ofU64 0 = .num (.fin ((intrinsicGas env : Nat) : Rat)) := Option.some.inj hq
      exact (JsNum.fin.inj (JsVal.num.inj this))
    have h1 : intrinsicGas env = 0 := by
      have h0' : ((0 : Nat) : Rat) = ((intrinsicGas env : Nat) : Rat) := h0
      exact (Rat.natCast_inj.mp h0').symm
    unfold intrinsicGas at h1
    omega
  · intro hp
    rintro ⟨q, hq, rfl⟩
    rw [show (jsResultArgument res env tctx).read "gasPrice" = _ from h7] at hq
    have h0 : ((f64OfU64 (u64OrMax env.gasPrice) : Nat) : Rat) = ((env.gasPrice.toNat : Nat) : Rat) :=
      JsNum.fin.inj (JsVal.num.inj (Option.some.inj hq))
    have h1 := Rat.natCast_inj.mp h0
    have h2 : u64OrMax env.gasPrice = 2 ^ 64 - 1 := by
      unfold u64OrMax
      rw [if_neg (by omega)]
    rw [h2] at h1
    have h3 : f64OfU64 (2 ^ 64 - 1) = 2 ^ 64 := by decide +kernel
    rw [h3] at h1
    omega

/-- A creation that deployed a contract, in a block with hashes. -/
def createdResult : ExecutionResult := .success 60000 (.create [0x60, 0] (some 0xabcd))

def createEnv : TxEnv := ⟨.create, 7, [1, 0], 100000, 10, 5, 17, 1700000000⟩

example :
    (jsResultArgument createdResult createEnv (TransactionContext.withTxIndex {} 3)).read "to" =
      some (.bytes (beBytes 20 0xabcd)) ∧
    resultTo createdResult createEnv = some 0xabcd ∧ intrinsicGas createEnv = 53020 :=
  ⟨rfl, rfl, rfl⟩

end Props
end Verif
