import Verif.Spec.JsObjects
import Verif.Props.JsValues
import Verif.Props.JsResult
/-! C70 (argument objects of the callbacks), C71 (toContract, toContract2). -/
namespace Verif.Props
open Spec

/-! ### Numbers -/

/-- C62, C70: a `u64` arrives in JavaScript as the same number exactly if it has at most 53 significant
bits. -/
theorem C70_numbers (n : Nat) : f64OfU64 n = n ↔ Representable n := by
  unfold f64OfU64
  by_cases h : n < 2 ^ 53
  · rw [if_pos h]
    exact ⟨fun _ => ⟨n, 0, h, by simp⟩, fun _ => rfl⟩
  · rw [if_neg h]
    have hn : n ≠ 0 := by intro e; rw [e] at h; exact h (by decide)
    dsimp only
    have hlog1 : 2 ^ n.log2 ≤ n := Nat.log2_self_le hn
    have hlog2 : n < 2 ^ (n.log2 + 1) := Nat.lt_log2_self
    have h52 : 53 ≤ n.log2 := by
      have : 2 ^ 53 ≤ n := by omega
      exact (Nat.le_log2 hn).2 this
    generalize he : n.log2 - 52 = e
    have hpos : 0 < 2 ^ e := Nat.two_pow_pos e
    have hdm : 2 ^ e * (n / 2 ^ e) + n % 2 ^ e = n := Nat.div_add_mod n (2 ^ e)
    have hq : n / 2 ^ e < 2 ^ 53 := by
      rw [Nat.div_lt_iff_lt_mul hpos, ← Nat.pow_add]
      rwa [show 53 + e = n.log2 + 1 by omega]
    have hr : n % 2 ^ e < 2 ^ e := Nat.mod_lt _ hpos
    have c1 : n / 2 ^ e * 2 ^ e = 2 ^ e * (n / 2 ^ e) := Nat.mul_comm _ _
    have c2 : (n / 2 ^ e + 1) * 2 ^ e = 2 ^ e * (n / 2 ^ e) + 2 ^ e := by
      rw [Nat.add_mul, Nat.one_mul, Nat.mul_comm]
    constructor
    · intro hx
      refine ⟨n / 2 ^ e, e, hq, ?_⟩
      split at hx
      · exact hx.symm
      · omega
    · rintro ⟨m, k, hm, hmk⟩
      have hk : e ≤ k := by
        have : n < 2 ^ (53 + k) := by
          rw [hmk, Nat.pow_add]
          exact Nat.mul_lt_mul_of_pos_right hm (Nat.two_pow_pos k)
        have : n.log2 < 53 + k := (Nat.log2_lt hn).2 this
        omega
      have hz : n % 2 ^ e = 0 := by
        apply Nat.mod_eq_zero_of_dvd
        rw [hmk]
        exact Nat.dvd_trans (Nat.pow_dvd_pow 2 hk) (Nat.dvd_mul_left _ _)
      rw [if_pos (.inl (by omega))]
      omega

example : Representable (2 ^ 53) ∧ ¬ Representable (2 ^ 53 + 1) := by
  constructor
  · exact ⟨1, 53, by decide, by decide⟩
  · rw [← C70_numbers]; decide +kernel

/-! ### Addresses and big integers -/

theorem decimal_repr (n : Nat) : decimal (Nat.repr n) = some n := by
  unfold decimal
  have h : (Nat.repr n).toList = Nat.toDigits 10 n := Nat.toList_repr
  rw [h, if_pos, Nat.ofDigitChars_ten_toDigits]
  rw [List.all_eq_true]
  intro c hc
  exact Nat.isDigit_of_mem_toDigits (by omega) (by omega) hc

/-! ### C70 -/

/-- The state of affairs that harmless code keeps. -/
structure Kept (cell : Nat) (b : Bytes) (w : JsObjWorld) : Prop where
  array : w.arrays[cell]? = some b
  bigint : w.bigint = .library

theorem Kept.newArray {cell : Nat} {b : Bytes} {w : JsObjWorld} (h : Kept cell b w) (b' : Bytes) :
    Kept cell b (w.newArray b').1 := by
  refine ⟨?_, h.bigint⟩
  have hlt := (List.getElem?_eq_some_iff.1 h.array).1
  rw [← h.array]
  exact List.getElem?_append_left hlt

theorem Kept.method {cell : Nat} {b : Bytes} {w : JsObjWorld} (h : Kept cell b w) (m : JsMethodObj) :
    Kept cell b (m.call w).1 := by
  cases m with
  | address a => exact h.newArray _
  | value v => exact h
  | bigint n => exact h
  | array c => exact h

theorem Kept.code {cell : Nat} {b : Bytes} (cs : List JsCode) : ∀ {w : JsObjWorld}, Kept cell b w →
    LeavesAlone cell cs → Kept cell b (runJsCode w cs) := by
  induction cs with
  | nil => intro w h _; exact h
  | cons c cs ih =>
    intro w h hl
    have hc := hl c (by simp)
    have hl' : LeavesAlone cell cs := fun c' hc' => hl c' (by simp [hc'])
    rw [runJsCode]
    refine ih ?_ hl'
    cases c with
    | call o name =>
      simp only [JsCode.run, JsMethods.callMethod]
      cases o.lookup name with
      | none => exact h
      | some m => exact h.method m
    | newArray b' => exact h.newArray b'
    | setBigint g => exact absurd rfl (hc.2 g)
    | write cell' i x =>
      have hne : cell' ≠ cell := by rintro rfl; exact hc.1 i x rfl
      refine ⟨?_, h.bigint⟩
      simp only [JsCode.run]
      rw [List.getElem?_set_ne hne]
      exact h.array

theorem newArray_cell (w : JsObjWorld) (b : Bytes) :
    (w.newArray b).1.arrays[w.arrays.length]? = some b := by
  simp [JsObjWorld.newArray]

theorem gives_number {o : JsMethods} {w : JsObjWorld} {name : String} {n : Nat}
    (h : o.lookup name = some (.value (.ofU64 n))) (hn : Representable n) :
    Gives o w name (.number n) := by
  refine ⟨w, .scalar (.ofU64 n), by rw [JsMethods.callMethod, h]; rfl, ?_⟩
  refine ⟨_, rfl, ?_⟩
  rw [(C70_numbers n).2 hn]

theorem gives_error {o : JsMethods} {w : JsObjWorld} {name : String} {e : Option String}
    (h : o.lookup name = some (.value (.ofError e))) : Gives o w name (errorDatum e) := by
  refine ⟨w, .scalar (.ofError e), by rw [JsMethods.callMethod, h]; rfl, ?_⟩
  cases e with
  | none => exact trivial
  | some e => exact rfl

theorem gives_text {o : JsMethods} {w : JsObjWorld} {name : String} {s : String}
    (h : o.lookup name = some (.value (.str s))) : Gives o w name (.text s) :=
  ⟨w, .scalar (.str s), by rw [JsMethods.callMethod, h]; rfl, rfl⟩

theorem gives_address {o : JsMethods} {w : JsObjWorld} {name : String} {a : Address}
    (h : o.lookup name = some (.address a)) : Gives o w name (.bytes (addressBytes a)) := by
  refine ⟨(w.newArray (beBytes 20 a.toNat)).1, .array w.arrays.length,
    by rw [JsMethods.callMethod, h]; rfl, ?_⟩
  rw [← address_bytes]
  exact newArray_cell w _

theorem gives_big {o : JsMethods} {w : JsObjWorld} {name : String} {n : U256}
    (h : o.lookup name = some (.bigint n)) (hb : w.bigint = .library) :
    Gives o w name (.big n.toNat) := by
  refine ⟨w, toBigint w n, by rw [JsMethods.callMethod, h]; rfl, ?_⟩
  rw [toBigint, hb]
  dsimp only
  rw [decimal_repr]
  exact rfl

theorem gives_array {o : JsMethods} {w : JsObjWorld} {name : String} {cell : Nat} {b : Bytes}
    (h : o.lookup name = some (.array cell)) (hb : w.arrays[cell]? = some b) :
    Gives o w name (.bytes b) :=
  ⟨w, .array cell, by rw [JsMethods.callMethod, h]; rfl, hb⟩

theorem isPush_eq (op : OpCode) : decide (0x5f ≤ op.toNat ∧ op.toNat ≤ 0x7f) = isPushOp op := by
  rw [Bool.eq_iff_iff, decide_eq_true_iff, isPushOp, List.any_eq_true]
  constructor
  · rintro ⟨h1, h2⟩
    exact ⟨op.toNat - 0x5f, List.mem_range.2 (by omega), by rw [beq_iff_eq]; omega⟩
  · rintro ⟨k, hk, h⟩
    have := List.mem_range.1 hk
    rw [beq_iff_eq] at h
    omega

/-- **C70**, partial: every method of the objects handed to `step`, `fault`, `enter` and `exit` reports
the datum it is named after, whenever and however often it is called and whatever the tracer code does in
between. What is missing: numbers with more than 53 significant bits (`C70_numbers` says exactly which
numbers arrive), code that writes into the array that `getInput` or `getOutput` of the same object gave
(`C70_refuted`), and code that replaces the global `bigint`. -/
theorem C70_methods_partial (opText : OpCode → String) (w : JsObjWorld) (hw : w.bigint = .library)
    (cs : List JsCode) (hcs : LeavesAlone w.arrays.length cs) :
    (∀ l : JsStepLog, let r := stepLogObject opText w l
      (∀ e ∈ stepData l, NumbersFit e.2 → Gives r.2.methods (runJsCode r.1 cs) e.1 e.2) ∧
      (∀ e ∈ opData opText l.op, Gives r.2.op (runJsCode r.1 cs) e.1 e.2) ∧
      (∀ e ∈ contractData l.contract, Gives r.2.contract (runJsCode r.1 cs) e.1 e.2)) ∧
    (∀ f : JsFrameItem, let r := callFrameObject w f
      ∀ e ∈ enterData f, NumbersFit e.2 → Gives r.2 (runJsCode r.1 cs) e.1 e.2) ∧
    (∀ (g : Nat) (out : Bytes) (err : Option String), let r := frameResultObject w g out err
      ∀ e ∈ exitData g out err, NumbersFit e.2 → Gives r.2 (runJsCode r.1 cs) e.1 e.2) := by
  have kept : ∀ b, Kept w.arrays.length b (runJsCode (w.newArray b).1 cs) :=
    fun b => Kept.code cs ⟨newArray_cell w b, hw⟩ hcs
  refine ⟨fun l => ⟨?_, ?_, ?_⟩, fun f => ?_, fun g out err => ?_⟩
  · intro e he hf
    simp only [stepData, List.mem_cons, List.not_mem_nil, or_false] at he
    rcases he with rfl | rfl | rfl | rfl | rfl | rfl
    · exact gives_number (by rfl) (hf _ rfl)
    · exact gives_number (by rfl) (hf _ rfl)
    · exact gives_number (by rfl) (hf _ rfl)
    · exact gives_number (by rfl) (hf _ rfl)
    · exact gives_number (by rfl) (hf _ rfl)
    · exact gives_error (by rfl)
  · intro e he
    simp only [opData, List.mem_cons, List.not_mem_nil, or_false] at he
    rcases he with rfl | rfl | rfl
    · exact ⟨_, _, rfl, _, rfl, rfl⟩
    · exact gives_text (by rfl)
    · exact ⟨_, _, rfl, isPush_eq l.op⟩
  · intro e he
    have k := kept l.contract.input
    simp only [contractData, List.mem_cons, List.not_mem_nil, or_false] at he
    rcases he with rfl | rfl | rfl | rfl
    · exact gives_address (by rfl)
    · exact gives_address (by rfl)
    · exact gives_big (by rfl) k.bigint
    · exact gives_array (by rfl) k.array
  · intro r e he hf
    have k := kept f.contract.input
    simp only [enterData, List.mem_cons, List.not_mem_nil, or_false] at he
    rcases he with rfl | rfl | rfl | rfl | rfl | rfl
    · have : kindName f.kind = f.kind.toStr := by cases f.kind <;> rfl
      rw [this]
      exact gives_text (by rfl)
    · exact gives_address (by rfl)
    · exact gives_address (by rfl)
    · exact gives_array (by rfl) k.array
    · exact gives_number (by rfl) (hf _ rfl)
    · exact gives_big (by rfl) k.bigint
  · intro r e he hf
    have k := kept out
    simp only [exitData, List.mem_cons, List.not_mem_nil, or_false] at he
    rcases he with rfl | rfl | rfl
    · exact gives_number (by rfl) (hf _ rfl)
    · exact gives_array (by rfl) k.array
    · exact gives_error (by rfl)

/-- The code may do all kinds of things. -/
example : LeavesAlone 0 [.newArray [1], .write 1 0 7, .call [] "getInput"] := by
  intro c hc
  simp only [List.mem_cons, List.not_mem_nil, or_false] at hc
  rcases hc with rfl | rfl | rfl <;> exact ⟨by simp, by simp⟩

/-- C70 fails: a tracer that writes into the array `getInput` gave it finds what it wrote in what the
next `getInput` of the same object gives. -/
theorem C70_refuted : ∃ (w : JsObjWorld) (c : JsContract) (cs : List JsCode),
    w.bigint = .library ∧ (∀ b, JsCode.setBigint b ∉ cs) ∧
    ("getInput", Datum.bytes c.input) ∈ contractData c ∧
    let r := contractObject w c
    Gives r.2 (runJsCode r.1 cs) "getInput" (.bytes [9, 2]) ∧
    ¬ Gives r.2 (runJsCode r.1 cs) "getInput" (.bytes c.input) := by
  refine ⟨⟨[], .library⟩, ⟨1, 2, 3, [1, 2]⟩, [.write 0 0 9], rfl, by simp, by simp [contractData], ?_, ?_⟩
  · exact ⟨_, _, rfl, rfl⟩
  · rintro ⟨w', got, h, hr⟩
    cases h
    exact absurd (Option.some.inj hr) (by decide)

/-- C70 fails: a remaining gas of 2^53 + 1 arrives as another number. -/
theorem C70_refuted_number : ∃ (w : JsObjWorld) (f : JsFrameItem), w.bigint = .library ∧
    f.gas < 2 ^ 64 ∧ ("getGas", Datum.number f.gas) ∈ enterData f ∧
    ¬ Gives (callFrameObject w f).2 (callFrameObject w f).1 "getGas" (.number f.gas) := by
  refine ⟨⟨[], .library⟩, ⟨⟨1, 2, 3, []⟩, .Call, 2 ^ 53 + 1⟩, rfl, by decide, by simp [enterData], ?_⟩
  rintro ⟨w', got, h, hr⟩
  cases h
  obtain ⟨q, h1, h2⟩ := hr
  have h3 : f64OfU64 (2 ^ 53 + 1) = 2 ^ 53 := by decide +kernel
  simp only [JsNum.ofNat, JsNum.fin.injEq] at h1
  rw [h3, h2] at h1
  exact absurd (Rat.natCast_inj.1 h1) (by decide)

theorem value_exact (o : JsMethods) (n : U256) (h : o.lookup "getValue" = some (.bigint n))
    (w : JsObjWorld) :
    (w.bigint = .library → Gives o w "getValue" (.big n.toNat)) ∧
    (w.bigint = .notCallable → Gives o w "getValue" .undefined) ∧
    (∀ f, w.bigint = .other f → 
      o.callMethod w "getValue" = some (w, match f (toString n.toNat) with
        | some v => .scalar v
        | none => .throws)) := by
  refine ⟨fun hb => gives_big h hb, fun hb => ?_, fun f hb => ?_⟩
  · exact ⟨w, .scalar .undefined, by rw [JsMethods.callMethod, h, Option.map_some, JsMethodObj.call,
      toBigint, hb], trivial⟩
  · rw [JsMethods.callMethod, h, Option.map_some, JsMethodObj.call, toBigint, hb]
    dsimp only
    rw [show toString n.toNat = Nat.repr n.toNat from rfl]
    cases f (Nat.repr n.toNat) <;> rfl

/-- C70, what `getValue` gives whatever the global `bigint` is when it is called: the value if it is the
library of big integers, `undefined` if it cannot be called, otherwise what the tracer's own function
makes of the decimal text of the value. -/
theorem C70_value_exact (w₀ w : JsObjWorld) (c : JsContract) (f : JsFrameItem) :
    (∀ o n, (o, n) ∈ [((contractObject w₀ c).2, c.value), ((callFrameObject w₀ f).2, f.contract.value)] →
      (w.bigint = .library → Gives o w "getValue" (.big n.toNat)) ∧
      (w.bigint = .notCallable → Gives o w "getValue" .undefined) ∧
      (∀ g, w.bigint = .other g → 
        o.callMethod w "getValue" = some (w, match g (toString n.toNat) with
          | some v => .scalar v
          | none => .throws))) := by
  intro o n hm
  simp only [List.mem_cons, Prod.mk.injEq, List.not_mem_nil, or_false] at hm
  rcases hm with ⟨rfl, rfl⟩ | ⟨rfl, rfl⟩ <;> exact value_exact _ _ rfl w

/-- A tracer that replaced `bigint` by a function that gives the text back. -/
example : (contractObject ⟨[], .library⟩ ⟨1, 2, 300, []⟩).2.callMethod ⟨[], .other (fun s => some (.str s))⟩
    "getValue" = some (⟨[], .other (fun s => some (.str s))⟩, .scalar (.str "300")) := by
  rfl

/-! ### C62 -/

theorem shows_ofU64_iff (n m : Nat) : shows (some (.ofU64 n)) m ↔ f64OfU64 n = m := by
  constructor
  · rintro ⟨q, h1, h2⟩
    simp only [JsVal.ofU64, JsNum.ofNat, Option.some.injEq, JsVal.num.injEq, JsNum.fin.injEq] at h1
    rw [← h1] at h2
    exact Rat.natCast_inj.1 h2
  · rintro rfl
    exact ⟨_, rfl, rfl⟩

theorem u64OrMax_shows (x : U256) (m : Nat) : shows (some (.ofU64 (u64OrMax x))) m ↔
    (if x.toNat < 2 ^ 64 then f64OfU64 x.toNat = m else m = 2 ^ 64) := by
  rw [shows_ofU64_iff, u64OrMax]
  split
  · exact Iff.rfl
  · rw [show f64OfU64 (2 ^ 64 - 1) = 2 ^ 64 by decide +kernel]
    exact eq_comm

theorem u64OrMax_exact (x : U256) : shows (some (.ofU64 (u64OrMax x))) x.toNat ↔
    x.toNat ≤ 2 ^ 64 ∧ Representable x.toNat := by
  rw [u64OrMax_shows]
  split
  · rename_i h
    rw [C70_numbers]
    exact ⟨fun hr => ⟨by omega, hr⟩, fun hr => hr.2⟩
  · rename_i h
    constructor
    · intro e
      rw [e]
      exact ⟨by omega, 1, 64, by decide, by decide⟩
    · rintro ⟨h1, _⟩
      omega

/-- C62, exactly: each of the numbers of the context is the transaction's number exactly if a double can
hold it (and, for the gas price and the block number, it is at most 2^64; larger ones are shown as
2^64). -/
theorem C62_exact (res : ExecutionResult) (env : TxEnv) (tctx : TransactionContext) :
    let o := jsResultArgument res env tctx
    (shows (o.read "gas") env.gasLimit ↔ Representable env.gasLimit) ∧
    (shows (o.read "gasUsed") res.gasUsed ↔ Representable res.gasUsed) ∧
    (shows (o.read "gasPrice") env.gasPrice.toNat ↔
      env.gasPrice.toNat ≤ 2 ^ 64 ∧ Representable env.gasPrice.toNat) ∧
    (2 ^ 64 ≤ env.gasPrice.toNat → shows (o.read "gasPrice") (2 ^ 64)) ∧
    (shows (o.read "block") env.blockNumber.toNat ↔
      env.blockNumber.toNat ≤ 2 ^ 64 ∧ Representable env.blockNumber.toNat) ∧
    (2 ^ 64 ≤ env.blockNumber.toNat → shows (o.read "block") (2 ^ 64)) ∧
    (∀ i, tctx.txIndex = some i → (shows (o.read "txIndex") i ↔ Representable i)) ∧
    shows (o.read "intrinsicGas") 0 := by
  intro o
  obtain ⟨_, _, _, _, h5, h6, h7, h8, _, h10, _, _, _, h14, _⟩ :=
    intoJsObject_read (resultContext res env tctx)
  have h5 : o.read "gas" = _ := h5
  have h6 : o.read "gasUsed" = _ := h6
  have h7 : o.read "gasPrice" = _ := h7
  have h8 : o.read "intrinsicGas" = _ := h8
  have h10 : o.read "block" = _ := h10
  have h14 : o.read "txIndex" = _ := h14
  refine ⟨?_, ?_, ?_, ?_, ?_, ?_, ?_, ?_⟩
  · rw [h5]; exact (shows_ofU64_iff _ _).trans (C70_numbers _)
  · rw [h6]; exact (shows_ofU64_iff _ _).trans (C70_numbers _)
  · rw [h7]; exact u64OrMax_exact env.gasPrice
  · intro h
    rw [h7]; exact (u64OrMax_shows env.gasPrice _).2 (by rw [if_neg (by omega)])
  · rw [h10]; exact u64OrMax_exact env.blockNumber
  · intro h
    rw [h10]; exact (u64OrMax_shows env.blockNumber _).2 (by rw [if_neg (by omega)])
  · intro i hi
    rw [h14]
    have e : (resultContext res env tctx).transactionCtx.txIndex = some i := hi
    rw [e]
    exact (shows_ofU64_iff _ _).trans (C70_numbers _)
  · rw [h8]; exact (shows_ofU64_iff _ _).2 (by show f64OfU64 0 = 0; decide)

/-- A gas price above 2^64 wei and a block number that is a double. -/
example : ¬ shows ((jsResultArgument (.revert 30000 []) { createEnv with gasPrice := BitVec.ofNat 256 (2 ^ 70) } {}).read
      "gasPrice") (2 ^ 70) ∧
    shows ((jsResultArgument (.revert 30000 []) { createEnv with gasPrice := BitVec.ofNat 256 (2 ^ 70) } {}).read
      "gasPrice") (2 ^ 64) ∧
    shows ((jsResultArgument (.revert 30000 []) createEnv {}).read "block") 17 := by
  obtain ⟨_, _, _, h, _⟩ := C62_exact (.revert 30000 []) { createEnv with gasPrice := BitVec.ofNat 256 (2 ^ 70) } {}
  obtain ⟨_, _, _, _, h2, _⟩ := C62_exact (.revert 30000 []) createEnv {}
  obtain ⟨_, _, h1, _⟩ := C62_exact (.revert 30000 []) { createEnv with gasPrice := BitVec.ofNat 256 (2 ^ 70) } {}
  refine ⟨fun e => ?_, h (by decide), h2.2 ⟨by decide, 17, 0, by decide, by decide⟩⟩
  exact absurd (h1.1 e).1 (by decide)

/-! ### C71 -/

theorem asU64_index {x : JsNum} {n : Nat} (h : IsIndex x n) (hn : n < 2 ^ 64) : x.asU64 = n := by
  cases x with
  | nan => exact absurd h (not_isIndex_nan n)
  | inf b => exact absurd h (not_isIndex_inf b n)
  | fin q =>
    obtain ⟨h0, hf⟩ := isIndex_floor.1 h
    have : ¬ q < 0 := Rat.not_lt.2 h0
    simp only [JsNum.asU64, JsNum.asUsize, if_neg this, hf, JsNum.usizeMax]
    omega

/-- **C71**, partial: `toContract` gives the address that the account `toAddress` makes of the first
argument creates with the given nonce (a number below 2^64, its fraction cut off), and throws if one of
the arguments cannot be converted; `toContract2` gives the CREATE2 address of that account, the 32 bytes
that `toWord` makes of the salt string, and the bytes of the code, and throws exactly if one of the
arguments is not of this kind. What is missing: numbers that are no nonce do not throw
(`C71_refuted`). -/
theorem C71_contracts_partial (create : Bytes → Nat → Bytes) (create2 : Bytes → Bytes → Bytes → Bytes)
    (from_ : JsBuf) :
    (∀ (x : JsNum) (n : Nat) (a : Bytes), IsIndex x n → n < 2 ^ 64 → jsToAddress from_ = .ok (some a) →
      jsToContract create from_ (some x) = .ok (some (create a n))) ∧
    (∀ nonce, jsToContract create from_ nonce = .ok none ↔
      nonce = none ∨ jsToAddress from_ = .ok none) ∧
    (∀ (salt : Option (Option (List Char))) (code : JsBuf) (r : Bytes),
      jsToContract2 create2 from_ salt code = .ok (some r) ↔
        ∃ a s w c, jsToAddress from_ = .ok (some a) ∧ salt = some (some s) ∧
          jsToWord (.string (some s)) = .ok (some w) ∧ fromBuf code = some c ∧ r = create2 a w c) ∧
    (∀ (salt : Option (Option (List Char))) (code : JsBuf),
      jsToContract2 create2 from_ salt code = .ok none ↔
        jsToAddress from_ = .ok none ∨ (∀ s, salt = some (some s) →
          jsToWord (.string (some s)) = .ok none) ∨ fromBuf code = none) := by
  have addrOk : ∀ b, ∃ a, bytesToAddress b = .ok a := fun b => ⟨_, bytesToFixed_eq 20 b⟩
  have hashOk : ∀ b, ∃ a, bytesToHash b = .ok a := fun b => ⟨_, bytesToFixed_eq 32 b⟩
  refine ⟨?_, ?_, ?_, ?_⟩
  · intro x n a hx hn ha
    rw [jsToContract]
    rw [jsToAddress] at ha
    cases hb : fromBuf from_ with
    | none => rw [hb] at ha; cases ha
    | some b =>
      rw [hb] at ha
      obtain ⟨a', ha'⟩ := addrOk b
      simp only [ha', Except.ok.injEq, Option.some.injEq] at ha ⊢
      rw [ha, asU64_index hx hn]
  · intro nonce
    rw [jsToContract.eq_def, jsToAddress]
    cases nonce with
    | none => simp
    | some x =>
      cases hb : fromBuf from_ with
      | none => simp
      | some b =>
        obtain ⟨a', ha'⟩ := addrOk b
        simp [ha']
  · intro salt code r
    rw [jsToContract2.eq_def, jsToAddress]
    rcases salt with _ | _ | s
    · simp
    · simp
    · simp only [Option.some.injEq]
      cases hs : hexDecode s with
      | none =>
        simp only [Except.ok.injEq, reduceCtorEq, false_iff, not_exists]
        rintro a s' w c ⟨_, rfl, h, _⟩
        rw [jsToWord, fromBuf, hs] at h
        cases h
      | some sb =>
        obtain ⟨w, hw⟩ := hashOk sb
        have hword : jsToWord (.string (some s)) = .ok (some w) := by
          rw [jsToWord, fromBuf, hs]; dsimp only; rw [hw]
        simp only [hw]
        cases hb : fromBuf from_ with
        | none => simp
        | some b =>
          obtain ⟨a, ha⟩ := addrOk b
          simp only [ha]
          cases hc : fromBuf code with
          | none => simp
          | some c =>
            simp only [Except.ok.injEq, Option.some.injEq]
            constructor
            · rintro rfl
              exact ⟨a, s, w, c, rfl, rfl, hword, rfl, rfl⟩
            · rintro ⟨a', s', w', c', rfl, rfl, h, rfl, rfl⟩
              rw [hword] at h
              cases h
              rfl
  · intro salt code
    rw [jsToContract2.eq_def, jsToAddress]
    rcases salt with _ | _ | s
    · simp
    · simp
    · simp only [Option.some.injEq]
      cases hs : hexDecode s with
      | none =>
        simp only [true_iff]
        refine .inr (.inl ?_)
        rintro s' rfl
        rw [jsToWord, fromBuf, hs]
      | some sb =>
        obtain ⟨w, hw⟩ := hashOk sb
        have hword : jsToWord (.string (some s)) = .ok (some w) := by
          rw [jsToWord, fromBuf, hs]; dsimp only; rw [hw]
        simp only [hw]
        cases hb : fromBuf from_ with
        | none => simp
        | some b =>
          obtain ⟨a, ha⟩ := addrOk b
          simp only [ha]
          cases hc : fromBuf code with
          | none => simp
          | some c =>
            simp only [Except.ok.injEq, reduceCtorEq, false_or, or_false, false_iff]
            intro h
            have := h s rfl
            rw [hword] at this
            cases this

/-- **C71, exactly:** the nonce `toContract` uses for any number: its fraction is cut off; NaN and
negative numbers count as 0, numbers from 2^64 on as 2^64 - 1. -/
theorem C71_exact (create : Bytes → Nat → Bytes) (from_ : JsBuf) (x : JsNum) (a : Bytes)
    (ha : jsToAddress from_ = .ok (some a)) :
    ∃ n, jsToContract create from_ (some x) = .ok (some (create a n)) ∧ n < 2 ^ 64 ∧
      (∀ m, IsIndex x m → n = min m (2 ^ 64 - 1)) ∧
      ((∀ m, ¬ IsIndex x m) → x ≠ .inf false → n = 0) ∧
      (x = .inf false → n = 2 ^ 64 - 1) := by
  refine ⟨x.asU64, ?_, ?_, ?_, ?_, ?_⟩
  · rw [jsToContract]
    rw [jsToAddress] at ha
    cases hb : fromBuf from_ with
    | none => rw [hb] at ha; cases ha
    | some b =>
      rw [hb] at ha
      obtain ⟨a', ha'⟩ : ∃ a, bytesToAddress b = .ok a := ⟨_, bytesToFixed_eq 20 b⟩
      simp only [ha', Except.ok.injEq, Option.some.injEq] at ha ⊢
      rw [ha]
  · rcases x with _ | b | q
    · decide
    · cases b <;> decide
    · simp only [JsNum.asU64, JsNum.asUsize, JsNum.usizeMax]
      split <;> omega
  · intro m hm
    rcases x with _ | b | q
    · exact absurd hm (not_isIndex_nan m)
    · exact absurd hm (not_isIndex_inf b m)
    · obtain ⟨h0, hf⟩ := isIndex_floor.1 hm
      simp only [JsNum.asU64, JsNum.asUsize, if_neg (Rat.not_lt.2 h0), hf, JsNum.usizeMax]
  · intro hn hi
    rcases x with _ | b | q
    · rfl
    · cases b with
      | true => rfl
      | false => exact absurd rfl hi
    · have : q < 0 := by
        apply Classical.byContradiction
        intro h
        exact hn _ (isIndex_floor.2 ⟨Rat.not_lt.1 h, rfl⟩)
      simp [JsNum.asU64, JsNum.asUsize, this]
  · rintro rfl
    rfl

example : ∃ a, jsToAddress (.ofBytes [1]) = .ok (some a) := ⟨_, rfl⟩

/-- C71 fails: the nonce -1 (or NaN) is taken as the nonce 0. -/
theorem C71_refuted (create : Bytes → Nat → Bytes) :
    jsToContract create (.ofBytes [1]) (some (.fin (-1))) =
        jsToContract create (.ofBytes [1]) (some (.ofNat 0)) ∧
      jsToContract create (.ofBytes [1]) (some .nan) =
        jsToContract create (.ofBytes [1]) (some (.ofNat 0)) ∧
      jsToContract create (.ofBytes [1]) (some (.ofNat 0)) ≠ .ok none := by
  refine ⟨rfl, rfl, ?_⟩
  intro h
  rcases ((C71_contracts_partial create (fun _ _ _ => []) (.ofBytes [1])).2.1 _).1 h with h | h
  · cases h
  · rw [jsToAddress, fromBuf_ofBytes] at h
    cases h

example : jsToContract2 (fun a s c => a ++ s ++ c) (.ofBytes [1]) (some (some "0x0a".toList))
    (.string (some "6001".toList)) =
    .ok (some (List.replicate 19 0 ++ [1] ++ (List.replicate 31 0 ++ [10]) ++ [0x60, 1])) := by rfl

end Verif.Props
