import Verif.Props.JsObjects
/-!
# C58, C62, C70: which bytes arrays of numbers denote, and how large integers are rounded
-/
namespace Verif.Props
open Spec

/-- The distance of two numbers. -/
def dist (a b : Nat) : Nat := (a - b) + (b - a)

/-- **C70, rounding.** A `u64` arrives in JavaScript as a number a double can hold, no such number is
nearer to it, and if another one is as near, the significand of the one that arrives is even. -/
theorem C70_nearest (n : Nat) :
    Representable (f64OfU64 n) ∧ (∀ m, Representable m → dist n (f64OfU64 n) ≤ dist n m) ∧
    ∀ m, Representable m → m ≠ f64OfU64 n → dist n m = dist n (f64OfU64 n) →
      ∃ q e, q % 2 = 0 ∧ 2 ^ 52 ≤ q ∧ q < 2 ^ 53 ∧ f64OfU64 n = q * 2 ^ e := by
  by_cases h : n < 2 ^ 53
  · have hf : f64OfU64 n = n := by rw [f64OfU64, if_pos h]
    rw [hf]
    refine ⟨⟨n, 0, h, by simp⟩, ?_, ?_⟩
    · intro m _
      simp [dist]
    · intro m _ hm hd
      simp only [dist] at hd
      exact absurd (show m = n by omega) hm
  · have hn : n ≠ 0 := by intro e; rw [e] at h; exact h (by decide)
    have hlog1 : 2 ^ n.log2 ≤ n := Nat.log2_self_le hn
    have hlog2 : n < 2 ^ (n.log2 + 1) := Nat.lt_log2_self
    have h52 : 53 ≤ n.log2 := by
      have : 2 ^ 53 ≤ n := by omega
      exact (Nat.le_log2 hn).2 this
    obtain ⟨e, he⟩ : ∃ e, n.log2 - 52 = e := ⟨_, rfl⟩
    have hpos : 0 < 2 ^ e := Nat.two_pow_pos e
    have hdm : 2 ^ e * (n / 2 ^ e) + n % 2 ^ e = n := Nat.div_add_mod n (2 ^ e)
    obtain ⟨q, hqd⟩ : ∃ q, n / 2 ^ e = q := ⟨_, rfl⟩
    obtain ⟨r, hrd⟩ : ∃ r, n % 2 ^ e = r := ⟨_, rfl⟩
    obtain ⟨E, hE⟩ : ∃ E, 2 ^ e = E := ⟨_, rfl⟩
    have hq : q < 2 ^ 53 := by
      rw [← hqd, Nat.div_lt_iff_lt_mul hpos, ← Nat.pow_add]
      rwa [show 53 + e = n.log2 + 1 by omega]
    have hq' : 2 ^ 52 ≤ q := by
      rw [← hqd, Nat.le_div_iff_mul_le hpos, ← Nat.pow_add]
      rwa [show 52 + e = n.log2 by omega]
    have hr : r < E := by rw [← hrd, ← hE]; exact Nat.mod_lt _ hpos
    have hf : f64OfU64 n = if 2 * r < E ∨ (2 * r = E ∧ q % 2 = 0) then q * E else (q + 1) * E := by
      rw [f64OfU64, if_neg h]
      simp only [he]
      rw [hqd, hrd, hE]
    have hdm' : E * q + r = n := by rw [← hE, ← hqd, ← hrd]; exact hdm
    have c1 : q * E = E * q := Nat.mul_comm _ _
    have c2 : (q + 1) * E = E * q + E := by rw [Nat.add_mul, Nat.one_mul, Nat.mul_comm]
    -- a number a double can hold is not strictly between the two neighbours
    have gap : ∀ m, Representable m → m ≤ E * q ∨ E * q + E ≤ m := by
      rintro m ⟨m0, k, hm0, rfl⟩
      by_cases hk : e ≤ k
      · obtain ⟨j, rfl⟩ : ∃ j, k = e + j := ⟨k - e, by omega⟩
        have : m0 * 2 ^ (e + j) = E * (m0 * 2 ^ j) := by
          rw [Nat.pow_add, ← hE, ← Nat.mul_assoc, Nat.mul_comm m0, Nat.mul_assoc]
        rw [this]
        by_cases hle : m0 * 2 ^ j ≤ q
        · exact .inl (Nat.mul_le_mul_left E hle)
        · right
          have := Nat.mul_le_mul_left E (show q + 1 ≤ m0 * 2 ^ j by omega)
          rw [Nat.mul_add, Nat.mul_one] at this
          exact this
      · left
        have h1 : m0 * 2 ^ k ≤ 2 ^ 53 * 2 ^ k := Nat.mul_le_mul_right _ (Nat.le_of_lt hm0)
        have h2 : 2 ^ 53 * 2 ^ k ≤ 2 ^ 52 * E := by
          rw [← hE, ← Nat.pow_add, ← Nat.pow_add]
          exact Nat.pow_le_pow_right (by decide) (by omega)
        have h3 : 2 ^ 52 * E ≤ E * q := by
          rw [Nat.mul_comm]; exact Nat.mul_le_mul_left E hq'
        omega
    have hrep1 : Representable (q * E) := ⟨q, e, hq, by rw [hE]⟩
    have hup : (q + 1 < 2 ^ 53 ∧ (q + 1) * E = (q + 1) * 2 ^ e) ∨
        (q + 1 = 2 ^ 53 ∧ (q + 1) * E = 2 ^ 52 * 2 ^ (e + 1)) := by
      by_cases hlt : q + 1 < 2 ^ 53
      · exact .inl ⟨hlt, by rw [hE]⟩
      · refine .inr ⟨by omega, ?_⟩
        rw [show q + 1 = 2 ^ 53 by omega, ← hE, ← Nat.pow_add, ← Nat.pow_add]
        congr 1; omega
    have hrep2 : Representable ((q + 1) * E) := by
      rcases hup with ⟨h1, h2⟩ | ⟨_, h2⟩
      · exact ⟨q + 1, e, h1, h2⟩
      · exact ⟨2 ^ 52, e + 1, by decide, h2⟩
    rw [hf]
    by_cases hc : 2 * r < E ∨ (2 * r = E ∧ q % 2 = 0)
    · rw [if_pos hc]
      refine ⟨hrep1, ?_, ?_⟩
      · intro m hm
        have := gap m hm
        simp only [dist]
        omega
      · intro m hm hne hd
        have := gap m hm
        simp only [dist] at hd
        exact ⟨q, e, by omega, hq', hq, by rw [hE]⟩
    · rw [if_neg hc]
      refine ⟨hrep2, ?_, ?_⟩
      · intro m hm
        have := gap m hm
        simp only [dist]
        omega
      · intro m hm hne hd
        have := gap m hm
        simp only [dist] at hd
        rcases hup with ⟨h1, h2⟩ | ⟨_, h2⟩
        · exact ⟨q + 1, e, by omega, by omega, h1, h2⟩
        · exact ⟨2 ^ 52, e + 1, by decide, Nat.le_refl _, by decide, h2⟩

/-- Ties go to the even significand, downwards and upwards. -/
example : f64OfU64 (2 ^ 53 + 1) = 2 ^ 53 ∧ f64OfU64 (2 ^ 53 + 3) = 2 ^ 53 + 4 ∧
    f64OfU64 (2 ^ 64 - 1) = 2 ^ 64 := by decide +kernel

/-! ### Arrays -/

/-- The byte a number is taken for: its integer part, at least 0 and at most 255; 0 for NaN. -/
def TakenFor (x : JsNum) (y : UInt8) : Prop :=
  (x = .nan → y = 0) ∧ (x = .inf true → y = 0) ∧ (x = .inf false → y = 255) ∧
  ∀ q, x = .fin q → (q < 0 → y = 0) ∧ (255 ≤ q → y = 255) ∧
    (0 ≤ q → q < 255 → (y.toNat : Rat) ≤ q ∧ q < ((y.toNat + 1 : Nat) : Rat))

theorem asU8_iff (x : JsNum) (y : UInt8) : x.asU8 = y ↔ TakenFor x y := by
  constructor
  · rintro rfl
    refine ⟨?_, ?_, ?_, ?_⟩
    · rintro rfl; rfl
    · rintro rfl; rfl
    · rintro rfl; rfl
    · rintro q rfl
      refine ⟨?_, ?_, ?_⟩
      · intro h; simp only [JsNum.asU8, if_pos h]
      · intro h
        have h0 : ¬ q < 0 := Rat.not_lt.2 (Rat.le_trans (by decide) h)
        have hfl : (255 : Int) ≤ q.floor := Rat.le_floor_iff.mpr (by simpa using h)
        simp only [JsNum.asU8, if_neg h0]
        rw [show min q.floor.toNat 255 = 255 by omega]
        rfl
      · intro h0 h
        have hfl : q.floor < 255 := Rat.floor_lt_iff.mpr (by simpa using h)
        have := rat_floor_nat h0
        simp only [JsNum.asU8, if_neg (Rat.not_lt.2 h0)]
        rw [show min q.floor.toNat 255 = q.floor.toNat by omega]
        rw [show (UInt8.ofNat q.floor.toNat).toNat = q.floor.toNat by
          rw [UInt8.toNat_ofNat']; omega]
        exact this
  · rintro ⟨h1, h2, h3, h4⟩
    cases x with
    | nan => rw [h1 rfl]; rfl
    | inf b =>
      cases b
      · rw [h3 rfl]; rfl
      · rw [h2 rfl]; rfl
    | fin q =>
      obtain ⟨k1, k2, k3⟩ := h4 q rfl
      by_cases h0 : q < 0
      · rw [k1 h0]; simp only [JsNum.asU8, if_pos h0]
      · simp only [JsNum.asU8, if_neg h0]
        by_cases h5 : q < 255
        · obtain ⟨l1, l2⟩ := k3 (Rat.not_lt.1 h0) h5
          have := (isIndex_floor (q := q) (n := y.toNat)).1 ⟨q, rfl, l1, l2⟩
          rw [this.2]
          have hy : y.toNat < 256 := y.toNat_lt
          rw [show min y.toNat 255 = y.toNat by omega]
          exact UInt8.ofNat_toNat
        · have h6 := Rat.not_lt.1 h5
          have hfl : (255 : Int) ≤ q.floor := Rat.le_floor_iff.mpr (by simpa using h6)
          rw [k2 h6, show min q.floor.toNat 255 = 255 by omega]
          rfl

/-- **C58, other values.** An array is taken for the bytes of its elements, each a number or something
that converts to one, and refused if an element does not convert; an `ArrayBuffer` is taken for its
bytes and refused if it is detached; a string that is not valid unicode and every other value is
refused. -/
theorem C58_buffers (b : Bytes) :
    (∀ elems, fromBuf (.array elems) = some b ↔
      b.length = elems.length ∧ ∀ (i : Nat) (x : Option JsNum), elems[i]? = some x →
        ∃ n y, x = some n ∧ b[i]? = some y ∧ TakenFor n y) ∧
    (∀ data, fromBuf (.arrayBuffer data) = some b ↔ data = some b) ∧
    fromBuf (.string none) ≠ some b ∧ fromBuf .other ≠ some b := by
  refine ⟨?_, fun _ => Iff.rfl, by simp [fromBuf], by simp [fromBuf]⟩
  intro elems
  simp only [fromBuf]
  induction elems generalizing b with
  | nil =>
    simp only [arrayBytes, Option.some.injEq, List.length_nil]
    constructor
    · rintro rfl; exact ⟨rfl, fun i x h => by simp at h⟩
    · rintro ⟨h, _⟩; exact (List.eq_nil_of_length_eq_zero h).symm
  | cons e rest ih =>
    cases e with
    | none =>
      simp only [arrayBytes]
      constructor
      · intro h; exact absurd h (by simp)
      · rintro ⟨_, h⟩
        obtain ⟨n, _, hn, _⟩ := h 0 none rfl
        exact absurd hn (by simp)
    | some x =>
      constructor
      · intro h
        simp only [arrayBytes] at h
        cases hr : arrayBytes rest with
        | none => rw [hr] at h; exact absurd h (by simp)
        | some bs =>
          rw [hr] at h
          simp only [Option.some.injEq] at h
          subst h
          obtain ⟨h1, h2⟩ := (ih bs).1 hr
          refine ⟨by simp [h1], ?_⟩
          intro i z hz
          cases i with
          | zero =>
            simp only [List.getElem?_cons_zero, Option.some.injEq] at hz
            exact ⟨x, x.asU8, hz.symm, rfl, (asU8_iff _ _).1 rfl⟩
          | succ i => exact h2 i z (by simpa using hz)
      · rintro ⟨h1, h2⟩
        cases b with
        | nil => simp at h1
        | cons y bs =>
          have hr := (ih bs).2 ⟨by simpa using h1, fun i z hz => h2 (i + 1) z (by simpa using hz)⟩
          obtain ⟨n, y', hn, hy, ht⟩ := h2 0 (some x) rfl
          simp only [Option.some.injEq] at hn
          subst hn
          simp only [List.getElem?_cons_zero, Option.some.injEq] at hy
          subst hy
          simp only [arrayBytes, hr, (asU8_iff _ _).2 ht]

/-- Numbers out of range and NaN. -/
example : fromBuf (.array [some (.fin 300), some (.fin (-1)), some .nan, some (.fin (7 / 2))]) =
    some [255, 0, 0, 3] := by decide +kernel

/-! ### The transaction data -/

/-- **C62, transaction data.** What the builder methods of the transaction context set is what the
`result` function sees, whatever was set before; what is not set is `undefined`. -/
theorem C62_transaction_data (res : ExecutionResult) (env : TxEnv) (t : TransactionContext) (h : Bytes)
    (i : Nat) :
    (jsResultArgument res env (t.withBlockHash h)).read "blockHash" = some (.bytes h) ∧
    (jsResultArgument res env (t.withTxHash h)).read "txHash" = some (.bytes h) ∧
    (jsResultArgument res env (t.withTxIndex i)).read "txIndex" = some (.ofU64 i) ∧
    (∀ name, name ≠ "blockHash" → (jsResultArgument res env (t.withBlockHash h)).read name =
      (jsResultArgument res env t).read name) ∧
    (∀ name, name ≠ "txHash" → (jsResultArgument res env (t.withTxHash h)).read name =
      (jsResultArgument res env t).read name) ∧
    (∀ name, name ≠ "txIndex" → (jsResultArgument res env (t.withTxIndex i)).read name =
      (jsResultArgument res env t).read name) ∧
    ∀ name ∈ ["blockHash", "txHash", "txIndex"],
      (jsResultArgument res env {}).read name = none := by
  have hput : ∀ (o : JsFields) (n m : String) (v : JsVal), (o.put n v).read m =
      if m = n then some v else o.read m := by
    intro o n m v
    simp only [JsFields.put, JsFields.read, List.lookup]
    by_cases hm : m = n
    · subst hm; simp
    · have : (m == n) = false := by simpa using hm
      rw [this, if_neg hm]
  obtain ⟨bh, ti, th⟩ := t
  refine ⟨?_, ?_, ?_, ?_, ?_, ?_, ?_⟩
  · exact (intoJsObject_read _).2.2.2.2.2.2.2.2.2.2.2.2.1
  · exact (intoJsObject_read _).2.2.2.2.2.2.2.2.2.2.2.2.2.2
  · exact (intoJsObject_read _).2.2.2.2.2.2.2.2.2.2.2.2.2.1
  · intro name hne
    simp only [jsResultArgument, JsEvmContext.intoJsObject, resultContext,
      TransactionContext.withBlockHash]
    cases bh <;> cases ti <;> cases th <;> simp only [hput, hne, if_false]
  · intro name hne
    simp only [jsResultArgument, JsEvmContext.intoJsObject, resultContext,
      TransactionContext.withTxHash]
    cases bh <;> cases ti <;> cases th <;> simp only [hput, hne, if_false]
  · intro name hne
    simp only [jsResultArgument, JsEvmContext.intoJsObject, resultContext,
      TransactionContext.withTxIndex]
    cases bh <;> cases ti <;> cases th <;> simp only [hput, hne, if_false]
  · intro name hm
    simp only [List.mem_cons, List.not_mem_nil, or_false] at hm
    rcases hm with rfl | rfl | rfl
    · exact (intoJsObject_read _).2.2.2.2.2.2.2.2.2.2.2.2.1
    · exact (intoJsObject_read _).2.2.2.2.2.2.2.2.2.2.2.2.2.2
    · exact (intoJsObject_read _).2.2.2.2.2.2.2.2.2.2.2.2.2.1

end Verif.Props
