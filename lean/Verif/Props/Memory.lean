import Verif.Model.Geth
/-! # C44: memory chunks are lossless -/
namespace Verif.Props

/-- The value of a lower-case hexadecimal digit. -/
def hexVal (c : Char) : Option Nat :=
  if '0' ≤ c ∧ c ≤ '9' then some (c.toNat - '0'.toNat)
  else if 'a' ≤ c ∧ c ≤ 'f' then some (c.toNat - 'a'.toNat + 10)
  else none

/-- Decode a string of hexadecimal digits, two per byte. -/
def hexDecode : List Char → Option Bytes
  | [] => some []
  | [_] => none
  | a :: b :: rest =>
    match hexVal a, hexVal b, hexDecode rest with
    | some x, some y, some bs => some (UInt8.ofNat (16 * x + y) :: bs)
    | _, _, _ => none

theorem hexVal_hexDigit : ∀ n, n < 16 → hexVal (hexDigit n) = some n := by decide

theorem hexDecode_hexEncode (bs : Bytes) : hexDecode (hexEncode bs) = some bs := by
  induction bs with
  | nil => rfl
  | cons b bs ih =>
    have hb := b.toNat_lt
    have h1 := hexVal_hexDigit (b.toNat / 16) (by omega)
    have h2 := hexVal_hexDigit (b.toNat % 16) (by omega)
    have hcons : hexEncode (b :: bs) =
        hexDigit (b.toNat / 16) :: hexDigit (b.toNat % 16) :: hexEncode bs := by
      simp [hexEncode]
    rw [hcons, hexDecode, h1, h2, ih]
    simp [show 16 * (b.toNat / 16) + b.toNat % 16 = b.toNat by omega]

theorem hexEncode_append (a b : Bytes) : hexEncode (a ++ b) = hexEncode a ++ hexEncode b := by
  simp [hexEncode]

theorem hexEncode_length (a : Bytes) : (hexEncode a).length = 2 * a.length := by
  induction a with
  | nil => rfl
  | cons x a ih =>
    have : hexEncode (x :: a) = hexEncode [x] ++ hexEncode a := hexEncode_append [x] a
    rw [this, List.length_append, ih]; simp [hexEncode]; omega

theorem hexEncode_flatten (l : List Bytes) : (l.map hexEncode).flatten = hexEncode l.flatten := by
  induction l with
  | nil => rfl
  | cons a l ih => simp [hexEncode_append, ih]

theorem chunks_flatten (data : Bytes) (m : Nat) :
    ((List.range m).map fun k => (data.drop (32 * k)).take 32).flatten = data.take (32 * m) := by
  induction m with
  | zero => simp
  | succ m ih =>
    rw [List.range_succ, List.map_append, List.flatten_append, ih]
    simp only [List.map_cons, List.map_nil, List.flatten_cons, List.flatten_nil, List.append_nil]
    rw [show 32 * (m + 1) = 32 * m + 32 by omega, List.take_add]

/-- **C44.** For every memory: `⌈n/32⌉` chunks of 64 hexadecimal digits, which together decode to the
memory followed by zeros up to a multiple of 32. -/
theorem C44_memory_chunks (data : Bytes) :
    (convertMemory data).length = (data.length + 31) / 32 ∧
    (∀ c ∈ convertMemory data, c.length = 64) ∧
    hexDecode (convertMemory data).flatten =
      some (data ++ List.replicate (32 * ((data.length + 31) / 32) - data.length) 0) := by
  have hr : (data.drop (32 * (data.length / 32))).length = data.length % 32 := by
    simp; omega
  have hchunk : ∀ k, k < data.length / 32 → ((data.drop (32 * k)).take 32).length = 32 := by
    intro k hk; simp; omega
  have hmem : ∀ c ∈ ((List.range (data.length / 32)).map fun k =>
      (data.drop (32 * k)).take 32).map hexEncode, c.length = 64 := by
    intro c hc
    simp only [List.map_map, List.mem_map, List.mem_range, Function.comp] at hc
    obtain ⟨k, hk, rfl⟩ := hc
    rw [hexEncode_length, hchunk k hk]
  unfold convertMemory
  generalize hrem : data.drop (32 * (data.length / 32)) = rem at *
  have hsplit : data.take (32 * (data.length / 32)) ++ rem = data := by
    rw [← hrem]; exact List.take_append_drop _ _
  by_cases h0 : rem = []
  · have hz : data.length % 32 = 0 := by rw [← hr, h0]; rfl
    simp only [h0, List.isEmpty_nil, Bool.not_true, Bool.false_eq_true, if_false]
    refine ⟨by simp; omega, hmem, ?_⟩
    rw [hexEncode_flatten, hexDecode_hexEncode, chunks_flatten]
    rw [h0, List.append_nil] at hsplit
    rw [hsplit, show 32 * ((data.length + 31) / 32) - data.length = 0 by omega]
    simp
  · have hz : 0 < data.length % 32 := by
      rw [← hr]; exact List.length_pos_iff.2 h0
    have hne : (!rem.isEmpty) = true := by simp [h0]
    simp only [hne, if_true]
    refine ⟨by simp; omega, ?_, ?_⟩
    · intro c hc
      rw [List.mem_append] at hc
      rcases hc with hc | hc
      · exact hmem c hc
      · simp only [List.mem_singleton] at hc
        rw [hc, hexEncode_length]
        simp; omega
    · rw [List.flatten_append, hexEncode_flatten, chunks_flatten]
      simp only [List.flatten_cons, List.flatten_nil, List.append_nil]
      rw [← hexEncode_append, hexDecode_hexEncode, ← List.append_assoc, hsplit, hr,
        show 32 * ((data.length + 31) / 32) - data.length = 32 - data.length % 32 by omega]

/-- Hence memories of equal length with equal chunks are equal. -/
theorem C44_injective (a b : Bytes) (hlen : a.length = b.length)
    (h : convertMemory a = convertMemory b) : a = b := by
  have ha := (C44_memory_chunks a).2.2
  have hb := (C44_memory_chunks b).2.2
  rw [h, hb] at ha
  simp only [Option.some.injEq] at ha
  exact (List.append_inj_left ha hlen.symm).symm

example : convertMemory (List.replicate 31 0xab ++ [1, 2]) =
    [(List.replicate 31 ['a', 'b']).flatten ++ ['0', '1'], ['0', '2'] ++ List.replicate 62 '0'] := by
  decide

/-! # C45: opcode serialization -/

/-- **C45** (partial: only for opcodes revm knows; see the refutation). Deserializing a serialized
opcode that revm knows gives it back and never panics. -/
theorem C45_opcode_serde_partial (known : UInt8 → Bool) (op : OpCode) (h : known op = true) :
    deserializeOp known (serializeOp op) = .ok op := by
  simp [deserializeOp, serializeOp, h]

/-- **C45, refuted** for every opcode byte revm does not know: it comes back as INVALID (`0xfe`). Steps
with such opcodes are recorded (`OpCode::new_unchecked`). -/
theorem C45_refuted_unknown (known : UInt8 → Bool) (hinv : known 0xfe = true) (op : OpCode)
    (h : known op = false) :
    deserializeOp known (serializeOp op) = .ok 0xfe ∧ op ≠ 0xfe := by
  have hinv' : known Op.INVALID = true := hinv
  refine ⟨by simp [deserializeOp, serializeOp, h, hinv']; rfl, ?_⟩
  intro he; rw [he, hinv] at h; exact absurd h (by simp)

/-- **C45, exactly:** the round trip keeps the opcodes revm knows and no others, and never panics. -/
theorem C45_exact (known : UInt8 → Bool) (hinv : known 0xfe = true) (op : OpCode) :
    (deserializeOp known (serializeOp op) = .ok op ↔ known op = true) ∧
    ∃ op', deserializeOp known (serializeOp op) = .ok op' := by
  cases h : known op with
  | true => simp [C45_opcode_serde_partial known op h]
  | false =>
    obtain ⟨h1, h2⟩ := C45_refuted_unknown known hinv op h
    refine ⟨?_, _, h1⟩
    rw [h1]
    simp [Ne.symm h2]

/-- `0x0c` is not an opcode of any fork. -/
example : (fun b : UInt8 => decide (b ≠ 0x0c)) Op.INVALID = true ∧
    (fun b : UInt8 => decide (b ≠ 0x0c)) 0x0c = false ∧
    deserializeOp (fun b => decide (b ≠ 0x0c)) (serializeOp Op.CALL) = .ok Op.CALL := by
  refine ⟨by decide, by decide, ?_⟩
  exact C45_opcode_serde_partial _ _ (by decide)

end Verif.Props
