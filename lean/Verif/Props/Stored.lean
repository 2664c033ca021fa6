import Verif.Lemmas.Stored
import Verif.Lemmas.StructLogs
import Verif.Props.Steps
/-! # C106: a recording can be stored as JSON and read again -/
namespace Verif.Props
open Verif.Spec Verif.Rec

theorem replaceOps_eq {known : UInt8 → Bool} (hi : known 0xfe = true) (n : Node) :
    replaceOps known n = n ↔ ∀ s ∈ n.trace.steps, known s.op = true := by
  have hop : ∀ op, replaceOp known op = op ↔ known op = true := by
    intro op
    unfold replaceOp
    cases hk : known op with
    | true => simp
    | false =>
      refine ⟨fun h => ?_, fun h => by cases h⟩
      simp only [Bool.false_eq_true, if_false] at h
      rw [← h, hi] at hk
      cases hk
  constructor
  · intro h s hs
    have h1 : (replaceOps known n).trace.steps = n.trace.steps := by rw [h]
    simp only [replaceOps] at h1
    obtain ⟨k, hk, hks⟩ := List.mem_iff_getElem.mp hs
    have h2 : (n.trace.steps.map fun s => { s with op := replaceOp known s.op })[k]? = n.trace.steps[k]? := by
      rw [h1]
    rw [List.getElem?_map, List.getElem?_eq_getElem hk, hks] at h2
    simp only [Option.map_some, Option.some.injEq] at h2
    exact (hop s.op).mp (congrArg CallTraceStep.op h2)
  · intro h
    have h1 : (n.trace.steps.map fun s => { s with op := replaceOp known s.op }) = n.trace.steps := by
      conv => rhs; rw [← List.map_id n.trace.steps]
      apply List.map_congr_left
      intro s hs
      rw [(hop s.op).mpr (h s hs)]
      rfl
    simp only [replaceOps, h1]

/-- **C106, exactly.** `known` are the opcodes revm knows, `INVALID` among them. For every recording, whose
numbers have 64 bits as their types say: it can always be written as JSON text and read again, and what is read is the
recording with the unknown opcodes of its steps replaced by `INVALID` and nothing else changed. So it is the
recording itself if and only if every recorded opcode is known. -/
theorem C106_exact (known : UInt8 → Bool) (hi : known 0xfe = true) (ns : List Node) (h : Fits ns) :
    Stored.read known (Stored.write ns) = .ok (ns.map (replaceOps known)) ∧
    (Stored.read known (Stored.write ns) = .ok ns ↔ OpsKnown known ns) := by
  have hr := Stored.read_write (known := known) hi h
  refine ⟨hr, ?_⟩
  rw [hr, Except.ok.injEq]
  constructor
  · intro he n hn
    obtain ⟨k, hk, hkn⟩ := List.mem_iff_getElem.mp hn
    have h2 : (ns.map (replaceOps known))[k]? = ns[k]? := by rw [he]
    rw [List.getElem?_map, List.getElem?_eq_getElem hk, hkn] at h2
    simp only [Option.map_some, Option.some.injEq] at h2
    exact (replaceOps_eq hi n).mp h2
  · intro hk
    conv => rhs; rw [← List.map_id ns]
    apply List.map_congr_left
    intro n hn
    exact (replaceOps_eq hi n).mpr (hk n hn)

/-- **C106** (partial: only if every recorded opcode is known; see the refutation). A recording that is
written as JSON text and read again is the same. -/
theorem C106_roundtrip_partial (known : UInt8 → Bool) (hi : known 0xfe = true) (ns : List Node) (h : Fits ns)
    (hk : OpsKnown known ns) : Stored.read known (Stored.write ns) = .ok ns :=
  (C106_exact known hi ns h).2.mpr hk

/-- The recording of a transaction can be written and read again without a change exactly if every
instruction that was recorded has a known opcode. -/
theorem C106_executions (known : UInt8 → Bool) (hi : known 0xfe = true) (cfg : Config) (t : Tx) (hwf : t.WF)
    (hsafe : Safe cfg t.body) :
    ∃ s, TI.run cfg TI.new t.events = .ok s ∧ (Fits s.arena →
      (Stored.read known (Stored.write s.arena) = .ok s.arena ↔
        ∀ f ∈ frames t, ∀ a ∈ instrs cfg f.body, known a.before.op = true)) := by
  obtain ⟨s, hr, hlen, hst⟩ := steps_of_run cfg t hwf hsafe
  refine ⟨s, hr, fun hfit => ?_⟩
  rw [(C106_exact known hi s.arena hfit).2]
  have hops : ∀ (d : Nat) (as : List Instr) (prev : Option CallTraceStep),
      (∀ x ∈ stepsFor cfg d as prev, known x.op = true) ↔ ∀ a ∈ as, known a.before.op = true := by
    intro d as
    induction as with
    | nil => intro prev; simp [stepsFor]
    | cons a as ih =>
      intro prev
      rw [stepsFor, List.forall_mem_cons, List.forall_mem_cons, ih, (stepFor_op cfg d a prev).1]
  constructor
  · intro h f hf
    obtain ⟨k, hk, hkf⟩ := List.mem_iff_getElem.mp hf
    have hka : k < s.arena.length := by omega
    have := hst k f s.arena[k] (by rw [List.getElem?_eq_getElem hk, hkf]) (List.getElem?_eq_getElem hka)
    have h2 := h s.arena[k] (List.getElem_mem hka)
    rw [this] at h2
    exact (hops _ _ _).mp h2
  · intro h n hn
    obtain ⟨k, hk, hkn⟩ := List.mem_iff_getElem.mp hn
    have hkf : k < (frames t).length := by omega
    have := hst k (frames t)[k] n (List.getElem?_eq_getElem hkf) (by rw [List.getElem?_eq_getElem hk, hkn])
    rw [this]
    exact (hops _ _ _).mpr (h _ (List.getElem_mem hkf))

/-! ## Examples -/

/-- All opcodes but `0x0c`, which no fork has. -/
def allBut0c (op : UInt8) : Bool := decide (op ≠ 0x0c)

/-- Only numbers of 64 bits in the recording of a transaction that runs `op` and POP. -/
theorem memoryTx_fits (op : OpCode) (h : op = 0x0c ∨ op = Op.MSTORE) :
    ∃ s, TI.run Config.all TI.new (memoryTx op).events = .ok s ∧ Fits s.arena ∧
      s.arena.map (fun n => n.trace.steps.map (·.op)) = [[op, Op.POP]] := by
  rcases h with rfl | rfl
  all_goals
    refine ⟨_, rfl, ?_, rfl⟩
    intro n hn
    obtain rfl := List.mem_singleton.mp hn
    refine ⟨(by intro i hi; cases hi), (by intro i hi; cases hi), by decide, by decide, by decide, by decide, ?_, ?_⟩
    · intro s hs
      rcases List.mem_cons.mp hs with rfl | hs
      · exact ⟨by decide, by decide, by decide, by decide, by decide, by decide, (by intro c i hi; cases hi)⟩
      · obtain rfl := List.mem_singleton.mp hs
        exact ⟨by decide, by decide, by decide, by decide, by decide, by decide, (by intro c i hi; cases hi)⟩
    · intro o ho
      rcases List.mem_cons.mp ho with rfl | ho
      · decide
      · obtain rfl := List.mem_singleton.mp ho
        decide

/-- A recording of two steps that meets the hypotheses. -/
example : ∃ s, TI.run Config.all TI.new (memoryTx Op.MSTORE).events = .ok s ∧ Fits s.arena ∧
    OpsKnown allBut0c s.arena ∧ allBut0c 0xfe = true := by
  obtain ⟨s, hs, hf, ho⟩ := memoryTx_fits Op.MSTORE (Or.inr rfl)
  refine ⟨s, hs, hf, ?_, by decide⟩
  intro n hn x hx
  have h1 : n.trace.steps.map (·.op) ∈ s.arena.map (fun n => n.trace.steps.map (·.op)) :=
    List.mem_map.mpr ⟨n, hn, rfl⟩
  rw [ho, List.mem_singleton] at h1
  have h2 : x.op ∈ n.trace.steps.map (·.op) := List.mem_map.mpr ⟨x, hx, rfl⟩
  rw [h1] at h2
  have : ∀ y ∈ [Op.MSTORE, Op.POP], allBut0c y = true := by decide
  exact this _ h2

/-- **C106, refuted** for unknown opcodes: a transaction runs the byte `0x0c`, which is recorded, and the recording
that is read again shows `INVALID`. -/
theorem C106_refuted_unknown :
    (memoryTx 0x0c).WF ∧ Safe Config.all (memoryTx 0x0c).body ∧ allBut0c 0xfe = true ∧
    ∃ s ns, TI.run Config.all TI.new (memoryTx 0x0c).events = .ok s ∧ Fits s.arena ∧
      Stored.read allBut0c (Stored.write s.arena) = .ok ns ∧ ns ≠ s.arena ∧
      s.arena.map (fun n => n.trace.steps.map (·.op)) = [[0x0c, Op.POP]] ∧
      ns.map (fun n => n.trace.steps.map (·.op)) = [[0xfe, Op.POP]] := by
  obtain ⟨s, hs, hf, ho⟩ := memoryTx_fits 0x0c (Or.inl rfl)
  refine ⟨memoryTx_wf _, memoryTx_safe _ rfl _, by decide, s, _, hs, hf, (C106_exact _ (by decide) _ hf).1, ?_,
    ho, ?_⟩
  · intro he
    have h1 : (s.arena.map (replaceOps allBut0c)).map (fun n => n.trace.steps.map (·.op)) =
        [[0x0c, Op.POP]] := by rw [he, ho]
    have h2 : (s.arena.map (replaceOps allBut0c)).map (fun n => n.trace.steps.map (·.op)) =
        (s.arena.map (fun n => n.trace.steps.map (·.op))).map (List.map (replaceOp allBut0c)) := by
      simp [replaceOps, List.map_map, Function.comp_def]
    rw [h2, ho] at h1
    exact absurd h1 (by decide)
  · have h2 : (s.arena.map (replaceOps allBut0c)).map (fun n => n.trace.steps.map (·.op)) =
        (s.arena.map (fun n => n.trace.steps.map (·.op))).map (List.map (replaceOp allBut0c)) := by
      simp [replaceOps, List.map_map, Function.comp_def]
    rw [h2, ho]
    decide

/-- Texts of parts of a recording. -/
example : String.ofList (JsonWrite.value (Stored.encOrder (.log 3))) = "{\"Log\":3}" := by decide +kernel
example : String.ofList (JsonWrite.value (Stored.encChange ⟨0, 0x1f, none, .SSTORE⟩)) =
    "{\"key\":\"0x0\",\"value\":\"0x1f\",\"had_value\":null,\"reason\":\"SSTORE\"}" := by decide +kernel
example : String.ofList (JsonWrite.value (Stored.encAddress 0xab)) =
    "\"0x00000000000000000000000000000000000000ab\"" := by decide +kernel

/-- The text of the empty recording, as `serde_json` writes it. -/
example : String.ofList (Stored.write []) = "{\"arena\":[]}" := by decide +kernel

end Verif.Props
