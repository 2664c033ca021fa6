import Verif.Props.Standalone
import Verif.Spec.Example
/-!
# C35: what the opcode gas inspector reports for any history

`C35_opcode_gas_partial` speaks of histories in which every instruction that starts also ends. Here
instructions may be left without an end (the recording is interrupted, or another inspector stopped
the instruction).
-/
namespace Verif.Props
open Spec

/-- How often an opcode starts. -/
def startsOf (op : OpCode) : List Event → Nat
  | [] => 0
  | .step i _ :: es => (if i.op = op then 1 else 0) + startsOf op es
  | _ :: es => startsOf op es

/-- The end of an instruction that started before these events: the first end of an instruction, if no
instruction revm knows starts before it. -/
def endOf (known : OpCode → Bool) : List Event → Option Interp
  | [] => none
  | .stepEnd i _ :: _ => some i
  | .step i _ :: es => if known i.op then none else endOf known es
  | _ :: es => endOf known es

/-- The instructions revm knows that are charged in a history, with the gas they are charged. -/
def charges (known : OpCode → Bool) : List Event → List (OpCode × Nat)
  | [] => []
  | .step i _ :: es =>
    if known i.op then
      match endOf known es with
      | none => charges known es
      | some i' => (i.op, i.gas.remaining - i'.gas.remaining) :: charges known es
    else charges known es
  | _ :: es => charges known es

/-- The gas charged to an opcode. -/
def chargedTo (op : OpCode) : List (OpCode × Nat) → Nat
  | [] => 0
  | (o, g) :: l => (if o = op then g else 0) + chargedTo op l

/-- The charge of the instruction that is running. -/
def pending (known : OpCode → Bool) (last : Option (OpCode × Nat)) (es : List Event) :
    List (OpCode × Nat) :=
  match last, endOf known es with
  | some (op, g), some i' => [(op, g - i'.gas.remaining)]
  | _, _ => []

theorem chargedTo_append (op : OpCode) (l l' : List (OpCode × Nat)) :
    chargedTo op (l ++ l') = chargedTo op l + chargedTo op l' := by
  induction l with
  | nil => simp [chargedTo]
  | cons e l ih => obtain ⟨o, g⟩ := e; simp only [List.cons_append, chargedTo, ih]; omega

theorem chargedTo_absent (op : OpCode) (l : List (OpCode × Nat)) (h : op ∉ l.map Prod.fst) :
    chargedTo op l = 0 := by
  induction l with
  | nil => rfl
  | cons e l ih =>
    obtain ⟨o, g⟩ := e
    simp only [List.map_cons, List.mem_cons, not_or] at h
    simp only [chargedTo, if_neg (fun e => h.1 e.symm : ¬ o = op), ih h.2]

/-- The totals fit. -/
def Fits (known : OpCode → Bool) (s : OpcodeGas) (es : List Event) : Prop :=
  ∀ op, (known op = true → (AMap.get? s.counts op).getD 0 + startsOf op es < 2 ^ 64) ∧
    (AMap.get? s.gas op).getD 0 + chargedTo op (pending known s.last es ++ charges known es) < 2 ^ 64

/-- What the maps hold afterwards. -/
def Reports (known : OpCode → Bool) (s s' : OpcodeGas) (es : List Event) : Prop :=
  ∀ op, AMap.get? s'.counts op = (if known op = true ∧ startsOf op es ≠ 0
      then some ((AMap.get? s.counts op).getD 0 + startsOf op es) else AMap.get? s.counts op) ∧
    AMap.get? s'.gas op =
      (if op ∈ (pending known s.last es ++ charges known es).map Prod.fst
        then some ((AMap.get? s.gas op).getD 0 +
          chargedTo op (pending known s.last es ++ charges known es))
        else AMap.get? s.gas op)

theorem addEntry_iff {κ : Type} [DecidableEq κ] (m m' : AMap κ Nat) (k : κ) (n : Nat) :
    addEntry m k n = .ok m' ↔ (AMap.get? m k).getD 0 + n < 2 ^ 64 ∧
      m' = AMap.insert m k ((AMap.get? m k).getD 0 + n) := by
  simp only [addEntry, addU64]
  by_cases h : (AMap.get? m k).getD 0 + n < 2 ^ 64
  · simp [h, eq_comm]
  · simp [h]

theorem opcodeGas_any (known : OpCode → Bool) (es : List Event) : ∀ (s : OpcodeGas),
    AMap.Nodup s.counts → (∀ op, (AMap.get? s.counts op).getD 0 < 2 ^ 64) →
    (∀ op, (AMap.get? s.gas op).getD 0 < 2 ^ 64) →
    (∀ s', runHooks (OpcodeGas.hook known) s es = .ok s' →
      Fits known s es ∧ Reports known s s' es ∧ AMap.Nodup s'.counts) ∧
    (Fits known s es → ∃ s', runHooks (OpcodeGas.hook known) s es = .ok s') := by
  induction es with
  | nil =>
    intro s hn hc hg
    have hp : pending known s.last [] = [] := by
      unfold pending; split <;> simp_all [endOf]
    refine ⟨?_, fun _ => ⟨s, rfl⟩⟩
    intro s' h
    simp only [runHooks, Except.ok.injEq] at h
    subst h
    refine ⟨?_, ?_, hn⟩
    · intro op
      rw [hp]
      simp only [startsOf, charges, List.append_nil, chargedTo, Nat.add_zero]
      exact ⟨fun _ => hc op, hg op⟩
    · intro op
      rw [hp]
      simp [startsOf, charges]
  | cons e es ih =>
    intro s hn hc hg
    have skip : (∀ op, startsOf op (e :: es) = startsOf op es) → endOf known (e :: es) = endOf known es →
        charges known (e :: es) = charges known es → OpcodeGas.hook known s e = .ok s →
        (∀ s', runHooks (OpcodeGas.hook known) s (e :: es) = .ok s' →
          Fits known s (e :: es) ∧ Reports known s s' (e :: es) ∧ AMap.Nodup s'.counts) ∧
        (Fits known s (e :: es) → ∃ s', runHooks (OpcodeGas.hook known) s (e :: es) = .ok s') := by
      intro h1 h2 h3 h4
      have := ih s hn hc hg
      simp only [Fits, Reports, pending, h1, h2, h3, runHooks, h4] at this ⊢
      exact this
    cases e with
    | step i c =>
      by_cases hk : known i.op = true
      · have hp : pending known s.last (.step i c :: es) = [] := by
          unfold pending; split <;> simp_all [endOf]
        have hch : charges known (.step i c :: es) =
            pending known (some (i.op, i.gas.remaining)) es ++ charges known es := by
          simp only [charges, hk, if_true, pending]
          cases endOf known es <;> rfl
        simp only [runHooks, OpcodeGas.hook, hk, if_true]
        by_cases hfit : (AMap.get? s.counts i.op).getD 0 + 1 < 2 ^ 64
        · rw [addEntry_ok _ _ _ hfit]
          simp only
          obtain ⟨i1, i2⟩ := ih
            { s with counts := AMap.insert s.counts i.op ((AMap.get? s.counts i.op).getD 0 + 1)
                     last := some (i.op, i.gas.remaining) }
            (AMap.nodup_insert _ _ hn)
            (by
              intro op
              simp only [AMap.get?_insert]
              by_cases h : op = i.op
              · simp only [if_pos h, Option.getD_some]; exact hfit
              · simp only [if_neg h]; exact hc op)
            hg
          have hfe : Fits known s (.step i c :: es) ↔ Fits known
              { s with counts := AMap.insert s.counts i.op ((AMap.get? s.counts i.op).getD 0 + 1)
                       last := some (i.op, i.gas.remaining) } es := by
            unfold Fits
            apply forall_congr'
            intro op
            rw [hp, hch, List.nil_append]
            simp only [startsOf, AMap.get?_insert]
            by_cases h : op = i.op
            · subst h
              simp only [if_true, Option.getD_some, Nat.add_assoc]
            · simp only [if_neg h, if_neg (fun e => h e.symm : ¬ i.op = op), Nat.zero_add]
          refine ⟨?_, fun hf => i2 (hfe.1 hf)⟩
          intro s' hs'
          obtain ⟨j1, j2, j3⟩ := i1 s' hs'
          refine ⟨hfe.2 j1, ?_, j3⟩
          intro op
          obtain ⟨k1, k2⟩ := j2 op
          rw [hp, hch, List.nil_append]
          refine ⟨?_, k2⟩
          rw [k1]
          simp only [startsOf, AMap.get?_insert]
          by_cases h : op = i.op
          · subst h
            simp only [if_true, hk, true_and, Option.getD_some]
            by_cases h0 : startsOf i.op es = 0
            · simp [h0]
            · rw [if_pos h0, if_pos (by omega)]
              congr 1; omega
          · simp only [if_neg h, if_neg (fun e => h e.symm : ¬ i.op = op), Nat.zero_add]
        · constructor
          · intro s' hs'
            simp only [addEntry, addU64, if_neg hfit] at hs'
            exact absurd hs' (by simp)
          · intro hf
            have := (hf i.op).1 hk
            simp only [startsOf, if_true] at this
            omega
      · have hst : ∀ op, known op = true → startsOf op (.step i c :: es) = startsOf op es := by
          intro op hko
          simp only [startsOf]
          rw [if_neg (by rintro rfl; exact hk hko), Nat.zero_add]
        have h2 : endOf known (.step i c :: es) = endOf known es := by simp [endOf, hk]
        have h3 : charges known (.step i c :: es) = charges known es := by simp [charges, hk]
        have h4 : OpcodeGas.hook known s (.step i c) = .ok s := by simp [OpcodeGas.hook, hk]
        obtain ⟨i1, i2⟩ := ih s hn hc hg
        simp only [runHooks, h4]
        have hfe : Fits known s (.step i c :: es) ↔ Fits known s es := by
          simp only [Fits, pending, h2, h3]
          apply forall_congr'
          intro op
          by_cases hko : known op = true
          · rw [hst op hko]
          · simp [hko]
        refine ⟨?_, fun hf => i2 (hfe.1 hf)⟩
        intro s' hs'
        obtain ⟨j1, j2, j3⟩ := i1 s' hs'
        refine ⟨hfe.2 j1, ?_, j3⟩
        intro op
        have := j2 op
        simp only [pending, h2, h3] at this ⊢
        refine ⟨?_, this.2⟩
        rw [this.1]
        by_cases hko : known op = true
        · rw [hst op hko]
        · simp [hko]
    | stepEnd i c =>
      cases hl : s.last with
      | none =>
        have hp : pending known s.last (.stepEnd i c :: es) = [] := by simp [pending, hl]
        have hp' : pending known s.last es = [] := by simp [pending, hl]
        obtain ⟨i1, i2⟩ := ih s hn hc hg
        have h4 : OpcodeGas.hook known s (.stepEnd i c) = .ok s := by simp [OpcodeGas.hook, hl]
        have h1 : ∀ op, startsOf op (.stepEnd i c :: es) = startsOf op es := fun _ => rfl
        have h3 : charges known (.stepEnd i c :: es) = charges known es := rfl
        simp only [Fits, Reports, runHooks, h4, hp, hp', h1, h3] at i1 i2 ⊢
        exact ⟨i1, i2⟩
      | some l =>
        obtain ⟨op0, g0⟩ := l
        have hp : pending known s.last (.stepEnd i c :: es) = [(op0, g0 - i.gas.remaining)] := by
          simp [pending, hl, endOf]
        have h1 : ∀ op, startsOf op (.stepEnd i c :: es) = startsOf op es := fun _ => rfl
        have h3 : charges known (.stepEnd i c :: es) = charges known es := rfl
        simp only [runHooks, OpcodeGas.hook, hl]
        by_cases hfit : (AMap.get? s.gas op0).getD 0 + (g0 - i.gas.remaining) < 2 ^ 64
        · rw [addEntry_ok _ _ _ hfit]
          simp only
          obtain ⟨i1, i2⟩ := ih
            { s with gas := AMap.insert s.gas op0 ((AMap.get? s.gas op0).getD 0 +
                       (g0 - i.gas.remaining))
                     last := none } hn hc
            (by
              intro op
              simp only [AMap.get?_insert]
              by_cases h : op = op0
              · simp only [if_pos h, Option.getD_some]; exact hfit
              · simp only [if_neg h]; exact hg op)
          have hp' : pending known none es = [] := rfl
          have hfe : Fits known s (.stepEnd i c :: es) ↔ Fits known
              { s with gas := AMap.insert s.gas op0 ((AMap.get? s.gas op0).getD 0 +
                         (g0 - i.gas.remaining))
                       last := none } es := by
            unfold Fits
            apply forall_congr'
            intro op
            rw [hp, hp', h1, h3]
            simp only [List.cons_append, List.nil_append, chargedTo, AMap.get?_insert]
            by_cases h : op = op0
            · subst h
              simp only [if_true, Option.getD_some, Nat.add_assoc]
            · simp only [if_neg h, if_neg (fun e => h e.symm : ¬ op0 = op), Nat.zero_add]
          refine ⟨?_, fun hf => i2 (hfe.1 hf)⟩
          intro s' hs'
          obtain ⟨j1, j2, j3⟩ := i1 s' hs'
          refine ⟨hfe.2 j1, ?_, j3⟩
          intro op
          obtain ⟨k1, k2⟩ := j2 op
          rw [hp, h1, h3]
          refine ⟨k1, ?_⟩
          rw [k2]
          simp only [hp', List.cons_append, List.nil_append, chargedTo, AMap.get?_insert,
            List.map_cons, List.mem_cons]
          by_cases h : op = op0
          · subst h
            simp only [if_true, true_or, Option.getD_some]
            by_cases h0 : op ∈ (charges known es).map Prod.fst
            · rw [if_pos h0]
              congr 1; omega
            · rw [if_neg h0, chargedTo_absent op _ h0, Nat.add_zero]
          · have h' : ¬ op0 = op := fun e => h e.symm
            simp only [h, h', if_false, false_or, Nat.zero_add]
        · constructor
          · intro s' hs'
            simp only [addEntry, addU64, if_neg hfit] at hs'
            exact absurd hs' (by simp)
          · intro hf
            have := (hf op0).2
            rw [hp] at this
            simp only [List.cons_append, List.nil_append, chargedTo, if_true] at this
            omega
    | log c l => exact skip (fun _ => rfl) rfl rfl rfl
    | call c inp => exact skip (fun _ => rfl) rfl rfl rfl
    | callEnd c inp r => exact skip (fun _ => rfl) rfl rfl rfl
    | create c inp => exact skip (fun _ => rfl) rfl rfl rfl
    | createEnd c inp r a => exact skip (fun _ => rfl) rfl rfl rfl
    | selfdestruct a t v => exact skip (fun _ => rfl) rfl rfl rfl

/-- **C35, exact.** For every sequence of hook calls, whether or not every instruction that starts also
ends: the inspector gets through it exactly if for every opcode revm knows the number of starts and the
gas charged to it fit in 64 bits. It then reports each known opcode that started once, with the
number of its starts and the gas charged to it: that from the start of each of its instructions to the
next end of an instruction, unless another one revm knows starts before (so that an instruction that does not
end may be charged at the end of one revm does not know, see `C35_refuted_stale`). -/
theorem C35_exact (known : OpCode → Bool) (es : List Event) :
    ((∃ s, runHooks (OpcodeGas.hook known) {} es = .ok s) ↔
      ∀ op, (known op = true → startsOf op es < 2 ^ 64) ∧ chargedTo op (charges known es) < 2 ^ 64) ∧
    ∀ s, runHooks (OpcodeGas.hook known) {} es = .ok s →
      (s.opcodeIter.map Prod.fst).Nodup ∧
      ∀ op n g, (op, (n, g)) ∈ s.opcodeIter ↔
        known op = true ∧ n ≠ 0 ∧ n = startsOf op es ∧ g = chargedTo op (charges known es) := by
  obtain ⟨h1, h2⟩ := opcodeGas_any known es {} (by simp [AMap.Nodup]) (by simp [AMap.get?])
    (by simp [AMap.get?])
  have hp : pending known none es = [] := rfl
  simp only [Fits, Reports, hp, List.nil_append, AMap.get?, Option.getD_none, Nat.zero_add] at h1 h2
  refine ⟨⟨fun ⟨s, hs⟩ => (h1 s hs).1, h2⟩, ?_⟩
  intro s hs
  obtain ⟨_, hrep, hnd⟩ := h1 s hs
  refine ⟨?_, ?_⟩
  · unfold OpcodeGas.opcodeIter
    rw [List.map_map]
    exact hnd
  · intro op n g
    have hgas : (AMap.get? s.gas op).getD 0 = chargedTo op (charges known es) := by
      rw [(hrep op).2]
      split
      · rfl
      · rename_i h; rw [chargedTo_absent _ _ h]; rfl
    unfold OpcodeGas.opcodeIter
    simp only [List.mem_map, Prod.mk.injEq, Prod.exists]
    constructor
    · rintro ⟨k, v, hm, rfl, rfl, rfl⟩
      have hget := (AMap.get?_eq_some_iff hnd).2 hm
      rw [(hrep k).1] at hget
      split at hget
      · rename_i h
        simp only [Option.some.injEq] at hget
        subst hget
        exact ⟨h.1, h.2, rfl, hgas⟩
      · exact absurd hget (by simp)
    · rintro ⟨hk, hn, rfl, rfl⟩
      refine ⟨op, _, (AMap.get?_eq_some_iff hnd).1 ?_, rfl, rfl, hgas⟩
      rw [(hrep op).1, if_pos ⟨hk, hn⟩]

/-- A history interrupted inside its second instruction: that instruction is counted, without gas. -/
example : ∃ s, runHooks (OpcodeGas.hook (fun _ => true)) {}
      [.step (Example.interp Op.PUSH0 0 100 .Continue) Example.ctx,
       .stepEnd (Example.interp Op.PUSH0 2 97 .Continue) Example.ctx,
       .step (Example.interp Op.SSTORE 2 97 .Continue) Example.ctx] = .ok s ∧
    s.opcodeIter = [(Op.PUSH0, (1, 3)), (Op.SSTORE, (1, 0))] := ⟨_, rfl, by decide⟩

/-- An instruction that is left without an end, followed by one that revm does not know: the end of the
latter is charged to the former. -/
example : charges (fun op => op = Op.PUSH0)
      [.step (Example.interp Op.PUSH0 0 100 .Continue) Example.ctx,
       .step (Example.interp Op.SSTORE 2 90 .Continue) Example.ctx,
       .stepEnd (Example.interp Op.SSTORE 2 80 .Continue) Example.ctx] = [(Op.PUSH0, 20)] := by decide

end Verif.Props
