import Verif.Props.Standalone
import Verif.Props.StandaloneExact
import Verif.Props.ReceiptGas
/-! C92: the gas of all opcodes together. -/
namespace Verif.Props
open Spec Rec

/-- The gas of instructions. -/
def spentBy (ps : List (Interp × Interp)) : Nat :=
  (ps.map fun p => p.1.gas.remaining - p.2.gas.remaining).sum

theorem spentBy_append (a b : List (Interp × Interp)) : spentBy (a ++ b) = spentBy a + spentBy b := by
  simp [spentBy]

theorem lost_add (o : Outcome) : givenBack o + lost o = o.result.gas.remaining := by
  unfold givenBack lost; split <;> omega

/-- What instructions take from the frames of a body, and what is left and given back in them. -/
theorem flow_total (outside : FrameCtx → Nat) (b : Body) (d p : Nat) (v : U256) (n g e : Nat)
    (hflow : GasFlow g b e) (hruns : ∀ f ∈ subFrames d p v n b, Runs f (outside f)) :
    spentBy (executed b) + e + ((subFrames d p v n b).map fun f => outside f + lost f.out).sum =
      g + ((subFrames d p v n b).map fun f => gasLimit f.hdr).sum := by
  induction b generalizing d p v n g e with
  | nil => simp only [GasFlow] at hflow; subst hflow; simp [executed, subFrames, spentBy]
  | act a rest ih =>
    cases a with
    | step i c i' c' =>
      obtain ⟨h1, h2, h3⟩ := hflow
      have := ih d p v n _ _ h3 hruns
      simp only [executed, subFrames, spentBy, List.map_cons, List.sum_cons] at this ⊢
      omega
    | aborted i c => exact ih d p v n _ _ hflow.2 hruns
    | log c l => exact ih d p v n _ _ hflow hruns
    | selfdestruct x y z => exact ih d p v n _ _ hflow hruns
  | sub h b o rest ihb ihr =>
    simp only [subFrames, List.mem_cons, List.mem_append] at hruns
    have h0 := hruns _ (Or.inl rfl)
    have hb := ihb _ _ _ _ _ _ h0 (fun f hf => hruns f (Or.inr (Or.inl hf)))
    have hr := ihr _ _ _ _ _ _ hflow (fun f hf => hruns f (Or.inr (Or.inr hf)))
    have hl := lost_add o
    simp only [executed, subFrames, spentBy_append, List.map_cons, List.map_append, List.sum_cons,
      List.sum_append] at hb hr ⊢
    omega

theorem sum_gasOf (ops : List OpCode) (hnd : ops.Nodup) (ps : List (Interp × Interp))
    (hall : ∀ p ∈ ps, p.1.op ∈ ops ∨ p.1.gas.remaining - p.2.gas.remaining = 0) :
    (ops.map fun op => gasOf op ps).sum = spentBy ps := by
  induction ps with
  | nil => 
    simp only [gasOf, spentBy, List.filter_nil, List.map_nil, List.sum_nil]
    induction ops with
    | nil => rfl
    | cons a l ih => simp only [List.map_cons, List.sum_cons, Nat.zero_add]; exact ih (List.nodup_cons.1 hnd).2 (by simp)
  | cons q ps ih =>
    have ih := ih (fun p hp => hall p (List.mem_cons_of_mem _ hp))
    have hq := hall q List.mem_cons_self
    have hstep : ∀ op, gasOf op (q :: ps) =
        (if q.1.op = op then q.1.gas.remaining - q.2.gas.remaining else 0) + gasOf op ps := by
      intro op
      by_cases h : q.1.op = op
      · simp [gasOf, h]
      · simp [gasOf, h]
    have hone : ∀ (l : List OpCode), l.Nodup → (q.1.op ∈ l ∨ q.1.gas.remaining - q.2.gas.remaining = 0) →
        (l.map fun op => gasOf op (q :: ps)).sum =
          (q.1.gas.remaining - q.2.gas.remaining) + (l.map fun op => gasOf op ps).sum := by
      intro l
      have hno : ∀ (l : List OpCode), q.1.op ∉ l → (l.map fun op => gasOf op (q :: ps)).sum =
          (l.map fun op => gasOf op ps).sum := by
        intro l
        induction l with
        | nil => simp
        | cons a l ih =>
          intro h
          simp only [List.mem_cons, not_or] at h
          simp only [List.map_cons, List.sum_cons, hstep a, if_neg h.1, ih h.2]
          omega
      induction l with
      | nil => intro _ h; simp at h; simp; omega
      | cons a l ih =>
        intro hnd h
        obtain ⟨h1, h2⟩ := List.nodup_cons.1 hnd
        by_cases ha : q.1.op = a
        · rw [List.map_cons, List.sum_cons, hstep, if_pos ha, hno l (ha ▸ h1), List.map_cons, List.sum_cons]
          omega
        · have := ih h2 (by
            rcases h with h | h
            · rcases List.mem_cons.1 h with h | h
              · exact absurd h ha
              · exact Or.inl h
            · exact Or.inr h)
          rw [List.map_cons, List.sum_cons, hstep, if_neg ha, this, List.map_cons, List.sum_cons]
          omega
    rw [hone ops hnd hq, ih]
    simp [spentBy]

/-- The gas of all opcodes, as the inspector reports it. -/
def totalGas (s : OpcodeGas) : Nat := (s.opcodeIter.map fun e => e.2.2).sum

theorem total_eq (known : OpCode → Bool) (t : Tx) (hno : NoAborts t.body)
    (hknown : ∀ p ∈ executed t.body, known p.1.op = true ∨ p.1.gas.remaining = p.2.gas.remaining) (s : OpcodeGas)
    (hs : runHooks (OpcodeGas.hook known) {} t.events = .ok s) : totalGas s = spentBy (executed t.body) := by
  have hp := C35_executions t hno
  have hov := (C35_overflow_iff known _ _ hp).1 ⟨s, hs⟩
  obtain ⟨s', hs', -, -, hnd, hmem⟩ := C35_opcode_gas_partial known _ _ hp (fun op h => (hov op h).1)
    (fun op h => (hov op h).2)
  obtain rfl := Except.ok.inj (hs.symm.trans hs')
  have h1 : totalGas s = ((s.opcodeIter.map Prod.fst).map fun op => gasOf op (executed t.body)).sum := by
    rw [totalGas, List.map_map]
    congr 1
    apply List.map_congr_left
    rintro ⟨op, n, g⟩ he
    exact ((hmem op n g).1 he).2.2.2
  rw [h1, sum_gasOf _ hnd]
  intro q hq
  rcases hknown q hq with hk | hz
  · left
    refine List.mem_map.2 ⟨(q.1.op, (_, _)), (hmem _ _ _).2 ⟨hk, ?_, rfl, rfl⟩, rfl⟩
    intro h0
    rw [countOf, List.length_eq_zero_iff, List.filter_eq_nil_iff] at h0
    exact h0 q hq (by simp)
  · right; omega

/-- **C92, exactly.** For every execution with the gas of the EVM in which every instruction runs to its end, and
in which instructions without a name take no gas: the gas the inspector reports for all opcodes together is the
gas the root frame spent, and for every frame below it on top of that its whole gas limit, less what it lost and
what was charged in the frames outside of instructions. -/
theorem C92_exact (known : OpCode → Bool) (t : Tx) (hno : NoAborts t.body)
    (hknown : ∀ p ∈ executed t.body, known p.1.op = true ∨ p.1.gas.remaining = p.2.gas.remaining)
    (outside : FrameCtx → Nat) (hruns : ∀ f ∈ frames t, Runs f (outside f)) (s : OpcodeGas)
    (hs : runHooks (OpcodeGas.hook known) {} t.events = .ok s) :
    totalGas s + t.out.result.gas.remaining + ((frames t).map outside).sum +
        ((frames t).tail.map fun f => lost f.out).sum =
      gasLimit t.hdr + ((frames t).tail.map fun f => gasLimit f.hdr).sum := by
  rw [total_eq known t hno hknown s hs]
  have h0 := hruns _ List.mem_cons_self
  have := flow_total outside t.body 1 0 (valueInScope none t.hdr) 1 _ _ h0
    (fun f hf => hruns f (List.mem_cons_of_mem _ hf))
  simp only [frames, List.map_cons, List.sum_cons, List.tail_cons]
  have hsum : ∀ l : List FrameCtx, (l.map fun f => outside f + lost f.out).sum =
      (l.map outside).sum + (l.map fun f => lost f.out).sum := by
    intro l
    induction l with
    | nil => rfl
    | cons a l ih => simp only [List.map_cons, List.sum_cons, ih]; omega
  rw [hsum] at this
  simp only at this
  omega

theorem sum_le {α : Type _} (f g : α → Nat) : ∀ l : List α, (∀ x ∈ l, f x ≤ g x) →
    (l.map f).sum ≤ (l.map g).sum ∧ ((l.map f).sum = (l.map g).sum ↔ ∀ x ∈ l, f x = g x)
  | [], _ => by simp
  | a :: l, h => by
    obtain ⟨h1, h2⟩ := sum_le f g l (fun x hx => h x (List.mem_cons_of_mem _ hx))
    have ha := h a List.mem_cons_self
    simp only [List.map_cons, List.sum_cons, List.mem_cons, forall_eq_or_imp]
    refine ⟨by omega, ?_⟩
    rw [← h2]
    omega

/-- **C92, when it holds:** with the gas charged outside of instructions the reported gas of all opcodes together
is at least the gas the root frame spent, and exactly that if and only if every frame below lost all the gas it was
given. -/
theorem C92_iff (known : OpCode → Bool) (t : Tx) (hno : NoAborts t.body)
    (hknown : ∀ p ∈ executed t.body, known p.1.op = true ∨ p.1.gas.remaining = p.2.gas.remaining)
    (outside : FrameCtx → Nat) (hruns : ∀ f ∈ frames t, Runs f (outside f)) (hlim : ∀ f ∈ frames t, LimitOK f)
    (s : OpcodeGas) (hs : runHooks (OpcodeGas.hook known) {} t.events = .ok s) :
    gasLimit t.hdr - t.out.result.gas.remaining ≤ totalGas s + ((frames t).map outside).sum ∧
    (totalGas s + ((frames t).map outside).sum = gasLimit t.hdr - t.out.result.gas.remaining ↔
      ∀ f ∈ (frames t).tail, lost f.out = gasLimit f.hdr) := by
  have hex := C92_exact known t hno hknown outside hruns s hs
  have hr := hlim _ List.mem_cons_self
  obtain ⟨h1, h2⟩ := sum_le (fun f : FrameCtx => lost f.out) (fun f => gasLimit f.hdr) (frames t).tail (by
    intro f hf
    obtain ⟨l1, l2⟩ := hlim f (List.mem_of_mem_tail hf)
    have := lost_add f.out
    omega)
  obtain ⟨l1, l2⟩ := hr
  simp only at l1 l2
  rw [← h2]
  omega

/-- **C92 fails for every transaction with a call that is given gas and does not lose it:** the reported gas is too
high, because what a call instruction hands over is counted for it and what is done with it once more. -/
theorem C92_refuted (known : OpCode → Bool) (t : Tx) (hno : NoAborts t.body)
    (hknown : ∀ p ∈ executed t.body, known p.1.op = true ∨ p.1.gas.remaining = p.2.gas.remaining)
    (outside : FrameCtx → Nat) (hruns : ∀ f ∈ frames t, Runs f (outside f)) (hlim : ∀ f ∈ frames t, LimitOK f)
    (s : OpcodeGas) (hs : runHooks (OpcodeGas.hook known) {} t.events = .ok s)
    (f : FrameCtx) (hf : f ∈ (frames t).tail) (hback : GivesBack f.out.result.result) (hgas : 0 < gasLimit f.hdr) :
    gasLimit t.hdr - t.out.result.gas.remaining < totalGas s + ((frames t).map outside).sum := by
  obtain ⟨h1, h2⟩ := C92_iff known t hno hknown outside hruns hlim s hs
  rcases Nat.lt_or_eq_of_le h1 with h | h
  · exact h
  · have := h2.1 h.symm f hf
    rw [lost, if_pos hback] at this
    omega

/-- The hypotheses are met by nested calls of 700 and 500 units that give back what is left: the root frame of 900
units has 872 left, but the opcodes together are reported with 1228. -/
example : ∃ s, NoAborts (gasTx .Stop 492).body ∧ (∀ f ∈ frames (gasTx .Stop 492), Runs f 0) ∧
    (∀ f ∈ frames (gasTx .Stop 492), LimitOK f) ∧
    runHooks (OpcodeGas.hook (fun _ => true)) {} (gasTx .Stop 492).events = .ok s ∧ totalGas s = 1228 ∧
    ((frames (gasTx .Stop 492)).tail.map fun f => (decide (GivesBack f.out.result.result), gasLimit f.hdr)) =
      [(true, 700), (true, 500)] ∧
    gasLimit (gasTx .Stop 492).hdr - (gasTx .Stop 492).out.result.gas.remaining = 28 := by
  refine ⟨_, ⟨⟨trivial, trivial⟩, trivial⟩, ?_, gasTx_limits _ _ (by omega), rfl, by decide +kernel, by decide +kernel,
    by decide +kernel⟩
  intro f hf
  simp only [frames, gasTx, subFrames, List.mem_cons, List.not_mem_nil, or_false, List.nil_append,
    List.append_nil] at hf
  rcases hf with rfl | rfl | rfl
  · exact ⟨rfl, (by decide : 190 ≤ 900), rfl, Nat.le_refl _, rfl⟩
  · exact ⟨rfl, (by decide : 190 ≤ 700), rfl, Nat.le_refl _, rfl⟩
  · exact ⟨rfl, (by decide : 492 ≤ 500), rfl⟩

/-- **C92, in part:** a transaction without calls. Missing: transactions with calls, for which the reported gas
is another (`C92_exact`). -/
theorem C92_no_calls_partial (known : OpCode → Bool) (t : Tx) (hno : NoAborts t.body)
    (hknown : ∀ p ∈ executed t.body, known p.1.op = true ∨ p.1.gas.remaining = p.2.gas.remaining)
    (outside : Nat) (hruns : Runs (rootOf t) outside) (hone : frames t = [rootOf t]) (s : OpcodeGas)
    (hs : runHooks (OpcodeGas.hook known) {} t.events = .ok s) :
    totalGas s + outside = gasLimit t.hdr - t.out.result.gas.remaining := by
  have := C92_exact known t hno hknown (fun _ => outside) (by rw [hone]; simpa using hruns) s hs
  rw [hone] at this
  simp at this
  omega

/-- Its hypotheses are met. -/
example (r : InstructionResult) : NoAborts (freeTx r).body ∧ Runs (rootOf (freeTx r)) 0 ∧
    frames (freeTx r) = [rootOf (freeTx r)] :=
  ⟨trivial, ⟨rfl, (by omega : 40000 ≤ 100000), rfl⟩, rfl⟩

end Verif.Props
