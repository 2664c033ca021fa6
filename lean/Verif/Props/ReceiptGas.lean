import Verif.Props.ArenaExact
import Verif.Props.Parity
import Verif.Props.CallFrames
import Verif.Props.Gas
import Verif.Spec.ReceiptGas
/-! C91: the gas used of the root frame and of the receipt. -/
namespace Verif.Props
open Spec Rec Parity Par

/-- The gas used that is recorded for the root frame. -/
theorem root_gas (cfg : Config) (t : Tx) : (nodeOf cfg (rootOf t)).trace.gasUsed =
    Verif.gasUsed t.out.ctx.specId (t.out.result.gas.limit - t.out.result.gas.remaining)
      (i64AsU64 t.out.result.gas.refunded) := by
  simp only [nodeOf, leaveNode, TI.fillTrace, own_trace, rootOf]
  split <;> rfl

theorem capped_lt {q r r' x a b : Nat} (hq : q = 5 ∨ q = 2) (h : a + 2 + x ≤ b) (hr : r' ≤ r + x) :
    a - min r (a / q) < b - min r' (b / q) := by
  rcases hq with rfl | rfl
  · rcases Nat.le_total r (a / 5) with h1 | h1
    · rw [Nat.min_eq_left h1]
      have := Nat.min_le_left r' (b / 5)
      omega
    · rw [Nat.min_eq_right h1]
      have := Nat.min_le_right r' (b / 5)
      omega
  · rcases Nat.le_total r (a / 2) with h1 | h1
    · rw [Nat.min_eq_left h1]
      have := Nat.min_le_left r' (b / 2)
      omega
    · rw [Nat.min_eq_right h1]
      have := Nat.min_le_right r' (b / 2)
      omega

theorem quotient_cases (spec : SpecId) : refundQuotient spec = 5 ∨ refundQuotient spec = 2 := by
  unfold refundQuotient; split <;> simp

theorem quotient_eq (spec : SpecId) : (if spec.enabled LONDON then 5 else 2) = refundQuotient spec := by
  simp [refundQuotient, SpecId.enabled]

/-- **C91, without gas paid before the root frame** (as for a call made by the system): the gas used recorded for
the root frame is that of the receipt if and only if the transaction succeeded, or there is nothing to refund and
no gas is lost. -/
theorem C91_exact (cfg : Config) (t : Tx) (hwf : t.WF) (hsafe : Safe cfg t.body) (hlim : LimitOK (rootOf t))
    (htx : paidBefore t = 0) (hle : gasLimit t.hdr ≤ txGasLimit t.hdr) :
    ∃ s x, TI.run cfg TI.new t.events = .ok s ∧ s.arena[0]? = some x ∧
      (x.trace.gasUsed = receiptGas 0 0 t ↔ t.out.result.result.isOk = true ∨
        (t.out.result.result.isRevertClass = true ∨ t.out.result.gas.remaining = 0) ∧
          min (i64AsU64 t.out.result.gas.refunded) ((t.out.result.gas.limit - t.out.result.gas.remaining) /
            refundQuotient t.out.ctx.specId) = 0) := by
  obtain ⟨s, hr, _, har, _⟩ := run_frames cfg t hwf hsafe
  refine ⟨s, nodeOf cfg (rootOf t), hr, by rw [har]; rfl, ?_⟩
  rw [root_gas]
  obtain ⟨l1, l2⟩ := hlim
  simp only [rootOf] at l1 l2
  have hT : txGasLimit t.hdr = gasLimit t.hdr := by unfold paidBefore at htx; omega
  simp only [Verif.gasUsed, quotient_eq, receiptGas, givenBack, GivesBack, hT, Nat.zero_max, Nat.add_zero]
  generalize refundQuotient t.out.ctx.specId = q
  generalize i64AsU64 t.out.result.gas.refunded = r
  generalize gasLimit t.hdr = L at *
  generalize t.out.result.gas.remaining = rem at *
  generalize t.out.result.gas.limit = lim at *
  subst l1
  have hmle : min r ((lim - rem) / q) ≤ lim - rem :=
    Nat.le_trans (Nat.min_le_right _ _) (Nat.div_le_self _ _)
  by_cases hok : t.out.result.result.isOk = true
  · simp [hok]
  · by_cases hrv : t.out.result.result.isRevertClass = true
    · simp only [hok, hrv, or_true, if_true, false_or, true_or, true_and, Nat.zero_min, Nat.sub_zero,
        Bool.false_eq_true, if_false]
      generalize min r ((lim - rem) / q) = m at hmle
      omega
    · simp only [hok, hrv, or_false, Bool.false_eq_true, if_false, false_or, Nat.zero_min, Nat.sub_zero]
      generalize min r ((lim - rem) / q) = m at hmle
      omega

/-- **C91 fails for every ordinary transaction.** When the gas paid before the root frame starts exceeds the
refund for authorisations (21000 and 25000 for each authorisation, against 12500), the gas used recorded for the
root frame is less than that of the receipt. -/
theorem C91_refuted (cfg : Config) (t : Tx) (hwf : t.WF) (hsafe : Safe cfg t.body) (hlim : LimitOK (rootOf t))
    (floor authRefund : Nat) (htx : authRefund + 2 ≤ paidBefore t) :
    ∃ s x, TI.run cfg TI.new t.events = .ok s ∧ s.arena[0]? = some x ∧
      x.trace.gasUsed < receiptGas floor authRefund t := by
  obtain ⟨s, hr, _, har, _⟩ := run_frames cfg t hwf hsafe
  refine ⟨s, nodeOf cfg (rootOf t), hr, by rw [har]; rfl, ?_⟩
  rw [root_gas]
  obtain ⟨l1, l2⟩ := hlim
  simp only [rootOf] at l1 l2
  simp only [Verif.gasUsed, quotient_eq, receiptGas]
  refine Nat.lt_of_lt_of_le (capped_lt (x := authRefund) (quotient_cases _) ?_ ?_) (Nat.le_max_right _ _)
  · have : givenBack t.out ≤ t.out.result.gas.remaining := by unfold givenBack; split <;> omega
    unfold paidBefore at htx
    omega
  · split <;> omega

/-- The hypotheses are met: a successful call of a contract with calls, of 100000 units of which 900 are left for
the root frame; the recorded gas used is 28, that of the receipt 99128. -/
example : (gasTx .Stop 492).WF ∧ Safe Config.all (gasTx .Stop 492).body ∧ LimitOK (rootOf (gasTx .Stop 492)) ∧
    2500 + 2 ≤ paidBefore (gasTx .Stop 492) ∧ receiptGas 0 0 (gasTx .Stop 492) = 99128 ∧
    (∀ s, TI.run Config.all TI.new (gasTx .Stop 492).events = .ok s →
      (s.arena[0]?.map fun x => x.trace.gasUsed) = some 28) := by
  refine ⟨gasTx_wf _ _, gasTx_safe _ _ _, gasTx_limits .Stop 492 (by omega) _ List.mem_cons_self, by decide,
    by decide +kernel, ?_⟩
  intro s hs
  obtain ⟨s', hr, _, har, _⟩ := run_frames Config.all _ (gasTx_wf .Stop 492) (gasTx_safe _ _ _)
  obtain rfl := Except.ok.inj (hs.symm.trans hr)
  rw [har, show (frames (gasTx .Stop 492)) = rootOf (gasTx .Stop 492) :: _ from rfl, List.map_cons,
    List.getElem?_cons_zero, Option.map_some, root_gas]
  decide +kernel

/-- A call of 100000 units with nothing paid before, that ends with the given status and 40000 units left. -/
def freeTx (r : InstructionResult) : Tx where
  hdr := gasHdr 100000
  body := .act (gasStep 0x20 100000 40000 r) .nil
  out := gasOut r 100000 40000

/-- The hypotheses of `C91_exact` are met, and both sides are reached: with success the recorded gas used is that
of the receipt, after an invalid jump it is not. -/
example (r : InstructionResult) : (freeTx r).WF ∧ Safe Config.all (freeTx r).body ∧ LimitOK (rootOf (freeTx r)) ∧
    paidBefore (freeTx r) = 0 ∧ gasLimit (freeTx r).hdr ≤ txGasLimit (freeTx r).hdr ∧
    receiptGas 0 0 (freeTx .Stop) = 60000 ∧ receiptGas 0 0 (freeTx .InvalidJump) = 100000 := by
  refine ⟨⟨fun _ => rfl, fun h => absurd h (by simp [freeTx, gasHdr, Header.isPrecompile, Example.ctx]), trivial⟩,
    ⟨Example.stepSafe _ _ _ _ (by simp [Example.interp]; decide), trivial⟩,
    ⟨rfl, (by omega : 40000 ≤ 100000)⟩, Nat.sub_self 100000, Nat.le_refl 100000, by decide +kernel, by decide +kernel⟩

/-- **C91, in part:** what is handed over is shown. Once the gas used of the receipt is set on the inspector,
the root node has it; the parity traces made with it show it as the gas used of the first trace, if that has a
result; and so does the call frame made with it, for every call configuration. Missing: the gas used of the root
without it, which is another for every ordinary transaction (`C91_refuted`). -/
theorem C91_set_partial (decode : RevertDecoder) (cfg : Config) (t : Tx) (hwf : t.WF) (hsafe : Safe cfg t.body)
    (opts : CallConfig) (floor authRefund : Nat) :
    ∃ s ts fr, TI.run cfg TI.new t.events = .ok s ∧
      (∃ x, (s.setTransactionGasUsed (receiptGas floor authRefund t)).arena[0]? = some x ∧
        x.trace.gasUsed = receiptGas floor authRefund t) ∧
      intoTransactionTraces (setTransactionGasUsed s.arena (receiptGas floor authRefund t)) = .ok ts ∧
      (∀ tr g out, ts.head? = some tr → tr.result = some (.call g out) → g = receiptGas floor authRefund t) ∧
      (∀ tr g code a, ts.head? = some tr → tr.result = some (.create g code a) → g = receiptGas floor authRefund t) ∧
      gethCallTraces decode s.arena opts (receiptGas floor authRefund t) = .ok fr ∧
      fr.gasUsed = receiptGas floor authRefund t := by
  generalize receiptGas floor authRefund t = R
  obtain ⟨s, ts, hr, hts, -, -, htr, -⟩ := C52_parity cfg t hwf hsafe R
  obtain ⟨s', root, hr', h0, har, htx⟩ := run_traces cfg t hwf hsafe
  obtain rfl := Except.ok.inj (hr.symm.trans hr')
  obtain rfl := Except.ok.inj (hts.symm.trans htx)
  have htree : ∀ w e, (callFrameTree decode cfg w w e R t).gasUsed = R := fun _ _ => rfl
  have hfr : ∃ fr, gethCallTraces decode s.arena opts R = .ok fr ∧ fr.gasUsed = R := by
    cases ho : opts.onlyTopCall.getD false with
    | false => exact ⟨_, by rw [har]; exact gethCallTraces_run decode cfg t opts R ho, htree _ _⟩
    | true =>
      refine ⟨{ leaf decode cfg (opts.withLog.getD false) (rootOf t) with
          gasUsed := R, calls := sdFrame (rootOf t) }, ?_, rfl⟩
      rw [har, show frames t = rootOf t :: (frames t).tail from rfl, List.map_cons]
      simp only [gethCallTraces, ho, if_true, rootFrame_eq]
  obtain ⟨fr, hfr, hg⟩ := hfr
  refine ⟨s, _, fr, hr, ⟨_, (C52_inspector s R).1 root h0, rfl⟩, htr, ?_, ?_, hfr, hg⟩
  · intro tr g out h0 h
    cases hl : txTraces cfg root.trace.gasUsed t with
    | nil => rw [hl] at h0; simp [setRootTraceGasUsed] at h0
    | cons a l =>
      rw [hl] at h0
      simp only [setRootTraceGasUsed, List.head?_cons, Option.some.injEq] at h0
      subst h0
      cases hres : a.result with
      | none => rw [hres] at h; simp at h
      | some o => rw [hres] at h; cases o <;> simp [TraceOutput.setGasUsed] at h; exact h.1.symm
  · intro tr g code ad h0 h
    cases hl : txTraces cfg root.trace.gasUsed t with
    | nil => rw [hl] at h0; simp [setRootTraceGasUsed] at h0
    | cons a l =>
      rw [hl] at h0
      simp only [setRootTraceGasUsed, List.head?_cons, Option.some.injEq] at h0
      subst h0
      cases hres : a.result with
      | none => rw [hres] at h; simp at h
      | some o => rw [hres] at h; cases o <;> simp [TraceOutput.setGasUsed] at h; exact h.1.symm

end Verif.Props
