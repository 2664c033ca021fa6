import Verif.Spec.Receipt
import Verif.Props.CallFrames
/-! C87: the logs of the call frames are the logs of the transaction. -/
namespace Verif.Props
open Spec

theorem shownLogs_eq (c : CallFrame) : shownLogs c = c.logs ++ logsBelow c.calls := by
  cases c; rw [shownLogs]

theorem logsBelow_append (a b : List CallFrame) : logsBelow (a ++ b) = logsBelow a ++ logsBelow b := by
  induction a with
  | nil => rw [List.nil_append, logsBelow, List.nil_append]
  | cons c cs ih => rw [List.cons_append, logsBelow, logsBelow, ih, List.append_assoc]

/-- Frames that stand for selfdestructs show no logs. -/
theorem logsBelow_sdFrame (f : FrameCtx) : logsBelow (sdFrame f) = [] := by
  rw [sdFrame]
  split
  · simp [logsBelow, shownLogs]
  · rw [logsBelow]

theorem logsBelow_sdUnder (t : Tx) (i : Nat) : logsBelow (sdUnder t i) = [] := by
  rw [sdUnder, logsBelow_append]
  have h1 : logsBelow (if i = 0 then sdFrame (rootOf t) else []) = [] := by
    split
    · exact logsBelow_sdFrame _
    · rw [logsBelow]
  rw [h1]
  cases (frames t)[i + 1]? with
  | none => rfl
  | some f => exact logsBelow_sdFrame f

theorem runsAs_executing (f : FrameCtx) (h : AddressesOK f) : runsAs f = executingAs f.hdr := by
  obtain ⟨ha1, ha2, ha3⟩ := h
  simp only [runsAs, frameData]
  cases hh : f.hdr with
  | call c inp =>
    rw [hh] at ha1 ha2 ha3
    cases hs : inp.scheme <;> simp only [kind, caller, hs, executingAs, createdAt, callee]
    all_goals
      cases hl' : lastSelfdestruct f.body with
      | none => rfl
      | some q => exact ha2 q.1 (by simp [hl'])
  | create c inp =>
    rw [hh] at ha1 ha2 ha3
    cases hs : inp.scheme <;> simp only [kind, hs, executingAs]
    all_goals
      cases hcr : createdAt (Header.create c inp) f.out with
      | some a => exact ha3 a hcr
      | none =>
        cases hl' : lastSelfdestruct f.body with
        | none => rfl
        | some q => exact ha2 q.1 (by simp [hl'])

/-- The logs of a frame whose logs are shown. -/
theorem leaf_logs (decode : RevertDecoder) (cfg : Config) (f : FrameCtx) (h : AddressesOK f)
    (hon : cfg.recordLogs = true) : (leaf decode cfg true f).logs = (emitted f.body).map asShown := by
  simp only [leaf, hon, Bool.and_self, if_true]
  apply List.map_congr_left
  intro l hl
  rw [asShown, runsAs_executing f h, h.1 l hl]

/-- Below a frame that failed no logs are shown. -/
theorem below_failed (decode : RevertDecoder) (cfg : Config) (extra : Nat → List CallFrame)
    (hex : ∀ i, logsBelow (extra i) = []) (w : Bool) (b : Body) :
    ∀ (d p : Nat) (v : U256) (n : Nat), logsBelow (callTree decode cfg w extra false d p v n b) = [] := by
  induction b with
  | nil => intros; rw [callTree, logsBelow]
  | act a rest ih => intro d p v n; rw [callTree]; exact ih d p v n
  | sub h b o rest ihb ihr =>
    intro d p v n
    rw [callTree, logsBelow, shownLogs_eq, ihr]
    simp only [Bool.false_and, Bool.and_false, List.append_nil]
    rw [logsBelow_append, ihb, hex]
    simp [leaf]

/-- The logs shown below a frame that succeeded, together with its own, are those that are kept; in their
order, if no frame emits logs after those of its sub-frames. -/
theorem below_kept (decode : RevertDecoder) (cfg : Config) (hon : cfg.recordLogs = true)
    (extra : Nat → List CallFrame) (hex : ∀ i, logsBelow (extra i) = []) (b : Body) :
    ∀ (d p : Nat) (v : U256) (n : Nat), (∀ f ∈ subFrames d p v n b, AddressesOK f) →
      ((emitted b).map asShown ++ logsBelow (callTree decode cfg true extra true d p v n b)).Perm
        ((keptLogs b).map asShown) ∧
      (LogsFirst b → (emitted b).map asShown ++ logsBelow (callTree decode cfg true extra true d p v n b) =
        (keptLogs b).map asShown) := by
  induction b with
  | nil =>
    intro d p v n _
    simp only [emitted, callTree, logsBelow, keptLogs, List.map_nil, List.append_nil]
    exact ⟨.refl _, fun _ => trivial⟩
  | act a rest ih =>
    intro d p v n ha
    have := ih d p v n ha
    cases a with
    | log c l =>
      simp only [emitted, callTree, keptLogs, List.map_cons, List.cons_append]
      exact ⟨this.1.cons _, fun h => by rw [this.2 h]⟩
    | step i c i' c' => exact this
    | aborted i c => exact this
    | selfdestruct x y z => exact this
  | sub h b o rest ihb ihr =>
    intro d p v n ha
    simp only [subFrames, List.mem_cons, List.mem_append] at ha
    have h0 := ha _ (.inl rfl)
    have hb := ihb (d + 1) n (valueInScope (some v) h) (n + 1) fun f hf => ha f (.inr (.inl hf))
    have hr := ihr d p v (n + 1 + b.size) fun f hf => ha f (.inr (.inr hf))
    rw [callTree, logsBelow, shownLogs_eq]
    simp only [emitted, keptLogs, LogsFirst]
    cases hok : o.result.result.isOk with
    | true =>
      simp only [Bool.and_self, if_true, true_and]
      rw [leaf_logs decode cfg _ h0 hon, logsBelow_append, hex, List.append_nil]
      constructor
      · refine List.Perm.trans ?_ (List.map_append ▸ (hb.1.append hr.1))
        exact List.perm_append_comm_assoc _ _ _
      · rintro ⟨l1, l2, l3⟩
        rw [hb.2 l1, List.map_append, ← hr.2 l2]
        by_cases hk : keptLogs b = []
        · rw [hk]; rfl
        · rw [l3 hk]; simp
    | false =>
      simp only [Bool.and_false, Bool.false_eq_true, if_false, false_and, false_implies, and_true, List.nil_append]
      rw [logsBelow_append, below_failed decode cfg extra hex, hex]
      have : (leaf decode cfg false ⟨n, some p, d, some v, h, b, o⟩).logs = [] := by simp [leaf]
      rw [this]
      simp only [List.append_nil, List.nil_append]
      exact ⟨hr.1, fun hl => hr.2 hl.2⟩

/-- **C87, exactly.** With `withLog` and log recording on: if the transaction succeeds, the logs of all call
frames are the logs of the receipt, each as often as it is there, with the same address, topics and data; and
in the order of the receipt, frames read before their calls, if no frame emits a log after a sub-frame that
left logs behind. If it fails there are no logs in the receipt, and the frames show those of the root. -/
theorem C87_exact (decode : RevertDecoder) (cfg : Config) (t : Tx) (hwf : t.WF) (hsafe : Safe cfg t.body)
    (opts : CallConfig) (honly : opts.onlyTopCall.getD false = false) (hlog : opts.withLog = some true)
    (hon : cfg.recordLogs = true) (gas : Nat) (haddr : ∀ f ∈ frames t, AddressesOK f) :
    ∃ s r, TI.run cfg TI.new t.events = .ok s ∧ gethCallTraces decode s.arena opts gas = .ok r ∧
      (t.out.result.result.isOk = true → (shownLogs r).Perm ((receiptLogs t).map asShown)) ∧
      (t.out.result.result.isOk = true → LogsFirst t.body → shownLogs r = (receiptLogs t).map asShown) ∧
      (t.out.result.result.isOk = false → receiptLogs t = [] ∧ shownLogs r = (emitted t.body).map asShown) := by
  obtain ⟨s, hr, h, _⟩ := C21_selfdestruct_placement_partial decode cfg t hwf hsafe opts honly gas
  rw [hlog] at h
  refine ⟨s, _, hr, h, ?_⟩
  have hroot := haddr _ (List.mem_cons_self ..)
  have hl := leaf_logs decode cfg (rootOf t) hroot hon
  have hshow : shownLogs (callFrameTree decode cfg true true (sdUnder t) gas t) = (emitted t.body).map asShown ++
      logsBelow (callTree decode cfg true (sdUnder t) t.out.result.result.isOk 1 0 (valueInScope none t.hdr) 1
        t.body) := by
    rw [shownLogs_eq]
    simp only [callFrameTree]
    rw [hl, logsBelow_append, logsBelow_sdUnder, List.append_nil]
    rfl
  simp only [Option.getD_some]
  rw [hshow]
  have hk := below_kept decode cfg hon (sdUnder t) (logsBelow_sdUnder t) t.body 1 0 (valueInScope none t.hdr) 1
    fun f hf => haddr f (List.mem_cons_of_mem _ hf)
  refine ⟨fun hok => ?_, fun hok hf => ?_, fun hok => ?_⟩
  · rw [hok, receiptLogs, if_pos hok]; exact hk.1
  · rw [hok, receiptLogs, if_pos hok]; exact hk.2 hf
  · rw [hok, receiptLogs, if_neg (by simp [hok]), below_failed _ _ _ (logsBelow_sdUnder t), List.append_nil]
    exact ⟨rfl, rfl⟩

/-- **C87, in part.** If the transaction succeeds, the logs of all call frames are those of the receipt. -/
theorem C87_logs_partial (decode : RevertDecoder) (cfg : Config) (t : Tx) (hwf : t.WF) (hsafe : Safe cfg t.body)
    (opts : CallConfig) (honly : opts.onlyTopCall.getD false = false) (hlog : opts.withLog = some true)
    (hon : cfg.recordLogs = true) (gas : Nat) (haddr : ∀ f ∈ frames t, AddressesOK f)
    (hok : t.out.result.result.isOk = true) :
    ∃ s r, TI.run cfg TI.new t.events = .ok s ∧ gethCallTraces decode s.arena opts gas = .ok r ∧
      (shownLogs r).Perm ((receiptLogs t).map asShown) := by
  obtain ⟨s, r, h1, h2, h3, _⟩ := C87_exact decode cfg t hwf hsafe opts honly hlog hon gas haddr
  exact ⟨s, r, h1, h2, h3 hok⟩

/-- A frame that logs, calls a contract that logs and reverts, calls one that logs and succeeds, and logs
again. -/
def logsAround : Tx where
  hdr := Example.callHdr .Call 0x99 0xa 0xa 11
  body := .act (.log Example.ctx ⟨0xa, [1], []⟩)
    (.sub (Example.callHdr .Call 0xa 0xb 0xb 6) (.act (.log Example.ctx ⟨0xb, [2], []⟩) .nil) (Example.out .Revert)
    (.sub (Example.callHdr .Call 0xa 0xb 0xb 6) (.act (.log Example.ctx ⟨0xb, [3], []⟩) .nil) (Example.out .Stop)
    (.act (.log Example.ctx ⟨0xa, [4], []⟩) .nil)))
  out := Example.out .Stop

theorem logsAround_ok : logsAround.WF ∧ (∀ cfg, Safe cfg logsAround.body) ∧
    (∀ f ∈ frames logsAround, AddressesOK f) ∧ logsAround.out.result.result.isOk = true ∧
    (receiptLogs logsAround).map (·.data.topics) = [[1], [3], [4]] := by
  refine ⟨?_, fun cfg => ⟨trivial, trivial, trivial⟩, ?_, rfl, by decide⟩
  · refine ⟨fun _ => rfl, fun h => absurd h (by decide), ?_⟩
    refine ⟨fun _ => rfl, fun h => absurd h (by decide), trivial, ?_⟩
    exact ⟨fun _ => rfl, fun h => absurd h (by decide), trivial, trivial⟩
  · intro f hf
    simp only [frames, logsAround, subFrames, List.mem_cons, List.not_mem_nil, or_false,
      List.append_nil, List.nil_append] at hf
    rcases hf with rfl | rfl | rfl <;> refine ⟨by decide, ?_, ?_⟩ <;>
      simp [lastSelfdestruct, createdAt, Example.callHdr]

/-- The same with the last log before the calls. -/
def logsBefore : Tx where
  hdr := Example.callHdr .Call 0x99 0xa 0xa 11
  body := .act (.log Example.ctx ⟨0xa, [1], []⟩) (.act (.log Example.ctx ⟨0xa, [4], []⟩)
    (.sub (Example.callHdr .Call 0xa 0xb 0xb 6) (.act (.log Example.ctx ⟨0xb, [2], []⟩) .nil) (Example.out .Revert)
    (.sub (Example.callHdr .Call 0xa 0xb 0xb 6) (.act (.log Example.ctx ⟨0xb, [3], []⟩) .nil) (Example.out .Stop)
    .nil)))
  out := Example.out .Stop

/-- The hypotheses of `C87_exact` hold of it, and its logs come first: they are shown in the order of the receipt. -/
example : logsBefore.WF ∧ (∀ cfg, Safe cfg logsBefore.body) ∧ (∀ f ∈ frames logsBefore, AddressesOK f) ∧
    LogsFirst logsBefore.body ∧ ¬ LogsFirst logsAround.body ∧
    logsBefore.out.result.result.isOk = true ∧ (receiptLogs logsBefore).map (·.data.topics) = [[1], [4], [3]] := by
  refine ⟨?_, fun cfg => ⟨trivial, trivial, trivial⟩, ?_, ?_, ?_, rfl, by decide⟩
  · refine ⟨fun _ => rfl, fun h => absurd h (by decide), ?_⟩
    refine ⟨fun _ => rfl, fun h => absurd h (by decide), trivial, ?_⟩
    exact ⟨fun _ => rfl, fun h => absurd h (by decide), trivial, trivial⟩
  · intro f hf
    simp only [frames, logsBefore, subFrames, List.mem_cons, List.not_mem_nil, or_false,
      List.append_nil, List.nil_append] at hf
    rcases hf with rfl | rfl | rfl <;> refine ⟨by decide, ?_, ?_⟩ <;>
      simp [lastSelfdestruct, createdAt, Example.callHdr]
  · exact ⟨trivial, ⟨trivial, trivial, fun _ => rfl⟩, fun _ => rfl⟩
  · intro h
    exact absurd (h.2.1.2.2 ⟨rfl, by decide⟩) (by decide)

/-- **C87 fails for the order:** two executions that emit the same logs in different orders have the same call
frames. -/
theorem C87_refuted_order : ∀ decode gas, ∃ s s' r, TI.run Config.all TI.new logsAround.events = .ok s ∧
    TI.run Config.all TI.new logsBefore.events = .ok s' ∧
    gethCallTraces decode s.arena { withLog := some true } gas = .ok r ∧
    gethCallTraces decode s'.arena { withLog := some true } gas = .ok r ∧
    (receiptLogs logsAround).map (·.data.topics) = [[1], [3], [4]] ∧
    (receiptLogs logsBefore).map (·.data.topics) = [[1], [4], [3]] := by
  intro decode gas
  obtain ⟨hwf, hsafe, _⟩ := logsAround_ok
  have hwf' : logsBefore.WF := by
    refine ⟨fun _ => rfl, fun h => absurd h (by decide), ?_⟩
    refine ⟨fun _ => rfl, fun h => absurd h (by decide), trivial, ?_⟩
    exact ⟨fun _ => rfl, fun h => absurd h (by decide), trivial, trivial⟩
  obtain ⟨s, hr, h, _⟩ := C21_selfdestruct_placement_partial decode Config.all logsAround hwf (hsafe _)
    { withLog := some true } rfl gas
  obtain ⟨s', hr', h', _⟩ := C21_selfdestruct_placement_partial decode Config.all logsBefore hwf'
    ⟨trivial, trivial, trivial⟩ { withLog := some true } rfl gas
  exact ⟨s, s', _, hr, hr', h, h', by decide, by decide⟩

end Verif.Props
