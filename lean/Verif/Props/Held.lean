import Verif.Spec.Held
import Verif.Props.StructLogs
/-! # C130: the storage shown in the struct logs is what the contract holds -/
namespace Verif.Props
open Spec

theorem madeChange_held {a : Instr} (hl : ∀ i' c', a.after = some (i', c') → StorageLaw a.before a.ctx i' c')
    {key v : U256} (h : madeChange a = some (key, v)) : (ctxAfter a).storage a.before.contract key = some v := by
  obtain ⟨i, c, after⟩ := a
  cases after with
  | none => simp [madeChange] at h
  | some p =>
    obtain ⟨i', c'⟩ := p
    have h55 : i.op = 0x55 := by
      simp only [madeChange] at h
      split at h <;> try cases h
      split at h <;> try cases h
      split at h
      · rename_i hc; exact hc.1
      · cases h
    obtain ⟨before, access, hb, hacc, hj⟩ := hl i' c' rfl (Or.inr h55)
    dsimp only at hb hj
    rcases hj with hj | ⟨_, k, w, rest, old, hst, _, hv, hj⟩
    · simp only [madeChange, hb, hj, List.drop_left] at h
      rcases hacc with rfl | rfl <;> simp [isChange] at h
    · simp only [madeChange, hb, hj, List.append_assoc, List.drop_left] at h
      simp [h55, hst, isChange] at h
      obtain ⟨rfl, rfl⟩ := h
      exact hv

theorem madeHistory_succ {t : Tx} {k : Nat} {e : FrameCtx × Instr} (h : (chron t)[k + 1]? = some e) :
    madeHistory t (k + 1) = (e.2.before.contract, madeChange e.2) :: madeHistory t k := by
  unfold madeHistory
  rw [List.take_add_one (i := k + 1), h]
  simp

theorem madeHistory_zero {t : Tx} {e : FrameCtx × Instr} (h : (chron t)[0]? = some e) :
    madeHistory t 0 = [(e.2.before.contract, madeChange e.2)] := by
  unfold madeHistory
  rw [List.take_add_one (i := 0), h]
  simp

/-- The value last written to a slot is what it holds, or was undone since then. -/
theorem latest_held {t : Tx} (hlaw : t.body.AllSteps StorageLaw) (hslot : ∀ e ∈ chron t, SlotLaw e.2)
    (x : Address) (key v : U256) : ∀ (k : Nat) (e : FrameCtx × Instr),
      (chron t)[k]? = some e → latestWrite x key (madeHistory t k) = some v →
      (ctxAfter e.2).storage x key = some v ∨
        ∃ i < k, latestWrite x key (madeHistory t i) = some v ∧ UndoneAfter t i x key v := by
  have own : ∀ e ∈ chron t, ∀ v', madeChange e.2 = some (key, v') →
      (ctxAfter e.2).storage e.2.before.contract key = some v' := fun e he v' h =>
    madeChange_held (fun i' c' ha => chronBody_all t.body hlaw _ _ e he i' c' ha) h
  intro k
  induction k with
  | zero =>
    intro e he h
    rw [madeHistory_zero he] at h
    unfold latestWrite at h
    split at h
    · rename_i hc
      cases hm : madeChange e.2 with
      | none => rw [hm] at h; cases h
      | some p =>
        obtain ⟨k', v'⟩ := p
        rw [hm] at h hc
        cases h
        have hk : k' = key := Option.some.inj hc.2
        subst hk
        rw [← hc.1]
        exact Or.inl (own e (List.mem_of_getElem? he) _ hm)
    · cases h
  | succ k ih =>
    intro e he h
    rw [madeHistory_succ he] at h
    unfold latestWrite at h
    split at h
    · rename_i hc
      cases hm : madeChange e.2 with
      | none => rw [hm] at h; cases h
      | some p =>
        obtain ⟨k', v'⟩ := p
        rw [hm] at h hc
        cases h
        have hk : k' = key := Option.some.inj hc.2
        subst hk
        rw [← hc.1]
        exact Or.inl (own e (List.mem_of_getElem? he) _ hm)
    · rename_i hc
      have hlt : k < (chron t).length := by
        have := (List.getElem?_eq_some_iff.1 he).1
        omega
      rcases ih _ (List.getElem?_eq_getElem hlt) h with h1 | ⟨i, hi, h1⟩
      · by_cases h2 : e.2.ctx.storage x key = some v
        · rcases hslot e (List.mem_of_getElem? he) x key v h2 with h3 | ⟨h3, v', h4⟩
          · exact Or.inl h3
          · exact absurd ⟨h3.symm, by rw [h4]; rfl⟩ hc
        · exact Or.inr ⟨k, Nat.lt_succ_self k, h, _, e, List.getElem?_eq_getElem hlt, he, h1, h2⟩
      · exact Or.inr ⟨i, Nat.lt_succ_of_lt hi, h1⟩

/-- **C130, what goes wrong.** If instructions change the storage as the EVM says, every slot shown in a struct log has
there the value the executing contract holds in it when the instruction is done, or this value was the one last
written to the slot and was undone before the instruction. -/
theorem C130_held_or_undone (cfg : Config) (t : Tx) (opts : GethOptions) (gas : Nat) (ret : Bytes)
    (hwf : t.WF) (hsafe : Safe cfg t.body) (hatt : Attached false t.body)
    (hsteps : cfg.recordSteps = true) (hfilter : cfg.recordOpcodesFilter = none)
    (hcalls : ∀ f ∈ frames t, Spec.excluded cfg f = false) (hdiff : cfg.recordStateDiff = true)
    (hlaw : t.body.AllSteps StorageLaw) (hclear : ∀ e ∈ chron t, Unambiguous e.2)
    (hslot : ∀ e ∈ chron t, SlotLaw e.2) :
    ∃ s out, TI.run cfg TI.new t.events = .ok s ∧ gethTraces s.arena gas ret opts = .ok out ∧
      out.structLogs.length = (chron t).length ∧
      ∀ (k : Nat) (f : FrameCtx) (a : Instr) (log : StructLog) (m : OMap U256 U256),
        (chron t)[k]? = some (f, a) → out.structLogs[k]? = some log → log.storage = some m →
        ∀ key value, (key, value) ∈ m → (ctxAfter a).storage a.before.contract key = some value ∨
          ∃ i < k, latestWrite a.before.contract key (madeHistory t i) = some value ∧
            UndoneAfter t i a.before.contract key value := by
  obtain ⟨s, out, hr, hg, hlen, h⟩ :=
    C18_storage_partial cfg t opts gas ret hwf hsafe hatt hsteps hfilter hcalls hdiff hlaw hclear
  refine ⟨s, out, hr, hg, hlen, fun k f a log m hk hlog hm key value hmem => ?_⟩
  obtain ⟨h1, h2⟩ := h k f a log hk hlog
  have hd : opts.disableStorage ≠ some true := fun hd => by rw [h1 (Or.inl hd)] at hm; cases hm
  have hc : madeChange a ≠ none := fun hc => by rw [h1 (Or.inr hc)] at hm; cases hm
  obtain ⟨m', hm', _, h3⟩ := h2 hd hc
  rw [hm] at hm'
  cases hm'
  exact latest_held hlaw hslot _ key value k (f, a) hk ((h3 key value).1 hmem)

/-- **C130** (partial: missing are executions in which something is undone, see the refutation, and the ambiguous
accesses of C18). If instructions change the storage as the EVM says and nothing is undone, every slot shown in a
struct log has there the value the executing contract holds in it when the instruction is done. -/
theorem C130_held_partial (cfg : Config) (t : Tx) (opts : GethOptions) (gas : Nat) (ret : Bytes)
    (hwf : t.WF) (hsafe : Safe cfg t.body) (hatt : Attached false t.body)
    (hsteps : cfg.recordSteps = true) (hfilter : cfg.recordOpcodesFilter = none)
    (hcalls : ∀ f ∈ frames t, Spec.excluded cfg f = false) (hdiff : cfg.recordStateDiff = true)
    (hlaw : t.body.AllSteps StorageLaw) (hclear : ∀ e ∈ chron t, Unambiguous e.2)
    (hslot : ∀ e ∈ chron t, SlotLaw e.2) (hun : NothingUndone t) :
    ∃ s out, TI.run cfg TI.new t.events = .ok s ∧ gethTraces s.arena gas ret opts = .ok out ∧
      out.structLogs.length = (chron t).length ∧
      ∀ (k : Nat) (f : FrameCtx) (a : Instr) (log : StructLog) (m : OMap U256 U256),
        (chron t)[k]? = some (f, a) → out.structLogs[k]? = some log → log.storage = some m →
        ∀ key value, (key, value) ∈ m → (ctxAfter a).storage a.before.contract key = some value := by
  obtain ⟨s, out, hr, hg, hlen, h⟩ :=
    C130_held_or_undone cfg t opts gas ret hwf hsafe hatt hsteps hfilter hcalls hdiff hlaw hclear hslot
  refine ⟨s, out, hr, hg, hlen, fun k f a log m hk hlog hm key value hmem => ?_⟩
  rcases h k f a log m hk hlog hm key value hmem with h | ⟨i, _, _, e, e', he, he', h1, h2⟩
  · exact h
  · exact absurd (hun i e e' he he' _ key value h1) h2

/-! ### Examples -/

/-- Contract 0xa calls 0xb, which stores 9 in its slot 5, where 7 was; then it calls 0xb again, which stores 1 in its
slot 6. `undone`: the first call is reverted. -/
def storesTwice (undone : Bool) : Tx where
  hdr := Example.callHdr .Call 0x99 0xa 0xa 0
  body :=
    .act (.step (Example.interp Op.CALL 0 100 .Continue) (cx [.other] 7 0)
        (Example.interp Op.CALL 1 90 .CallOrCreate) (cx [.other] 7 0))
      (.sub (Example.callHdr .Call 0xa 0xb 0xb 0)
        (.act (.step { Example.interp Op.SSTORE 0 80 .Continue with stack := [9, 5], contract := 0xb }
            (cx [.other] 7 0)
            { Example.interp Op.SSTORE 1 70 .Continue with stack := [], contract := 0xb }
            (cx ([.other] ++ [.other] ++ [.storageChanged 0xb 5 7]) 9 0)) .nil)
        (Example.out (if undone then .Revert else .Stop))
        (.act (.step (Example.interp Op.CALL 1 60 .Continue) (cx [.other] first 0)
            (Example.interp Op.CALL 2 50 .CallOrCreate) (cx [.other] first 0))
          (.sub (Example.callHdr .Call 0xa 0xb 0xb 0)
            (.act (.step { Example.interp Op.SSTORE 0 40 .Continue with stack := [1, 6], contract := 0xb }
                (cx [.other] first 0)
                { Example.interp Op.SSTORE 1 30 .Continue with stack := [], contract := 0xb }
                (cx ([.other] ++ [.other] ++ [.storageChanged 0xb 6 0]) first 1)) .nil)
            (Example.out .Stop) .nil)))
  out := Example.out .Stop
where
  cx (j : List JournalEntry) (v w : U256) : Ctx :=
    { Example.ctx with
      journal := [j]
      storage := fun a k => if a = 0xb ∧ k = 5 then some v else if a = 0xb ∧ k = 6 then some w else none }
  first : U256 := if undone then 7 else 9

theorem storesTwice_wf (undone : Bool) : (storesTwice undone).WF ∧ Attached false (storesTwice undone).body := by
  refine ⟨⟨fun _ => rfl, fun h => absurd h (by simp [storesTwice, Example.callHdr, Header.isPrecompile,
    Example.ctx]), ?_⟩, ?_⟩
  · exact ⟨fun _ => rfl, fun h => absurd h (by decide), trivial,
      fun _ => rfl, fun h => absurd h (by decide), trivial, trivial⟩
  · simp [Attached, storesTwice, isCallStep, entersFrame, Example.interp, Op.CALL, Op.SSTORE]

theorem storesTwice_law (undone : Bool) : (storesTwice undone).body.AllSteps StorageLaw := by
  refine ⟨fun h => ?_, ⟨fun _ => ?_, trivial⟩, fun h => ?_, ⟨fun _ => ?_, trivial⟩, trivial⟩
  · rcases h with h | h <;> exact absurd h (by decide)
  · exact ⟨[.other], [.other], rfl, Or.inr rfl, Or.inr ⟨rfl, 5, 9, [], 7, rfl, by decide, by decide, rfl⟩⟩
  · rcases h with h | h <;> exact absurd h (by decide)
  · exact ⟨[.other], [.other], rfl, Or.inr rfl,
      Or.inr ⟨rfl, 6, 1, [], 0, rfl, by decide, by cases undone <;> decide, rfl⟩⟩

theorem storesTwice_safe (undone : Bool) : Safe Config.defaultGeth (storesTwice undone).body := by
  refine ⟨⟨fun _ h => ?_, fun _ => ?_⟩, ⟨⟨fun _ h => ?_, fun _ => ?_⟩, trivial⟩,
    ⟨fun _ h => ?_, fun _ => ?_⟩, ⟨⟨fun _ h => ?_, fun _ => ?_⟩, trivial⟩, trivial⟩
  · simp [Config.defaultGeth, StackSnapshotType.isPushes] at h
  · exact ⟨_, rfl, fun a k v hm => by simp at hm⟩
  · simp [Config.defaultGeth, StackSnapshotType.isPushes] at h
  · refine ⟨_, rfl, fun a k v hm => ?_⟩
    simp at hm
    obtain ⟨rfl, rfl, rfl⟩ := hm
    decide
  · simp [Config.defaultGeth, StackSnapshotType.isPushes] at h
  · exact ⟨_, rfl, fun a k v hm => by simp at hm⟩
  · simp [Config.defaultGeth, StackSnapshotType.isPushes] at h
  · refine ⟨_, rfl, fun a k v hm => ?_⟩
    simp at hm
    obtain ⟨rfl, rfl, rfl⟩ := hm
    cases undone <;> decide

theorem storesTwice_chron {undone : Bool} {e : FrameCtx × Instr} (he : e ∈ chron (storesTwice undone)) :
    Unambiguous e.2 ∧ SlotLaw e.2 := by
  have own : ∀ i' c' (b : List JournalEntry) (l : List JournalEntry) (i : Interp) (c : Ctx) (p : Interp × Ctx),
      c.journal = [[.other]] → p.2.journal = [[.other] ++ [.other] ++ l] →
      (⟨i, c, some p⟩ : Instr).after = some (i', c') → c.journal.getLast? = some b → c'.journal.getLast? = some b →
      False := by
    intro i' c' b l i c p h1 h2 h3 h4 h5
    cases h3
    rw [h1] at h4
    rw [h2] at h5
    cases h4
    exact absurd (Option.some.inj h5) (by simp)
  have hcall : ¬ (Op.CALL = (0x54 : OpCode) ∨ Op.CALL = (0x55 : OpCode)) := by decide
  simp only [chron, chronBody, storesTwice, List.cons_append, List.nil_append,
    List.mem_cons, List.not_mem_nil, or_false] at he
  rcases he with rfl | rfl | rfl | rfl
  · exact ⟨fun _ _ _ _ h => (hcall h).elim, fun _ _ _ h => Or.inl h⟩
  · refine ⟨fun i' c' b h1 _ h2 h3 => (own i' c' b _ _ _ _ rfl rfl h1 h2 h3).elim, fun x key v h => ?_⟩
    by_cases hx : x = 0xb ∧ key = 5
    · obtain ⟨rfl, rfl⟩ := hx
      exact Or.inr ⟨rfl, 9, rfl⟩
    · refine Or.inl ?_
      simpa only [ctxAfter, storesTwice.cx, if_neg hx] using h
  · exact ⟨fun _ _ _ _ h => (hcall h).elim, fun _ _ _ h => Or.inl h⟩
  · refine ⟨fun i' c' b h1 _ h2 h3 => (own i' c' b _ _ _ _ rfl rfl h1 h2 h3).elim, fun x key v h => ?_⟩
    by_cases hx : x = 0xb ∧ key = 6
    · obtain ⟨rfl, rfl⟩ := hx
      exact Or.inr ⟨rfl, 1, rfl⟩
    · refine Or.inl ?_
      simpa only [ctxAfter, storesTwice.cx, if_neg hx] using h

/-- If the first call is not reverted, the hypotheses of the theorem are met. -/
example : (storesTwice false).WF ∧ Safe Config.defaultGeth (storesTwice false).body ∧
    Attached false (storesTwice false).body ∧ Config.defaultGeth.recordSteps = true ∧
    Config.defaultGeth.recordOpcodesFilter = none ∧ Config.defaultGeth.recordStateDiff = true ∧
    (∀ f ∈ frames (storesTwice false), Spec.excluded Config.defaultGeth f = false) ∧
    (storesTwice false).body.AllSteps StorageLaw ∧ (∀ e ∈ chron (storesTwice false), Unambiguous e.2) ∧
    (∀ e ∈ chron (storesTwice false), SlotLaw e.2) ∧ NothingUndone (storesTwice false) ∧
    ∃ s out, TI.run Config.defaultGeth TI.new (storesTwice false).events = .ok s ∧
      gethTraces s.arena 0 [] {} = .ok out ∧
      out.structLogs.map (·.storage) = [none, some [(5, 9)], none, some [(5, 9), (6, 1)]] := by
  refine ⟨(storesTwice_wf false).1, storesTwice_safe false, (storesTwice_wf false).2, rfl, rfl, rfl, by decide,
    storesTwice_law false, fun e he => (storesTwice_chron he).1, fun e he => (storesTwice_chron he).2, ?_,
    _, _, rfl, rfl, by decide⟩
  intro k e e' h h' x key v hv
  match k, h, h' with
  | 0, h, h' => cases h; cases h'; exact hv
  | 1, h, h' => cases h; cases h'; exact hv
  | 2, h, h' => cases h; cases h'; exact hv
  | k + 3, h, h' => cases h'

/-- **C130, refuted.** If the first call is reverted, the second one shows the reverted value 9 of slot 5, which
holds 7. All other hypotheses of the theorem are met. -/
theorem C130_refuted :
    (storesTwice true).WF ∧ Safe Config.defaultGeth (storesTwice true).body ∧
    Attached false (storesTwice true).body ∧
    (∀ f ∈ frames (storesTwice true), Spec.excluded Config.defaultGeth f = false) ∧
    (storesTwice true).body.AllSteps StorageLaw ∧ (∀ e ∈ chron (storesTwice true), Unambiguous e.2) ∧
    (∀ e ∈ chron (storesTwice true), SlotLaw e.2) ∧
    (frames (storesTwice true)).map (·.out.result.result) = [.Stop, .Revert, .Stop] ∧
    (chron (storesTwice true)).map (fun e => (e.2.before.contract, (ctxAfter e.2).storage 0xb 5)) =
      [(0xa, some 7), (0xb, some 9), (0xa, some 7), (0xb, some 7)] ∧
    ∃ s out, TI.run Config.defaultGeth TI.new (storesTwice true).events = .ok s ∧
      gethTraces s.arena 0 [] {} = .ok out ∧
      out.structLogs.map (·.storage) = [none, some [(5, 9)], none, some [(5, 9), (6, 1)]] :=
  ⟨(storesTwice_wf true).1, storesTwice_safe true, (storesTwice_wf true).2, by decide, storesTwice_law true,
    fun e he => (storesTwice_chron he).1, fun e he => (storesTwice_chron he).2, by decide, by decide,
    _, _, rfl, rfl, by decide⟩

end Verif.Props
