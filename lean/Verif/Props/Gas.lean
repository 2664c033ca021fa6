import Verif.Props.Arena
import Verif.Props.Vm
import Verif.Spec.Gas
/-! C90: the gas of frames in a recording adds up. -/
namespace Verif.Props
open Spec Rec

theorem sub_gas (cfg : Config) (t : Tx) (f : FrameCtx) (hm : f ∈ frames t) (hk : f.index ≠ 0) :
    (nodeOf cfg f).trace.gasLimit = gasLimit f.hdr ∧
      (nodeOf cfg f).trace.gasUsed = f.out.result.gas.limit - f.out.result.gas.remaining := by
  have hroot := frames_root_iff hm
  have hs : f.parentValue.isSome = true := by
    rw [← hroot.1]
    cases hp : f.parent with
    | none => exact absurd (hroot.2.2 hp) (by omega)
    | some q => rfl
  constructor
  · have : (nodeOf cfg f).trace.gasLimit = (enterTrace cfg f.parentValue f.depth f.hdr).gasLimit := by
      simp only [nodeOf, leaveNode, TI.fillTrace, own_trace]
      split <;> rfl
    rw [this]
    cases h : f.hdr <;> simp [enterTrace, gasLimit, hs]
  · simp only [nodeOf, leaveNode, TI.fillTrace, own_trace]
    rw [if_neg (by simpa using hk)]
    split <;> rfl

/-- **C90, each frame, exactly.** The gas limit less the gas used, as shown for a frame below the root, is
what its caller gets back if and only if the frame ended with a status that gives gas back, or without gas. -/
theorem C90_back_exact (cfg : Config) (t : Tx) (hwf : t.WF) (hsafe : Safe cfg t.body)
    (hlim : ∀ f ∈ frames t, LimitOK f) :
    ∃ s, TI.run cfg TI.new t.events = .ok s ∧ s.arena.length = (frames t).length ∧
      ∀ (k : Nat) (f : FrameCtx) (x : Node), k ≠ 0 → (frames t)[k]? = some f → s.arena[k]? = some x →
        (x.trace.gasLimit - x.trace.gasUsed = givenBack f.out ↔
          GivesBack f.out.result.result ∨ f.out.result.gas.remaining = 0) := by
  obtain ⟨s, hr, _, har, _⟩ := run_frames cfg t hwf hsafe
  refine ⟨s, hr, by rw [har, List.length_map], ?_⟩
  intro k f x hk hf hx
  rw [har, List.getElem?_map, hf] at hx
  simp only [Option.map_some, Option.some.injEq] at hx
  have hm := List.mem_of_getElem? hf
  obtain ⟨g1, g2⟩ := sub_gas cfg t f hm (by rw [frames_index hf]; exact hk)
  obtain ⟨l1, l2⟩ := hlim f hm
  rw [← hx, g1, g2, ← l1]
  unfold givenBack
  by_cases h : GivesBack f.out.result.result
  · simp only [h, if_true, true_or, iff_true]; omega
  · simp only [h, if_false, false_or]; omega

theorem shownBelow_sub (cfg : Config) (b : Body) : ∀ (d p : Nat) (v : U256) (n : Nat) (c : FrameCtx),
    c ∈ shownBelow cfg d p v n b → c ∈ subFrames d p v n b := by
  induction b with
  | nil => intro d p v n c h; cases h
  | act a rest ih => intro d p v n c h; exact ih d p v n c h
  | sub h b o rest _ ih =>
    intro d p v n c hc
    simp only [shownBelow, List.mem_append] at hc
    simp only [subFrames, List.mem_cons, List.mem_append]
    rcases hc with hc | hc
    · split at hc
      · cases hc
      · exact .inl (List.mem_singleton.mp hc)
    · exact .inr (.inr (ih _ _ _ _ _ hc))

theorem shownBelow_pos (cfg : Config) (b : Body) : ∀ (d p : Nat) (v : U256) (n : Nat) (c : FrameCtx),
    c ∈ shownBelow cfg d p v n b → n ≤ c.index := by
  intro d p v n c h
  obtain ⟨k, hk⟩ := List.mem_iff_getElem?.mp (shownBelow_sub cfg b d p v n c h)
  have := subFrames_index _ _ _ _ _ _ _ hk
  omega

/-- The account of the reader, with some gas too much, against the gas of the EVM. -/
theorem ledger_iff (cfg : Config) (A : List Node) (d p : Nat) (v : U256)
    (hrec : ∀ op, records cfg op = true) (hexc : cfg.excludePrecompileCalls = false) (b : Body) :
    ∀ (n g e x : Nat), GasFlow g b e →
      (∀ c ∈ shownBelow cfg d p v n b, ∃ y, A[c.index]? = some y ∧
        y.trace.gasLimit - y.trace.gasUsed = c.out.result.gas.remaining) →
      (GasAccount A (g + x) (bodyItems cfg d p v n b) e ↔
        x = 0 ∧ ∀ c ∈ shownBelow cfg d p v n b, GivesBack c.out.result.result ∨ c.out.result.gas.remaining = 0) := by
  induction b with
  | nil =>
    intro n g e x hf _
    simp only [GasFlow] at hf
    subst hf
    simp only [bodyItems, shownBelow, List.not_mem_nil, false_implies, implies_true, and_true]
    constructor
    · intro h
      generalize hq : e + x = q at h
      cases h
      omega
    · rintro rfl; exact .nil _
  | act a rest ih =>
    intro n g e x hf hA
    have hA' : ∀ c ∈ shownBelow cfg d p v n rest, ∃ y, A[c.index]? = some y ∧
        y.trace.gasLimit - y.trace.gasUsed = c.out.result.gas.remaining := hA
    cases a with
    | step i c i' c' =>
      obtain ⟨h1, h2, h3⟩ := hf
      simp only [bodyItems, hrec, if_true, List.cons_append, List.nil_append, shownBelow]
      constructor
      · intro h
        cases h with
        | step q1 q2 q3 =>
          simp only [stepView] at q1 q2 q3
          have hx : x = 0 := by omega
          subst hx
          refine ⟨rfl, ?_⟩
          have := (ih n i'.gas.remaining e 0 h3 hA').1 (by
            rw [show i'.gas.remaining + 0 = g + 0 - (i.gas.remaining - i'.gas.remaining) by omega]
            exact q3)
          exact this.2
      · rintro ⟨rfl, h⟩
        refine .step (by simpa [stepView] using h1) (by simp only [stepView]; omega) ?_
        have := (ih n i'.gas.remaining e 0 h3 hA').2 ⟨rfl, h⟩
        rw [show i'.gas.remaining + 0 = g + 0 - (i.gas.remaining - i'.gas.remaining) by omega] at this
        exact this
    | aborted i c =>
      obtain ⟨h1, h3⟩ := hf
      simp only [bodyItems, hrec, if_true, List.cons_append, List.nil_append, shownBelow]
      constructor
      · intro h
        cases h with
        | step q1 q2 q3 =>
          simp only [stepView] at q1 q2 q3
          exact (ih n g e x h3 hA').1 q3
      · rintro ⟨rfl, h⟩
        exact .step (by simpa [stepView] using h1) (Nat.zero_le _) ((ih n g e 0 h3 hA').2 ⟨rfl, h⟩)
    | log c l =>
      simp only [bodyItems, shownBelow]
      by_cases hl : cfg.recordLogs = true
      · simp only [hl, if_true, List.cons_append, List.nil_append]
        rw [← ih n g e x hf hA']
        constructor
        · intro h; cases h with | log q => exact q
        · exact .log
      · simp only [hl]
        exact ih n g e x hf hA'
    | selfdestruct a1 a2 a3 =>
      simp only [bodyItems, shownBelow, List.nil_append]
      exact ih n g e x hf hA'
  | sub h b o rest _ ih =>
    intro n g e x hf hA
    have he : ∀ f : FrameCtx, Spec.excluded cfg f = false := by intro f; simp [Spec.excluded, hexc]
    simp only [shownBelow, bodyItems, he, Bool.false_eq_true, if_false, List.cons_append, List.nil_append,
      List.mem_cons, forall_eq_or_imp] at hA ⊢
    obtain ⟨⟨y, hy, hy'⟩, hA'⟩ := hA
    have hcall : GasAccount A (g + x) (.call n :: bodyItems cfg d p v (n + 1 + b.size) rest) e ↔
        GasAccount A (g + x + o.result.gas.remaining) (bodyItems cfg d p v (n + 1 + b.size) rest) e := by
      constructor
      · intro h
        cases h with
        | call q1 q2 =>
          rw [hy] at q1
          obtain rfl := Option.some.inj q1
          rw [hy'] at q2
          exact q2
      · intro h
        refine .call hy ?_
        rw [hy']
        exact h
    rw [hcall]
    simp only [GasFlow] at hf
    by_cases hb : GivesBack o.result.result
    · have := ih (n + 1 + b.size) _ e x hf hA'
      rw [givenBack, if_pos hb, Nat.add_right_comm] at this
      rw [this]
      simp only [hb, true_or, true_and]
    · have := ih (n + 1 + b.size) _ e (x + o.result.gas.remaining) hf hA'
      rw [givenBack, if_neg hb, Nat.add_zero, ← Nat.add_assoc] at this
      rw [this]
      simp only [hb, false_or, Nat.add_eq_zero_iff, and_assoc]

/-- **C90, exactly.** With all instructions recorded and no call left out: for every frame below the root
that runs code, the account kept while reading its record (each step shows the gas that is there, and takes
its cost; each call gives back its limit less what it used) starts with the frame's gas limit and ends with
the limit less the gas used (plus the deposit of a creation) if and only if every frame it called ended with
a status that gives gas back, or without gas. -/
theorem C90_exact (cfg : Config) (t : Tx) (hwf : t.WF) (hsafe : Safe cfg t.body)
    (hlim : ∀ f ∈ frames t, LimitOK f) (hrec : ∀ op, records cfg op = true)
    (hexc : cfg.excludePrecompileCalls = false) :
    ∃ s, TI.run cfg TI.new t.events = .ok s ∧ s.arena.length = (frames t).length ∧
      ∀ (k deposit : Nat) (f : FrameCtx) (x : Node), k ≠ 0 → (frames t)[k]? = some f →
        s.arena[k]? = some x → Runs f deposit →
        ∃ its, x.ordering.map (resolve x) = its.map some ∧
          (GasAccount s.arena x.trace.gasLimit its (x.trace.gasLimit - x.trace.gasUsed + deposit) ↔
            ∀ c ∈ shownCalls cfg f, GivesBack c.out.result.result ∨ c.out.result.gas.remaining = 0) := by
  obtain ⟨s, hr, hlen, hord⟩ := C05_ordering_is_execution_order cfg t hwf hsafe
  obtain ⟨s', hr', _, har, _⟩ := run_frames cfg t hwf hsafe
  rw [hr] at hr'
  obtain rfl := Except.ok.inj hr'
  refine ⟨s, hr, hlen, ?_⟩
  intro k deposit f x hk hf hx hruns
  refine ⟨items cfg f, (hord k f x hf hx).1, ?_⟩
  have hxe := hx
  rw [har, List.getElem?_map, hf] at hxe
  simp only [Option.map_some, Option.some.injEq] at hxe
  have hm := List.mem_of_getElem? hf
  obtain ⟨g1, g2⟩ := sub_gas cfg t f hm (by rw [frames_index hf]; exact hk)
  obtain ⟨l1, l2⟩ := hlim f hm
  rw [← hxe, g1, g2]
  have hshown : ∀ c ∈ shownCalls cfg f, ∃ y, s.arena[c.index]? = some y ∧
      y.trace.gasLimit - y.trace.gasUsed = c.out.result.gas.remaining := by
    intro c hc
    have hcm : c ∈ frames t := frames_trans t f hm c (shownBelow_sub cfg _ _ _ _ _ _ hc)
    have hc0 : c.index ≠ 0 := by
      have := shownBelow_pos cfg _ _ _ _ _ _ hc
      omega
    obtain ⟨j, hj⟩ := List.mem_iff_getElem?.mp hcm
    have hji := frames_index hj
    refine ⟨nodeOf cfg c, ?_, ?_⟩
    · rw [har, List.getElem?_map, hji, hj]; rfl
    · obtain ⟨q1, q2⟩ := sub_gas cfg t c hcm hc0
      obtain ⟨m1, m2⟩ := hlim c hcm
      rw [q1, q2, ← m1]
      omega
  have := ledger_iff cfg s.arena (f.depth + 1) f.index f.value hrec hexc f.body (f.index + 1)
    (gasLimit f.hdr) _ 0 hruns hshown
  rw [Nat.add_zero] at this
  rw [← l1, show f.out.result.gas.limit - (f.out.result.gas.limit - f.out.result.gas.remaining) =
    f.out.result.gas.remaining by omega, l1]
  exact this.trans (by simp only [true_and]; exact Iff.rfl)

/-- **C90, in part:** the account is right for every frame that calls only frames that end with a status that
gives gas back, or without gas. Missing: calls of frames that fail with gas left, see `C90_refuted`. -/
theorem C90_ledger_partial (cfg : Config) (t : Tx) (hwf : t.WF) (hsafe : Safe cfg t.body)
    (hlim : ∀ f ∈ frames t, LimitOK f) (hrec : ∀ op, records cfg op = true)
    (hexc : cfg.excludePrecompileCalls = false) :
    ∃ s, TI.run cfg TI.new t.events = .ok s ∧ s.arena.length = (frames t).length ∧
      ∀ (k deposit : Nat) (f : FrameCtx) (x : Node), k ≠ 0 → (frames t)[k]? = some f →
        s.arena[k]? = some x → Runs f deposit →
        (∀ c ∈ shownCalls cfg f, GivesBack c.out.result.result ∨ c.out.result.gas.remaining = 0) →
        ∃ its, x.ordering.map (resolve x) = its.map some ∧
          GasAccount s.arena x.trace.gasLimit its (x.trace.gasLimit - x.trace.gasUsed + deposit) := by
  obtain ⟨s, hr, hl, h⟩ := C90_exact cfg t hwf hsafe hlim hrec hexc
  refine ⟨s, hr, hl, ?_⟩
  intro k deposit f x hk hf hx hruns hc
  obtain ⟨its, h1, h2⟩ := h k deposit f x hk hf hx hruns
  exact ⟨its, h1, h2.2 hc⟩

/-! ### Examples -/

/-- An instruction that leaves `g'` of `g` gas. -/
def gasStep (op : OpCode) (g g' : Nat) (r : InstructionResult := .Continue) : Act :=
  .step (Example.interp op 0 g .Continue) Example.ctx (Example.interp op 1 g' r) Example.ctx

/-- A call with the given gas. -/
def gasHdr (g : Nat) : Header :=
  .call Example.ctx { input := [], gasLimit := g, bytecodeAddress := 0xb, targetAddress := 0xb, caller := 0xa,
                      value := .transfer 0, scheme := .Call }

def gasOut (r : InstructionResult) (limit remaining : Nat) : Outcome where
  ctx := Example.ctx
  result := { result := r, output := [], gas := { limit := limit, remaining := remaining, refunded := 0 } }
  address := none

/-- A contract calls one that calls another, which ends with the given status and 492 of 500 units left; of
these `back` are given back. -/
def gasTx (r : InstructionResult) (back : Nat) : Tx where
  hdr := gasHdr 900
  body := .act (gasStep Op.CALL 900 190 .CallOrCreate)
    (.sub (gasHdr 700) (.act (gasStep Op.CALL 700 190 .CallOrCreate)
      (.sub (gasHdr 500) (.act (gasStep 0x56 500 492 r) .nil) (gasOut r 500 492)
        (.act (gasStep Op.STOP (190 + back) (190 + back) .Stop) .nil)))
      (gasOut .Stop 700 (190 + back))
      (.act (gasStep Op.STOP (380 + back) (380 + back) .Stop) .nil))
  out := gasOut .Stop 900 (380 + back)

theorem gasTx_wf (r : InstructionResult) (back : Nat) : (gasTx r back).WF := by
  refine ⟨fun _ => rfl, fun h => absurd h (by simp [gasTx, gasHdr, Header.isPrecompile, Example.ctx]), ?_⟩
  refine ⟨fun _ => rfl, fun h => absurd h (by simp [gasHdr, Header.isPrecompile, Example.ctx]), ?_, trivial⟩
  exact ⟨fun _ => rfl, fun h => absurd h (by simp [gasHdr, Header.isPrecompile, Example.ctx]), trivial, trivial⟩

theorem gasTx_safe (cfg : Config) (r : InstructionResult) (back : Nat) : Safe cfg (gasTx r back).body := by
  refine ⟨Example.stepSafe _ _ _ _ (by simp [Example.interp]; decide), ⟨Example.stepSafe _ _ _ _ (by simp [Example.interp]; decide),
    ⟨Example.stepSafe _ _ _ _ (by simp [Example.interp]; decide), trivial⟩, Example.stepSafe _ _ _ _ (by simp [Example.interp]; decide), trivial⟩,
    Example.stepSafe _ _ _ _ (by simp [Example.interp]; decide), trivial⟩

theorem gasTx_limits (r : InstructionResult) (back : Nat) (hb : back ≤ 492) :
    ∀ f ∈ frames (gasTx r back), LimitOK f := by
  intro f hf
  simp only [frames, gasTx, subFrames, List.mem_cons, List.not_mem_nil, or_false, List.nil_append,
    List.append_nil] at hf
  rcases hf with rfl | rfl | rfl <;> refine ⟨rfl, ?_⟩ <;> simp only [gasOut] <;> omega

/-- The gas of the middle frame is that of the EVM, whatever the inner frame ends with. -/
theorem gasTx_runs (r : InstructionResult) (back : Nat) (hb : back = if GivesBack r then 492 else 0) (f : FrameCtx)
    (hf : (frames (gasTx r back))[1]? = some f) : Runs f 0 := by
  simp only [frames, gasTx, subFrames, List.getElem?_cons_succ, List.getElem?_cons_zero, Option.some.injEq] at hf
  subst hf
  have hg : givenBack (gasOut r 500 492) = back := by
    rw [hb]
    by_cases h : GivesBack r <;> simp [givenBack, gasOut, h]
  refine ⟨rfl, (by decide : 190 ≤ 700), ?_⟩
  show GasFlow (190 + givenBack (gasOut r 500 492)) _ _
  rw [hg]
  exact ⟨rfl, Nat.le_refl _, rfl⟩

/-- The hypotheses are met when the inner contract returns or reverts. -/
example (r : InstructionResult) (hr : GivesBack r) : (gasTx r 492).WF ∧ Safe Config.all (gasTx r 492).body ∧
    (∀ f ∈ frames (gasTx r 492), LimitOK f) ∧ (∀ op, records Config.all op = true) ∧
    Config.all.excludePrecompileCalls = false ∧
    ∃ f, (frames (gasTx r 492))[1]? = some f ∧ Runs f 0 ∧ (shownCalls Config.all f).length = 1 ∧
      ∀ c ∈ shownCalls Config.all f, GivesBack c.out.result.result ∨ c.out.result.gas.remaining = 0 := by
  refine ⟨gasTx_wf _ _, gasTx_safe _ _ _, gasTx_limits _ _ (by omega), fun _ => rfl, rfl, _, rfl,
    gasTx_runs r 492 (by simp [hr]) _ rfl, rfl, ?_⟩
  intro c hc
  have : c.out.result.result = r := by
    simp [shownCalls, shownBelow, Spec.excluded, Config.all] at hc
    rw [hc]; rfl
  rw [this]
  exact .inl hr

/-- **C90 fails**: a called contract ends with an invalid jump. All of its 500 units of gas are gone for the
caller, but the frame is shown with eight units used; the caller's next step has 492 units less than the
account says. -/
theorem C90_refuted : ∃ (t : Tx) (s : TI) (f : FrameCtx) (x y : Node), t.WF ∧ Safe Config.all t.body ∧
    (∀ f ∈ frames t, LimitOK f) ∧ TI.run Config.all TI.new t.events = .ok s ∧ (frames t)[1]? = some f ∧ Runs f 0 ∧
    s.arena[1]? = some x ∧ s.arena[2]? = some y ∧ y.trace.status = .InvalidJump ∧ y.trace.gasLimit = 500 ∧
    y.trace.gasUsed = 8 ∧
    x.trace.steps.map (fun st => (st.gasRemaining, st.gasCost)) = [(700, 510), (190, 0)] ∧
    ∀ its, x.ordering.map (resolve x) = its.map some →
      ¬ GasAccount s.arena x.trace.gasLimit its (x.trace.gasLimit - x.trace.gasUsed) := by
  refine ⟨gasTx .InvalidJump 0, _, _, _, _, gasTx_wf _ _, gasTx_safe _ _ _, gasTx_limits _ _ (by omega), rfl, rfl,
    gasTx_runs _ _ (by decide) _ rfl, rfl, rfl, rfl, rfl, rfl, rfl, ?_⟩
  intro its hits hl
  obtain ⟨s, hr, _, h⟩ := C90_exact Config.all (gasTx .InvalidJump 0) (gasTx_wf _ _) (gasTx_safe _ _ _)
    (gasTx_limits _ _ (by omega)) (fun _ => rfl) rfl
  obtain rfl := Except.ok.inj (Eq.trans (Eq.symm hr) (rfl : _ = Except.ok _))
  obtain ⟨its', h1, h2⟩ := h 1 0 _ _ (by decide) rfl rfl (gasTx_runs _ _ (by decide) _ rfl)
  have : its = its' := by
    have := hits.symm.trans h1
    exact (List.map_inj_right (fun _ _ => Option.some.inj)).mp this
  subst this
  have := h2.1 hl _ (List.mem_of_getElem? (i := 0) rfl)
  exact absurd this (by decide)

end Verif.Props
