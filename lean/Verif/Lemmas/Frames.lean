import Verif.Lemmas.Refine
import Verif.Spec.Frames
/-! The recorded arena, frame by frame. -/
namespace Verif
namespace Rec

/-- The node recorded for a frame. -/
def nodeOf (cfg : Config) (f : Spec.FrameCtx) : Node :=
  leaveNode f.index f.depth f.hdr f.out
    (own cfg (f.depth + 1) (f.index + 1) f.body
      { parent := f.parent, idx := f.index, trace := enterTrace cfg f.parentValue f.depth f.hdr })

theorem enterTrace_value (cfg pv d h) :
    (enterTrace cfg pv d h).value = Spec.valueInScope pv h := by
  cases h with
  | create c inp => rfl
  | call c inp =>
    cases hs : inp.scheme <;> cases pv <;>
      simp [enterTrace, hs, Spec.valueInScope, Spec.isDelegateCall, Spec.ownValue]

theorem newNodes_eq_map (cfg : Config) (b : Body) : ∀ d p v n,
    newNodes cfg d p v n b = (Spec.subFrames d p v n b).map (nodeOf cfg) := by
  induction b with
  | nil => intros; rfl
  | act a rest ih => intros; simp [newNodes, Spec.subFrames, ih]
  | sub h b o rest ihb ihr =>
    intro d p v n
    simp only [newNodes, Spec.subFrames, List.map_cons, List.map_append, ihb, ihr,
      enterTrace_value]
    rfl

theorem txArena_eq_map (cfg : Config) (t : Tx) :
    txArena cfg t {} [] = (Spec.frames t).map (nodeOf cfg) := by
  simp only [txArena, Spec.frames, List.map_cons, newNodes_eq_map, enterTrace_value,
    List.length_nil, Nat.add_zero, List.nil_append]
  rfl

theorem run_frames (cfg : Config) (t : Tx) (hwf : t.WF) (hsafe : Safe cfg t.body) :
    ∃ s, TI.run cfg TI.new t.events = .ok s ∧ s.traceStack = [] ∧
      s.arena = (Spec.frames t).map (nodeOf cfg) ∧ s.specId = some (hdrSpec t.hdr) := by
  obtain ⟨s, h1, h2, h3, h4⟩ := run_tx cfg t hwf.2.2 hsafe
  exact ⟨s, h1, h2, by rw [h3, txArena_eq_map], h4⟩

/-! ### Facts about all frames of a transaction -/

theorem subFrames_length (b : Body) : ∀ d p v n, (Spec.subFrames d p v n b).length = b.size := by
  induction b with
  | nil => intros; rfl
  | act a rest ih => intros; simp [Spec.subFrames, Body.size, ih]
  | sub h b o rest ihb ihr => intros; simp [Spec.subFrames, Body.size, ihb, ihr]; omega

theorem subFrames_index (b : Body) : ∀ d p v n k f,
    (Spec.subFrames d p v n b)[k]? = some f → f.index = n + k := by
  induction b with
  | nil => intro d p v n k f h; simp [Spec.subFrames] at h
  | act a rest ih => intro d p v n k f h; exact ih d p v n k f h
  | sub h b o rest ihb ihr =>
    intro d p v n k f hk
    simp only [Spec.subFrames] at hk
    cases k with
    | zero => simp at hk; rw [← hk]; rfl
    | succ k =>
      rw [List.getElem?_cons_succ] at hk
      by_cases hlt : k < b.size
      · rw [List.getElem?_append_left (by rw [subFrames_length]; exact hlt)] at hk
        have := ihb _ _ _ _ _ _ hk; omega
      · rw [List.getElem?_append_right (by rw [subFrames_length]; omega), subFrames_length] at hk
        have := ihr _ _ _ _ _ _ hk; omega

theorem frames_index {t : Tx} {k : Nat} {f : Spec.FrameCtx} (h : (Spec.frames t)[k]? = some f) :
    f.index = k := by
  cases k with
  | zero => simp [Spec.frames] at h; rw [← h]
  | succ k =>
    simp only [Spec.frames, List.getElem?_cons_succ] at h
    have := subFrames_index _ _ _ _ _ _ _ h; omega

/-- The frames have well-formed headers and bodies. -/
theorem subFrames_wf (b : Body) (hwf : b.WF) : ∀ d p v n f, f ∈ Spec.subFrames d p v n b →
    f.hdr.WF ∧ f.body.WF ∧ (f.hdr.isPrecompile = true → f.body.hasSub = false) := by
  induction b with
  | nil => intro d p v n f h; simp [Spec.subFrames] at h
  | act a rest ih => intro d p v n f h; exact ih hwf d p v n f h
  | sub h b o rest ihb ihr =>
    intro d p v n f hf
    obtain ⟨h1, h2, h3, h4⟩ := hwf
    simp only [Spec.subFrames, List.mem_cons, List.mem_append] at hf
    rcases hf with rfl | hf | hf
    · exact ⟨h1, h3, h2⟩
    · exact ihb h3 _ _ _ _ _ hf
    · exact ihr h4 _ _ _ _ _ hf

theorem frames_wf {t : Tx} (hwf : t.WF) {f} (hf : f ∈ Spec.frames t) :
    f.hdr.WF ∧ f.body.WF ∧ (f.hdr.isPrecompile = true → f.body.hasSub = false) := by
  simp only [Spec.frames, List.mem_cons] at hf
  rcases hf with rfl | hf
  · exact ⟨hwf.1, hwf.2.2, hwf.2.1⟩
  · exact subFrames_wf _ hwf.2.2 _ _ _ _ _ hf

theorem subFrames_all {P : Interp → Ctx → Interp → Ctx → Prop} (b : Body) (hp : b.AllSteps P) :
    ∀ d p v n f, f ∈ Spec.subFrames d p v n b → f.body.AllSteps P := by
  induction b with
  | nil => intro d p v n f h; simp [Spec.subFrames] at h
  | act a rest ih =>
    intro d p v n f h
    refine ih ?_ d p v n f h
    cases a with
    | step i c i' c' => exact hp.2
    | _ => exact hp
  | sub h b o rest ihb ihr =>
    intro d p v n f hf
    simp only [Spec.subFrames, List.mem_cons, List.mem_append] at hf
    rcases hf with rfl | hf | hf
    · exact hp.1
    · exact ihb hp.1 _ _ _ _ _ hf
    · exact ihr hp.2 _ _ _ _ _ hf

theorem frames_all {P : Interp → Ctx → Interp → Ctx → Prop} {t : Tx} (hp : t.body.AllSteps P)
    {f} (hf : f ∈ Spec.frames t) : f.body.AllSteps P := by
  simp only [Spec.frames, List.mem_cons] at hf
  rcases hf with rfl | hf
  · exact hp
  · exact subFrames_all _ hp _ _ _ _ _ hf

/-- Index and parent of sub-frames. -/
theorem subFrames_parent (b : Body) : ∀ d p v n f, p < n → f ∈ Spec.subFrames d p v n b →
    ∃ q, f.parent = some q ∧ f.parentValue.isSome = true ∧ q < f.index ∧ n ≤ f.index := by
  induction b with
  | nil => intro d p v n f _ h; simp [Spec.subFrames] at h
  | act a rest ih => intro d p v n f hp h; exact ih d p v n f hp h
  | sub h b o rest ihb ihr =>
    intro d p v n f hp hf
    simp only [Spec.subFrames, List.mem_cons, List.mem_append] at hf
    rcases hf with rfl | hf | hf
    · exact ⟨p, rfl, rfl, hp, Nat.le_refl _⟩
    · obtain ⟨q, h1, h2, h3, h4⟩ := ihb _ _ _ _ _ (Nat.lt_succ_self n) hf
      exact ⟨q, h1, h2, h3, by omega⟩
    · obtain ⟨q, h1, h2, h3, h4⟩ := ihr _ _ _ _ _ (by omega) hf
      exact ⟨q, h1, h2, h3, by omega⟩

theorem frames_root_iff {t : Tx} {f} (hf : f ∈ Spec.frames t) :
    f.parent.isSome = f.parentValue.isSome ∧ (f.index = 0 ↔ f.parent = none) := by
  simp only [Spec.frames, List.mem_cons] at hf
  rcases hf with rfl | hf
  · exact ⟨rfl, by simp⟩
  · obtain ⟨q, h1, h2, h3, h4⟩ := subFrames_parent _ _ _ _ _ _ (Nat.lt_succ_self 0) hf
    rw [h1, h2]; exact ⟨rfl, by simp; omega⟩

/-! ### Effect of a body on the fields of its node -/

/-- The steps after a body, given the steps before. -/
def ownSteps (cfg : Config) (d : Nat) : Body → List CallTraceStep → List CallTraceStep
  | .nil, st => st
  | .act (.step i c i' c') rest, st =>
    ownSteps cfg d rest (if recorded cfg i then
      st ++ [finishStep cfg i' (c'.at d) (TI.newStep cfg i (c.at d) st.getLast?)] else st)
  | .act (.aborted i c) rest, st =>
    ownSteps cfg d rest (if recorded cfg i then st ++ [TI.newStep cfg i (c.at d) st.getLast?] else st)
  | .act _ rest, st => ownSteps cfg d rest st
  | .sub _ _ _ rest, st => ownSteps cfg d rest st

theorem own_steps (cfg : Config) (d : Nat) (b : Body) : ∀ n x,
    (own cfg d n b x).trace.steps = ownSteps cfg d b x.trace.steps := by
  induction b with
  | nil => intros; rfl
  | act a rest ih =>
    intro n x
    cases a <;> simp only [own, ownSteps, ih, actNode] <;> (try split) <;> rfl
  | sub h b o rest _ ih => intro n x; simp [own, ownSteps, ih]

/-- The trace after a body: only steps, address and selfdestruct data change. -/
theorem own_trace (cfg : Config) (d : Nat) (b : Body) : ∀ n x,
    (own cfg d n b x).trace = { x.trace with
      steps := ownSteps cfg d b x.trace.steps
      address := ((Spec.lastSelfdestruct b).map (·.1)).getD x.trace.address
      selfdestructRefundTarget :=
        ((Spec.lastSelfdestruct b).map (·.2.1)).or x.trace.selfdestructRefundTarget
      selfdestructTransferredValue :=
        ((Spec.lastSelfdestruct b).map (·.2.2)).or x.trace.selfdestructTransferredValue } := by
  induction b with
  | nil => intros; simp [own, ownSteps, Spec.lastSelfdestruct]
  | act a rest ih =>
    intro n x
    simp only [own, ih]
    cases a with
    | step i c i' c' =>
      simp only [actNode, ownSteps, Spec.lastSelfdestruct]
      split <;> simp [TI.pushStep]
    | aborted i c =>
      simp only [actNode, ownSteps, Spec.lastSelfdestruct]
      split <;> simp [TI.pushStep]
    | log c l =>
      simp only [actNode, ownSteps, Spec.lastSelfdestruct]
      split <;> simp [TI.logNode]
    | selfdestruct a t v =>
      simp only [actNode, ownSteps, Spec.lastSelfdestruct, TI.selfdestructNode]
      cases Spec.lastSelfdestruct rest <;> simp
  | sub h b o rest _ ih => intro n x; simp [own, ownSteps, ih, Spec.lastSelfdestruct]

theorem own_parent (cfg : Config) (d : Nat) (b : Body) : ∀ n x,
    (own cfg d n b x).parent = x.parent := by
  induction b with
  | nil => intros; rfl
  | act a rest ih => intro n x; simp [own, ih]
  | sub h b o rest _ ih => intro n x; simp [own, ih]

theorem own_idx (cfg : Config) (d : Nat) (b : Body) : ∀ n x,
    (own cfg d n b x).idx = x.idx := by
  induction b with
  | nil => intros; rfl
  | act a rest ih => intro n x; simp [own, ih]
  | sub h b o rest _ ih => intro n x; simp [own, ih]

/-- The logs a body records. -/
def ownLogs (cfg : Config) : Body → List CallLog
  | .nil => []
  | .act (.log _ l) rest => (if cfg.recordLogs then [CallLog.ofLog l] else []) ++ ownLogs cfg rest
  | .act _ rest => ownLogs cfg rest
  | .sub _ _ _ rest => ownLogs cfg rest

theorem own_logs (cfg : Config) (d : Nat) (b : Body) : ∀ n x,
    (own cfg d n b x).logs = x.logs ++ ownLogs cfg b := by
  induction b with
  | nil => intros; simp [own, ownLogs]
  | act a rest ih =>
    intro n x
    cases a <;> simp only [own, ownLogs, ih, actNode] <;> (try split) <;>
      simp [TI.pushStep, TI.logNode, TI.selfdestructNode]
  | sub h b o rest _ ih => intro n x; simp [own, ownLogs, ih]

theorem excluded_eq (cfg : Config) (n p d : Nat) (v : U256) (h : Header) (b : Body) (o : Outcome)
    (hwf : h.WF) : excluded (enterTrace cfg (some v) d h) =
      Spec.excluded cfg ⟨n, some p, d, some v, h, b, o⟩ := by
  cases h with
  | create c inp => simp [excluded, enterTrace, Spec.excluded, Header.isPrecompile]
  | call c inp =>
    simp only [Header.WF] at hwf
    cases hs : inp.scheme <;> cases hx : cfg.excludePrecompileCalls <;>
      simp [excluded, enterTrace, Spec.excluded, Header.isPrecompile, hs, hx,
        Spec.FrameCtx.value, Spec.valueInScope, Spec.isDelegateCall, Spec.ownValue] <;>
      simp_all <;> split <;> simp_all

/-- The children a body attaches. -/
def ownChildren (cfg : Config) (d p : Nat) (v : U256) : Nat → Body → List Nat
  | _, .nil => []
  | n, .act _ rest => ownChildren cfg d p v n rest
  | n, .sub h b o rest =>
    (if Spec.excluded cfg ⟨n, some p, d, some v, h, b, o⟩ then [] else [n]) ++
      ownChildren cfg d p v (n + 1 + b.size) rest

theorem own_children (cfg : Config) (d p : Nat) (b : Body) (hwf : b.WF) : ∀ n x,
    (own cfg d n b x).children = x.children ++ ownChildren cfg d p x.trace.value n b := by
  induction b with
  | nil => intros; simp [own, ownChildren]
  | act a rest ih => intro n x; simp [own, ownChildren, ih hwf]
  | sub h b o rest _ ih =>
    intro n x
    simp only [own, ownChildren, ih hwf.2.2.2, attachIf_trace]
    simp only [attachIf, excluded_eq cfg n p d _ h b o hwf.1]
    split <;> simp [Node.attach]

end Rec
end Verif
