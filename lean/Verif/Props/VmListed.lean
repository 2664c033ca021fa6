import Verif.Spec.VmListed
import Verif.Props.VmEntries
import Verif.Props.VmExamples
/-!
# C95: a `vmTrace` lists every executed instruction, and each once
-/
namespace Verif.Props
open Spec Rec Parity Par VmExample

/-- Position, opcode and cost of a recorded step. -/
def stepKey (st : CallTraceStep) : Nat × OpCode × Nat := (st.pc, st.op, st.gasCost)

theorem handOut_entries (ss : List CallTraceStep) : ∀ q : List VmTrace,
    (vmEntriesAll (handOut ss q)).Perm (ss.map stepKey ++ (q.take (callSteps ss)).flatMap vmEntries) := by
  induction ss with
  | nil => intro q; simp [handOut, vmEntriesAll, callSteps]
  | cons st ss ih =>
    intro q
    rw [handOut]
    by_cases hc : entersFrame st.op = true
    · have hcs : callSteps (st :: ss) = callSteps ss + 1 := by simp [callSteps, hc]
      rw [if_pos hc, hcs]
      cases q with
      | nil =>
        rw [List.head?_nil, List.tail_nil, vmInstr, vmEntriesAll, List.take_nil, List.map_cons]
        have := ih []
        rw [List.take_nil] at this
        exact this.cons _
      | cons v q =>
        rw [List.head?_cons, List.tail_cons, vmInstr, vmEntriesAll, List.take_succ_cons, List.flatMap_cons,
          List.map_cons, List.cons_append, List.cons_append]
        refine List.Perm.cons _ ?_
        refine ((ih q).append_left _).trans ?_
        rw [← List.append_assoc, ← List.append_assoc]
        exact List.perm_append_comm.append_right _
    · have hcs : callSteps (st :: ss) = callSteps ss := by simp [callSteps, hc]
      rw [if_neg hc, hcs, vmInstr, vmEntriesAll, List.map_cons]
      exact (ih q).cons _

/-- The traces that have not been given away list all steps of the frames left so far. -/
theorem queue_entries {S : Nat → List CallTraceStep} {fs : List FrameCtx} {V : List VmTrace}
    (hl : V.length = fs.length) (h : TracesOf S fs V) : ∀ i, i ≤ fs.length →
    (((V.take i).drop (givenAway (callsOf S fs) i)).flatMap vmEntries).Perm
      ((fs.take i).flatMap (fun f => (S f.index).map stepKey)) := by
  intro i
  induction i with
  | zero => intro _; simp
  | succ i ih =>
    intro hi
    have ih := ih (by omega)
    have hf := List.getElem?_eq_getElem (l := fs) (i := i) (by omega)
    have hv := List.getElem?_eq_getElem (l := V) (i := i) (by omega)
    have hlen : (V.take i).length = i := by rw [List.length_take]; omega
    have hle : givenAway (callsOf S fs) (i + 1) ≤ i := Nat.min_le_left ..
    have hc : callsOf S fs i = callSteps (S fs[i].index) := by rw [callsOf, hf]
    have e1 : (V.take (i + 1)).drop (givenAway (callsOf S fs) (i + 1)) =
        ((V.take i).drop (givenAway (callsOf S fs) i)).drop (callsOf S fs i) ++ [V[i]] := by
      rw [List.take_add_one, hv, Option.toList_some, List.drop_append_of_le_length (by omega), List.drop_drop]
      congr 1
      rw [givenAway]
      rcases Nat.le_total (givenAway (callsOf S fs) i + callsOf S fs i) i with hm | hm
      · rw [Nat.min_eq_right hm]
      · rw [Nat.min_eq_left hm, List.drop_of_length_le (by omega), List.drop_of_length_le (by omega)]
    have e2 : vmEntries V[i] = vmEntriesAll (handOut (S fs[i].index)
        ((V.take i).drop (givenAway (callsOf S fs) i))) := by
      have := h i _ _ hf hv
      generalize V[i] = w at this ⊢
      rw [this, vmEntries]
    rw [e1, List.flatMap_append, List.flatMap_singleton, e2, List.take_add_one, hf, Option.toList_some,
      List.flatMap_append, List.flatMap_singleton]
    refine ((handOut_entries _ _).append_left _).trans ?_
    rw [← hc]
    generalize (V.take i).drop (givenAway (callsOf S fs) i) = q at ih ⊢
    refine (List.perm_append_comm).trans ?_
    rw [List.append_assoc, ← List.flatMap_append, List.take_append_drop]
    exact List.perm_append_comm.trans (ih.append_right _)

/-- How many traces are waiting after frames with the given numbers of calls have been left. -/
def waiting : Nat → List Nat → Nat
  | p, [] => p
  | p, c :: cs => waiting (p - c + 1) cs

theorem waiting_append (l l' : List Nat) : ∀ p, waiting p (l ++ l') = waiting (waiting p l) l' := by
  induction l with
  | nil => intro p; rfl
  | cons c l ih => intro p; exact ih _

theorem waiting_mono (l : List Nat) : ∀ p q, p ≤ q → waiting p l ≤ waiting q l := by
  induction l with
  | nil => intro p q h; exact h
  | cons c l ih => intro p q h; exact ih _ _ (by omega)

theorem givenAway_waiting (S : Nat → List CallTraceStep) (fs : List FrameCtx) : ∀ i, i ≤ fs.length →
    givenAway (callsOf S fs) i + waiting 0 ((fs.take i).map (fun f => callSteps (S f.index))) = i := by
  intro i
  induction i with
  | zero => intro _; rfl
  | succ i ih =>
    intro hi
    have ih := ih (by omega)
    have hf := List.getElem?_eq_getElem (l := fs) (i := i) (by omega)
    rw [List.take_add_one, hf, Option.toList_some, List.map_append, waiting_append, givenAway]
    simp only [List.map_cons, List.map_nil, waiting]
    have hc : callsOf S fs i = callSteps (S fs[i].index) := by rw [callsOf, hf]
    rw [hc]
    rcases Nat.le_total (givenAway (callsOf S fs) i + callSteps (S fs[i].index)) i with hm | hm
    · rw [Nat.min_eq_right hm]; omega
    · rw [Nat.min_eq_left hm]; omega

/-- The number of frames a frame enters. -/
def directSubs : Body → Nat
  | .nil => 0
  | .act _ rest => directSubs rest
  | .sub _ _ _ rest => directSubs rest + 1

theorem waiting_left (cfg : Config) (c : FrameCtx → Nat) (b : Body) : ∀ (d p : Nat) (v : U256) (n q : Nat),
    (∀ f ∈ subFrames d p v n b, directSubs f.body ≤ c f) →
    waiting q ((leftFrames cfg d p v n b).map c) ≤ q + directSubs b := by
  induction b with
  | nil => intro d p v n q _; exact Nat.le_refl _
  | act a rest ih => intro d p v n q h; exact ih d p v n q h
  | sub h b o rest ihb ihr =>
    intro d p v n q hf
    simp only [subFrames, List.mem_cons, List.mem_append] at hf
    rw [leftFrames, directSubs]
    split
    · exact Nat.le_trans (ihr d p v _ q (fun f hm => hf f (.inr (.inr hm)))) (by omega)
    · rw [List.map_append, waiting_append, List.map_cons, waiting]
      have h1 := ihb (d + 1) n (valueInScope (some v) h) (n + 1) q (fun f hm => hf f (.inr (.inl hm)))
      have h2 := hf _ (.inl rfl)
      refine Nat.le_trans (waiting_mono _ _ (q + 1) ?_) (Nat.le_trans
        (ihr d p v (n + 1 + b.size) (q + 1) (fun f hm => hf f (.inr (.inr hm)))) (by omega))
      simp only at h2
      omega

/-- Every frame has at least as many call instructions as it enters frames. -/
theorem attached_calls (cfg : Config) (hall : ∀ op, records cfg op = true) (b : Body) : ∀ pend,
    Attached pend b → directSubs b ≤
      ((instrs cfg b).filter (fun a => entersFrame a.before.op)).length + (if pend then 1 else 0) := by
  induction b with
  | nil => intro pend _; exact Nat.zero_le _
  | act a rest ih =>
    intro pend h
    have := ih _ h.2
    rw [directSubs]
    refine Nat.le_trans this (Nat.le_trans ?_ (Nat.le_add_right _ _))
    cases a with
    | step i c i' c' =>
      have e : isCallStep (.step i c i' c') = entersFrame i.op := rfl
      rw [e]
      simp only [instrs, hall, if_true, List.singleton_append, List.filter_cons]
      cases entersFrame i.op <;> simp
    | aborted i c =>
      have e : isCallStep (.aborted i c) = entersFrame i.op := rfl
      rw [e]
      simp only [instrs, hall, if_true, List.singleton_append, List.filter_cons]
      cases entersFrame i.op <;> simp
    | log c l => simp [isCallStep, instrs]
    | selfdestruct x y z => simp [isCallStep, instrs]
  | sub h b o rest _ ih =>
    intro pend hatt
    obtain ⟨h1, _, h3⟩ := hatt
    have := ih _ h3
    subst h1
    simp only [directSubs, instrs]
    simp at this ⊢
    omega

theorem stepsFor_calls (cfg : Config) (d : Nat) (l : List Instr) : ∀ prev,
    callSteps (stepsFor cfg d l prev) = (l.filter (fun a => entersFrame a.before.op)).length := by
  induction l with
  | nil => intro prev; rfl
  | cons a l ih =>
    intro prev
    have := ih (some (stepFor cfg d a prev))
    simp only [callSteps, entersFrame_eq] at this
    simp only [callSteps, stepsFor, List.filter_cons, (stepFor_op ..).1, entersFrame_eq]
    cases entersFrame a.before.op <;> simp [this, entersFrame_eq]

theorem stepsFor_keys {cfg : Config} (d : Nat) (l : List Instr)
    (hl : ∀ a ∈ l, records cfg a.before.op = true ∧
      ∀ i' c', a.after = some (i', c') → StepSafe cfg a.before a.ctx i' c') : ∀ prev,
    (stepsFor cfg d l prev).map stepKey = l.map costOf := by
  induction l with
  | nil => intro prev; rfl
  | cons a l ih =>
    intro prev
    simp only [stepsFor, List.map_cons]
    rw [ih (fun b hb => hl b (by simp [hb]))]
    congr 1
    obtain ⟨h1, h2⟩ := hl a (by simp)
    cases ha : a.after with
    | none => simp only [stepKey, costOf, stepFor, ha]; rfl
    | some r =>
      obtain ⟨i', c'⟩ := r
      have hss := h2 i' c' ha
      obtain ⟨sc, e1, _⟩ := finishStep_fields (cfg := cfg) (i' := i') (c' := c'.at d)
        (st := TI.newStep cfg a.before (a.ctx.at d) prev) (hss.1 h1) hss.2
      simp only [stepKey, costOf, stepFor, ha]
      rw [e1]
      rfl

/-- The instructions of the transaction are those of its frames. -/
theorem chronBody_perm (cfg : Config) (hall : ∀ op, records cfg op = true) (b : Body) :
    ∀ (f : FrameCtx) (n : Nat), ((chronBody f n b).map (·.2)).Perm
      (instrs cfg b ++ (subFrames (f.depth + 1) f.index f.value n b).flatMap (fun g => instrs cfg g.body)) := by
  induction b with
  | nil => intro f n; simp [chronBody, instrs, subFrames]
  | act a rest ih =>
    intro f n
    cases a with
    | step i c i' c' =>
      simp only [chronBody, instrs, hall, if_true, List.map_cons, List.singleton_append, List.cons_append]
      exact (ih f n).cons _
    | aborted i c =>
      simp only [chronBody, instrs, hall, if_true, List.map_cons, List.singleton_append, List.cons_append]
      exact (ih f n).cons _
    | log c l => exact ih f n
    | selfdestruct x y z => exact ih f n
  | sub h b o rest ihb ihr =>
    intro f n
    simp only [chronBody, instrs, subFrames, List.map_append, List.flatMap_cons, List.flatMap_append]
    refine ((ihb _ _).append (ihr f _)).trans ?_
    refine List.perm_append_comm.trans ?_
    rw [List.append_assoc]
    refine List.Perm.append_left _ ?_
    refine List.perm_append_comm.trans ?_
    rw [List.append_assoc]
    exact List.Perm.refl _

theorem firstOp_none (cfg : Config) (hall : ∀ op, records cfg op = true) (b : Body)
    (h : firstOp b = none) : instrs cfg b = [] := by
  have := head_stepsFor cfg hall 0 b none
  rw [h] at this
  cases hi : instrs cfg b with
  | nil => rfl
  | cons a l => rw [hi, stepsFor] at this; simp at this

theorem chron_perm (cfg : Config) (hall : ∀ op, records cfg op = true) (t : Tx) (hwf : t.WF)
    (hpre : PrecompilesRunNoCode t) : ((chron t).map (·.2)).Perm
      ((leftOrder cfg t).flatMap (fun f => instrs cfg f.body)) := by
  refine (chronBody_perm cfg hall t.body _ 1).trans ?_
  have h1 : (instrs cfg t.body ++ (subFrames 1 0 (rootOf t).value 1 t.body).flatMap (fun g => instrs cfg g.body)) =
      (frames t).flatMap (fun f => instrs cfg f.body) := by rw [frames, List.flatMap_cons]; rfl
  have h2 : (frames t).flatMap (fun f => instrs cfg f.body) =
      ((frames t).filter (fun f => !excluded cfg f)).flatMap (fun f => instrs cfg f.body) := by
    have key : ∀ l : List FrameCtx, (∀ f ∈ l, excluded cfg f = true → instrs cfg f.body = []) →
        l.flatMap (fun f => instrs cfg f.body) =
          (l.filter (fun f => !excluded cfg f)).flatMap (fun f => instrs cfg f.body) := by
      intro l
      induction l with
      | nil => intro _; rfl
      | cons f l ih =>
        intro h
        rw [List.flatMap_cons, List.filter_cons, ih (fun g hg => h g (by simp [hg]))]
        cases hx : excluded cfg f with
        | true => simp [h f (by simp) hx]
        | false => simp
    refine key _ (fun f hf hx => firstOp_none cfg hall _ (hpre f hf ?_))
    simp only [Spec.excluded, Bool.and_eq_true] at hx
    exact hx.1.2
  rw [show (rootOf t).value = (rootOf t).value from rfl] at h1
  refine (List.Perm.of_eq (h1.trans h2)).trans ?_
  rw [← (located_frames cfg t hwf).1]
  exact (leftOrder_perm cfg t).symm.flatMap_right _

theorem stopCase_iff (cfg : Config) (hall : ∀ op, records cfg op = true) (t : Tx) (hwf : t.WF) :
    StopCase cfg t (stepsAt ((frames t).map (nodeOf cfg))) ↔ StopStrikes cfg t := by
  have hd : ∀ f ∈ frames t, (stepsAt ((frames t).map (nodeOf cfg)) f.index).head?.map (·.op) = firstOp f.body := by
    intro f hf; rw [stepsAt_frame cfg t f hf]; exact head_stepsFor cfg hall _ _ _
  have hg : ∀ f ∈ frames t, (stepsAt ((frames t).map (nodeOf cfg)) f.index).getLast?.map (·.op) = lastOp f.body := by
    intro f hf; rw [stepsAt_frame cfg t f hf]; exact last_stepsFor cfg hall _ _ _
  have hloc : ∀ f, (∃ e ∈ located cfg t, e.2 = f) ↔ f ∈ frames t ∧ excluded cfg f = false := by
    intro f
    have := (located_frames cfg t hwf).1
    rw [← List.mem_map, this, List.mem_filter]
    simp
  have opt : ∀ (o : Option CallTraceStep), (∃ st, o = some st ∧ st.op = 0) ↔ o.map (·.op) = some 0 := by
    intro o; cases o <;> simp
  constructor
  · rintro ⟨⟨f, st, h1, h2⟩, e, he, st', h3⟩
    have hf : f ∈ frames t := List.mem_of_getLast? h1
    obtain ⟨g1, g2⟩ := (hloc e.2).1 ⟨e, he, rfl⟩
    exact ⟨⟨f, h1, (hg f hf).symm.trans ((opt _).1 ⟨st, h2⟩)⟩,
      e.2, g1, g2, (hd _ g1).symm.trans ((opt _).1 ⟨st', h3⟩)⟩
  · rintro ⟨⟨f, h1, h2⟩, g, g1, g2, g3⟩
    have hf : f ∈ frames t := List.mem_of_getLast? h1
    obtain ⟨st, h3⟩ := (opt _).2 ((hg f hf).trans h2)
    obtain ⟨e, he, rfl⟩ := (hloc g).2 ⟨g1, g2⟩
    obtain ⟨st', h4⟩ := (opt _).2 ((hd _ g1).trans g3)
    exact ⟨⟨f, st, h1, h3⟩, e, he, st', h4⟩

/-- **C95, exactly.** For every execution and every configuration that records all instructions: the entries of
the `vmTrace`, taken together, are the executed instructions, each exactly once, with position, opcode and
cost (in some order), if and only if the STOP special case does not strike. -/
theorem C95_exact (cfg : Config) (t : Tx) (hwf : t.WF) (hsafe : Safe cfg t.body)
    (hatt : Attached false t.body) (hpre : PrecompilesRunNoCode t) (hall : ∀ op, records cfg op = true) :
    ∃ s v, TI.run cfg TI.new t.events = .ok s ∧ vmTrace s.arena = .ok v ∧
      ((vmEntries v).Perm ((chron t).map (fun e => costOf e.2)) ↔ ¬ StopStrikes cfg t) ∧
      (StopStrikes cfg t → vmEntries v = []) := by
  obtain ⟨s, v, hr, hvm, hstop, h⟩ := C29_exact cfg t hwf hsafe
  obtain ⟨s', hr', _, ha, _⟩ := run_frames cfg t hwf hsafe
  obtain rfl : s = s' := by rw [hr] at hr'; simpa using hr'
  rw [ha, stopCase_iff cfg hall t hwf] at hstop h
  have hcp := (chron_perm cfg hall t hwf hpre).map costOf
  rw [List.map_map] at hcp
  refine ⟨s, v, hr, hvm, ⟨?_, ?_⟩, fun hs => by rw [hstop hs]; rfl⟩
  · intro hp hs
    rw [hstop hs, show vmEntries (.mk [] []) = [] from rfl] at hp
    obtain ⟨_, g, g1, g2, g3⟩ := hs
    have hnil : ((leftOrder cfg t).flatMap (fun f => instrs cfg f.body)).map costOf = [] :=
      (hp.trans hcp).symm.eq_nil
    rw [List.map_eq_nil_iff, List.flatMap_eq_nil_iff] at hnil
    have hm : g ∈ leftOrder cfg t := by
      rw [(leftOrder_perm cfg t).mem_iff, (located_frames cfg t hwf).1, List.mem_filter]
      exact ⟨g1, by simp [g2]⟩
    have := head_stepsFor cfg hall 0 g.body none
    rw [hnil g hm, g3] at this
    simp [stepsFor] at this
  · intro hn
    obtain ⟨V, hl, hlast, hV⟩ := h hn
    have hmem : ∀ f ∈ leftOrder cfg t, f ∈ frames t := by
      intro f hf
      rw [(leftOrder_perm cfg t).mem_iff, (located_frames cfg t hwf).1] at hf
      exact (List.mem_filter.1 hf).1
    have hq := queue_entries hl hV _ (Nat.le_refl _)
    have hg := givenAway_waiting (stepsAt ((frames t).map (nodeOf cfg))) (leftOrder cfg t) _ (Nat.le_refl _)
    have hcalls : ∀ f ∈ frames t, directSubs f.body ≤
        callSteps (stepsAt ((frames t).map (nodeOf cfg)) f.index) := by
      intro f hf
      rw [stepsAt_frame cfg t f hf, stepsFor_calls]
      have hat : Attached false f.body := by
        rcases List.mem_cons.1 hf with rfl | hf
        · exact hatt
        · exact attached_frames _ _ _ _ _ _ hatt f hf
      simpa using attached_calls cfg hall f.body false hat
    have hw : waiting 0 ((leftOrder cfg t).map
        (fun f => callSteps (stepsAt ((frames t).map (nodeOf cfg)) f.index))) = 1 := by
      rw [leftOrder, List.map_append, waiting_append]
      simp only [List.map_cons, List.map_nil, waiting]
      have h1 := waiting_left cfg (fun f => callSteps (stepsAt ((frames t).map (nodeOf cfg)) f.index))
        t.body 1 0 (valueInScope none t.hdr) 1 0 (fun f hf => hcalls f (List.mem_cons_of_mem _ hf))
      have h2 := hcalls (rootOf t) (List.mem_cons_self ..)
      have h3 : directSubs (rootOf t).body = directSubs t.body := rfl
      omega
    have hlen : 0 < (leftOrder cfg t).length := by simp [leftOrder]
    rw [List.take_length] at hq hg
    rw [hw] at hg
    have hdrop : (V.take (leftOrder cfg t).length).drop
        (givenAway (callsOf (stepsAt ((frames t).map (nodeOf cfg))) (leftOrder cfg t)) (leftOrder cfg t).length) =
        [v] := by
      rw [← hl, List.take_length]
      rw [← hl] at hg
      rw [List.getLast?_eq_getElem?] at hlast
      obtain ⟨hlt, hv⟩ := List.getElem?_eq_some_iff.1 hlast
      have : givenAway (callsOf (stepsAt ((frames t).map (nodeOf cfg))) (leftOrder cfg t)) V.length =
        V.length - 1 := by omega
      rw [this, List.drop_eq_getElem_cons hlt, hv, List.drop_of_length_le (by omega)]
    rw [hdrop, List.flatMap_singleton] at hq
    refine hq.trans (List.Perm.trans ?_ hcp.symm)
    rw [List.map_flatMap]
    refine List.Perm.of_eq ?_
    have congr' : ∀ (l : List FrameCtx) (F G : FrameCtx → List (Nat × OpCode × Nat)),
        (∀ f ∈ l, F f = G f) → l.flatMap F = l.flatMap G := by
      intro l F G h
      induction l with
      | nil => rfl
      | cons f l ih =>
        rw [List.flatMap_cons, List.flatMap_cons, h f (by simp), ih (fun g hg => h g (by simp [hg]))]
    refine congr' _ _ _ (fun f hf => ?_)
    rw [stepsAt_frame cfg t f (hmem f hf)]
    exact stepsFor_keys _ _ (instrs_safe cfg f.body (frames_all hsafe (hmem f hf))) _

/-- **C95 against the struct logs.** For every execution outside the STOP special case, the `vmTrace` of one
recording and the struct logs of another, made with any options, list the same instructions with the same
positions and costs. -/
theorem C95_struct_logs_partial (types : List TraceType) (hv : TraceType.VmTrace ∈ types) (t : Tx)
    (opts : GethOptions) (gas : Nat) (ret : Bytes) (hwf : t.WF)
    (hs1 : Safe (Config.fromParityConfig types) t.body) (hs2 : Safe (Config.fromGethConfig opts) t.body)
    (hatt : Attached false t.body) (hpre : PrecompilesRunNoCode t)
    (hn : ¬ StopStrikes (Config.fromParityConfig types) t) :
    ∃ s v s' out, TI.run (Config.fromParityConfig types) TI.new t.events = .ok s ∧
      vmTrace s.arena = .ok v ∧ TI.run (Config.fromGethConfig opts) TI.new t.events = .ok s' ∧
      gethTraces s'.arena gas ret opts = .ok out ∧
      (vmEntries v).Perm (out.structLogs.map (fun l => (l.pc, l.op, l.gasCost))) := by
  have hall : ∀ op, records (Config.fromParityConfig types) op = true := by
    intro op; rw [parity_config hv]; rfl
  obtain ⟨s, v, h1, h2, h3, _⟩ := C95_exact _ t hwf hs1 hatt hpre hall
  obtain ⟨s', out, g1, g2, _, _, _, g3⟩ := C16_chronological (Config.fromGethConfig opts) t opts gas ret hwf
    hs2 hatt rfl rfl (fun f _ => rfl)
  refine ⟨s, v, s', out, h1, h2, g1, g2, (h3.2 hn).trans (List.Perm.of_eq ?_)⟩
  have := congrArg (List.map (fun l : LogView => (l.pc, l.op, l.gasCost))) g3
  rw [List.map_map, List.map_map] at this
  rw [show (fun l : StructLog => (l.pc, l.op, l.gasCost)) =
    (fun l : LogView => (l.pc, l.op, l.gasCost)) ∘ readLog from rfl, this]
  congr 1
  funext e
  simp only [Function.comp, expectedLog, costOf]
  cases e.2.after <;> rfl

theorem nextVm_none {S : Nat → List CallTraceStep} {code : Nat → Bytes} {n : Nat} {b : Body}
    (h : Attached false b) : nextVm S code n b = none := by
  cases b with
  | nil => rfl
  | act a rest => rfl
  | sub h b o rest => simp [Attached] at h

theorem vmOps_chron (cfg : Config) (hall : ∀ op, records cfg op = true) (S : Nat → List CallTraceStep)
    (code : Nat → Bytes) (b : Body) : ∀ (pend : Bool) (f : FrameCtx) (n : Nat) (ss : List CallTraceStep),
    Attached pend b → ss.map stepKey = (instrs cfg b).map costOf →
    (∀ g ∈ subFrames (f.depth + 1) f.index f.value n b, (S g.index).map stepKey = (instrs cfg g.body).map costOf) →
    ((nextVm S code n b).map vmEntries).getD [] ++ vmEntriesAll (vmOps S code n b ss) =
      (chronBody f n b).map (fun e => costOf e.2) := by
  induction b with
  | nil => intro pend f n ss _ _ _; simp [nextVm, vmOps, vmEntriesAll, chronBody]
  | act a rest ih =>
    intro pend f n ss hatt hss hS
    have instrCase : ∀ (x : Instr), isInstr a = true → instrs cfg (.act a rest) = x :: instrs cfg rest →
        chronBody f n (.act a rest) = (f, x) :: chronBody f n rest →
        ((nextVm S code n (.act a rest)).map vmEntries).getD [] ++ vmEntriesAll (vmOps S code n (.act a rest) ss) =
          (chronBody f n (.act a rest)).map (fun e => costOf e.2) := by
      intro x hi e1 e2
      rw [e1, List.map_cons] at hss
      cases ss with
      | nil => simp at hss
      | cons st ss =>
        simp only [List.map_cons, List.cons.injEq] at hss
        have := ih _ f n ss hatt.2 hss.2 hS
        rw [e2, List.map_cons, ← this, vmOps, if_pos hi, nextVm]
        simp only [Option.map_none, Option.getD_none, List.nil_append, ← hss.1]
        cases nextVm S code n rest with
        | none => simp [vmInstr, vmEntriesAll, stepKey]
        | some v => simp [vmInstr, vmEntriesAll, stepKey]
    have otherCase : isInstr a = false → isCallStep a = false → instrs cfg (.act a rest) = instrs cfg rest →
        chronBody f n (.act a rest) = chronBody f n rest →
        ((nextVm S code n (.act a rest)).map vmEntries).getD [] ++ vmEntriesAll (vmOps S code n (.act a rest) ss) =
          (chronBody f n (.act a rest)).map (fun e => costOf e.2) := by
      intro hi hc e1 e2
      have hr := hatt.2
      rw [hc] at hr
      rw [e1] at hss
      have := ih _ f n ss hr hss hS
      rw [nextVm_none hr] at this
      rw [e2, ← this, nextVm, vmOps.eq_def]
      dsimp only
      rw [hi]
      rfl
    cases a with
    | step i c i' c' => exact instrCase ⟨i, c, some (i', c')⟩ rfl (by simp [instrs, hall]) rfl
    | aborted i c => exact instrCase ⟨i, c, none⟩ rfl (by simp [instrs, hall]) rfl
    | log c l => exact otherCase rfl rfl rfl rfl
    | selfdestruct x y z => exact otherCase rfl rfl rfl rfl
  | sub h b o rest ihb ihr =>
    intro pend f n ss hatt hss hS
    obtain ⟨_, h2, h3⟩ := hatt
    simp only [subFrames, List.mem_cons, List.mem_append] at hS
    have hb := ihb false ⟨n, some f.index, f.depth + 1, some f.value, h, b, o⟩ (n + 1) (S n) h2
      (hS _ (.inl rfl)) (fun g hg => hS g (.inr (.inl hg)))
    have hr := ihr false f (n + 1 + b.size) ss h3 hss (fun g hg => hS g (.inr (.inr hg)))
    rw [nextVm_none h2] at hb
    rw [nextVm_none h3] at hr
    rw [show vmOps S code n (.sub h b o rest) ss = vmOps S code (n + 1 + b.size) rest ss from rfl, nextVm,
      chronBody, List.map_append, ← hb, ← hr]
    simp [vmEntries]

/-- **C95, with the order** (partial: under `VmFriendly`, see C29): the entries read from the top are the
executed instructions in the order of execution. -/
theorem C95_order_partial (cfg : Config) (t : Tx) (hwf : t.WF) (hsafe : Safe cfg t.body)
    (hvm : VmFriendly cfg t) :
    ∃ s v, TI.run cfg TI.new t.events = .ok s ∧ vmTrace s.arena = .ok v ∧
      vmEntries v = (chron t).map (fun e => costOf e.2) := by
  obtain ⟨s, hr, hv⟩ := C29_vm_trace_partial cfg t hwf hsafe hvm
  refine ⟨s, _, hr, hv, ?_⟩
  obtain ⟨s', hr', _, ha, _⟩ := run_frames cfg t hwf hsafe
  obtain rfl : s = s' := by rw [hr] at hr'; simpa using hr'
  have hk : ∀ f ∈ frames t, (stepsAt s.arena f.index).map stepKey = (instrs cfg f.body).map costOf := by
    intro f hf
    rw [ha, stepsAt_frame cfg t f hf]
    exact stepsFor_keys _ _ (instrs_safe cfg f.body (frames_all hsafe hf)) _
  have := vmOps_chron cfg hvm.all (stepsAt s.arena) (fun _ => []) t.body false (rootOf t) 1
    (stepsAt s.arena 0) hvm.attached (hk _ (List.mem_cons_self ..))
    (fun g hg => hk g (List.mem_cons_of_mem _ hg))
  rw [nextVm_none hvm.attached] at this
  rw [vmTree, vmEntries]
  exact this

/-- **C95 does not hold.** Whenever the STOP special case strikes, no entry is listed at all, although
instructions were executed. -/
theorem C95_refuted (cfg : Config) (t : Tx) (hwf : t.WF) (hsafe : Safe cfg t.body)
    (hatt : Attached false t.body) (hpre : PrecompilesRunNoCode t) (hall : ∀ op, records cfg op = true)
    (hs : StopStrikes cfg t) :
    ∃ s v, TI.run cfg TI.new t.events = .ok s ∧ vmTrace s.arena = .ok v ∧ vmEntries v = [] ∧ chron t ≠ [] := by
  obtain ⟨s, v, h1, h2, h3, h4⟩ := C95_exact cfg t hwf hsafe hatt hpre hall
  refine ⟨s, v, h1, h2, h4 hs, fun hc => ?_⟩
  refine h3.1 ?_ hs
  rw [h4 hs, hc]
  exact List.Perm.refl _

/-- The hypotheses are met, by a transaction outside the STOP special case whose traces are wrongly nested
(C29) and by one in which it strikes. -/
example : ((tx2 flat nested).WF ∧ Safe Config.all (tx2 flat nested).body ∧ Attached false (tx2 flat nested).body ∧
      PrecompilesRunNoCode (tx2 flat nested) ∧ ¬ StopStrikes Config.all (tx2 flat nested) ∧
      (chron (tx2 flat nested)).length = 7) ∧
    Example.tx.WF ∧ Safe Config.all Example.tx.body ∧ Attached false Example.tx.body ∧
      PrecompilesRunNoCode Example.tx ∧ StopStrikes Config.all Example.tx := by
  refine ⟨⟨wf21, safe21 _, attached _ _ attached_flat attached_nested, ?_, ?_, by decide⟩, Example.wf,
    Example.safe _, example_attached, ?_, ?_⟩
  · unfold PrecompilesRunNoCode; decide
  · unfold StopStrikes; decide
  · unfold PrecompilesRunNoCode; decide
  · exact ⟨⟨_, rfl, by decide⟩, by decide⟩

end Verif.Props
