import Verif.Lemmas.VmTree
/-! Lemmas about `populate_vm_trace_bytecodes`. -/
namespace Verif.Par
open Spec Rec Parity

mutual
/-- The trace without codes. -/
def skel : VmTrace → VmTrace
  | .mk _ ops => .mk [] (skelOps ops)
/-- The operations without codes. -/
def skelOps : List VmInstruction → List VmInstruction
  | [] => []
  | op :: ops => skelOp op :: skelOps ops
/-- The operation without codes. -/
def skelOp : VmInstruction → VmInstruction
  | .mk pc cost ex none op => .mk pc cost ex none op
  | .mk pc cost ex (some v) op => .mk pc cost ex (some (skel v)) op
end

theorem skelOps_map (ops : List VmInstruction) : skelOps ops = ops.map skelOp := by
  induction ops with
  | nil => rfl
  | cons op ops ih => simp [skelOps, ih]

mutual
theorem count_skel : ∀ v : VmTrace, (skel v).count = v.count
  | .mk _ ops => by simp only [skel, VmTrace.count, countOps_skel ops]
theorem countOps_skel : ∀ ops : List VmInstruction, countOps (skelOps ops) = countOps ops
  | [] => rfl
  | op :: ops => by simp only [skelOps, countOps, countOp_skel op, countOps_skel ops]
theorem countOp_skel : ∀ op : VmInstruction, countOp (skelOp op) = countOp op
  | .mk _ _ _ none _ => rfl
  | .mk _ _ _ (some v) _ => by simp only [skelOp, countOp, count_skel v]
end

theorem at_skel : ∀ (p : List Nat) (v : VmTrace), (skel v).at p = (v.at p).map skel := by
  intro p
  induction p with
  | nil => intro v; cases v; rfl
  | cons i p ih =>
    intro v
    obtain ⟨c, ops⟩ := v
    simp only [skel, VmTrace.at, skelOps_map, List.getElem?_map]
    cases ops[i]? with
    | none => rfl
    | some op =>
      obtain ⟨pc, cost, ex, sub, o⟩ := op
      cases sub with
      | none => rfl
      | some w => simp [skelOp, ih]

theorem skel_setCode (x : Bytes) : ∀ (p : List Nat) (v : VmTrace), skel (v.setCode x p) = skel v := by
  intro p
  induction p with
  | nil => intro v; cases v; rfl
  | cons i p ih =>
    intro v
    obtain ⟨c, ops⟩ := v
    simp only [VmTrace.setCode, skel, skelOps_map]
    congr 1
    apply List.ext_getElem?
    intro k
    simp only [List.getElem?_map, List.getElem?_modify]
    split
    · cases ops[k]? with
      | none => rfl
      | some op =>
        obtain ⟨pc, cost, ex, sub, o⟩ := op
        cases sub with
        | none => rfl
        | some w => simp [skelOp, ih]
    · simp

/-- Number of sub-traces at a path. -/
def cnt (v : VmTrace) (p : List Nat) : Nat := ((v.at p).map VmTrace.count).getD 0

theorem cnt_skel (v : VmTrace) (p : List Nat) : cnt (skel v) p = cnt v p := by
  simp only [cnt, at_skel]
  cases v.at p <;> simp [count_skel]

theorem at_append (p q : List Nat) : ∀ v : VmTrace, v.at (p ++ q) = (v.at p).bind (·.at q) := by
  induction p with
  | nil => intro v; cases v; rfl
  | cons i p ih =>
    intro v
    obtain ⟨c, ops⟩ := v
    simp only [List.cons_append, VmTrace.at]
    cases ops[i]? with
    | none => rfl
    | some op =>
      obtain ⟨pc, cost, ex, sub, o⟩ := op
      cases sub with
      | none => rfl
      | some w => exact ih w

theorem subPaths_cnt (r : VmTrace) (path : List Nat) (c : Bytes) : ∀ (ops pre : List VmInstruction),
    r.at path = some (.mk c (pre ++ ops)) →
    ((subPaths path pre.length ops).map (cnt r)).sum = countOps ops ∧
    ∀ p ∈ subPaths path pre.length ops, (r.at p).isSome = true := by
  intro ops
  induction ops with
  | nil => intro pre _; exact ⟨rfl, by simp [subPaths]⟩
  | cons op ops ih =>
    intro pre h
    have h' := ih (pre ++ [op]) (by simpa using h)
    simp only [List.length_append, List.length_singleton] at h'
    obtain ⟨pc, cost, ex, sub, o⟩ := op
    simp only [subPaths, VmInstruction.sub]
    cases sub with
    | none => simpa [countOps, countOp] using h'
    | some w =>
      have hat : r.at (path ++ [pre.length]) = some w := by
        rw [at_append, h]
        simp [VmTrace.at]
      simp only [Option.isSome_some, if_true, List.singleton_append, List.map_cons, List.sum_cons,
        countOps, countOp]
      refine ⟨?_, ?_⟩
      · rw [h'.1]; simp [cnt, hat]
      · intro p hp
        rcases List.mem_cons.1 hp with rfl | hp
        · simp [hat]
        · exact h'.2 p hp

/-- The loop never panics if the addresses suffice for the traces still to come. -/
theorem populateLoop_no_panic {ε : Type} (db : DB ε) : ∀ (fuel : Nat) (r : VmTrace)
    (Q : List (List Nat)) (addrs : List Address), (∀ p ∈ Q, (r.at p).isSome = true) →
    (Q.map (cnt r)).sum ≤ fuel → (Q.map (cnt r)).sum ≤ addrs.length →
    ∀ e, populateLoop db fuel r Q addrs ≠ .error (.panic e) := by
  intro fuel
  induction fuel with
  | zero =>
    intro r Q addrs hv hf _ e
    cases Q with
    | nil => simp [populateLoop]
    | cons p Q =>
      have := hv p (by simp)
      obtain ⟨w, hw⟩ := Option.isSome_iff_exists.1 this
      simp only [List.map_cons, List.sum_cons, cnt, hw, Option.map_some, Option.getD_some] at hf
      cases w
      simp only [VmTrace.count] at hf
      omega
  | succ fuel ih =>
    intro r Q addrs hv hf ha e
    cases Q with
    | nil => simp [populateLoop]
    | cons p Q =>
      obtain ⟨w, hw⟩ := Option.isSome_iff_exists.1 (hv p (by simp))
      obtain ⟨c, ops⟩ := w
      have hcp : cnt r p = 1 + countOps ops := by simp [cnt, hw, VmTrace.count]
      obtain ⟨s1, s2⟩ := subPaths_cnt r p c ops [] (by simpa using hw)
      simp only [List.length_nil] at s1 s2
      simp only [List.map_cons, List.sum_cons, hcp] at hf ha
      simp only [populateLoop, hw]
      cases addrs with
      | nil => simp at ha
      | cons a addrs =>
        have hv' : ∀ p' ∈ Q ++ subPaths p 0 ops, (r.at p').isSome = true := by
          intro p' hp'
          rcases List.mem_append.1 hp' with hp' | hp'
          · exact hv p' (by simp [hp'])
          · exact s2 p' hp'
        have hsum : ((Q ++ subPaths p 0 ops).map (cnt r)).sum + 1 =
            1 + countOps ops + (Q.map (cnt r)).sum := by
          rw [List.map_append, List.sum_append, s1]; omega
        simp only [List.length_cons] at ha
        simp only [VmTrace.ops]
        cases db.account a with
        | error e' => simp
        | ok acc =>
          simp only
          split
          · exact ih r _ addrs hv' (by omega) (by omega) e
          · cases db.codeByHash acc.codeHash with
            | error e' => simp
            | ok code =>
              simp only
              have hk : ∀ p', cnt (r.setCode code p) p' = cnt r p' := by
                intro p'; rw [← cnt_skel, skel_setCode, cnt_skel]
              have hv'' : ∀ p' ∈ Q ++ subPaths p 0 ops,
                  ((r.setCode code p).at p').isSome = true := by
                intro p' hp'
                have h1 := hv' p' hp'
                have h2 := at_skel p' (r.setCode code p)
                rw [skel_setCode, at_skel] at h2
                cases h3 : r.at p' with
                | none => rw [h3] at h1; simp at h1
                | some w =>
                  rw [h3] at h2
                  cases h4 : (r.setCode code p).at p' with
                  | none => rw [h4] at h2; simp at h2
                  | some w => rfl
              have hmap : ((Q ++ subPaths p 0 ops).map (cnt (r.setCode code p))).sum =
                  ((Q ++ subPaths p 0 ops).map (cnt r)).sum := by
                rw [List.map_congr_left (fun p' _ => hk p')]
              exact ih _ _ addrs hv'' (by omega) (by omega) e

/-! ### The right codes -/

/-- Replace the sub-trace at a path. -/
def replaceAt (u : VmTrace) : VmTrace → List Nat → VmTrace
  | _, [] => u
  | .mk c ops, i :: p =>
    .mk c (ops.modify i fun
      | .mk pc cost ex (some sub) op => .mk pc cost ex (some (replaceAt u sub p)) op
      | ins => ins)

theorem modify_congr {α : Type} (f g : α → α) (l : List α) (i : Nat) (a : α) (h : l[i]? = some a)
    (hfg : f a = g a) : l.modify i f = l.modify i g := by
  apply List.ext_getElem?
  intro k
  simp only [List.getElem?_modify]
  split
  · rename_i hk; subst hk; rw [h]; simp [hfg]
  · rfl

theorem at_cons_some {c : Bytes} {ops : List VmInstruction} {i : Nat} {p : List Nat} {w : VmTrace}
    (h : (VmTrace.mk c ops).at (i :: p) = some w) : ∃ pc cost ex sub o,
      ops[i]? = some (.mk pc cost ex (some sub) o) ∧ sub.at p = some w := by
  simp only [VmTrace.at] at h
  cases ho : ops[i]? with
  | none => rw [ho] at h; simp at h
  | some op =>
    obtain ⟨pc, cost, ex, sub, o⟩ := op
    cases sub with
    | none => rw [ho] at h; simp at h
    | some s => rw [ho] at h; exact ⟨pc, cost, ex, s, o, rfl, h⟩

theorem replaceAt_append (u : VmTrace) (q : List Nat) : ∀ (p : List Nat) (v w : VmTrace),
    v.at p = some w → replaceAt u v (p ++ q) = replaceAt (replaceAt u w q) v p := by
  intro p
  induction p with
  | nil => intro v w h; simp only [VmTrace.at, Option.some.injEq] at h; subst h; simp [replaceAt]
  | cons i p ih =>
    intro v w h
    obtain ⟨c, ops⟩ := v
    obtain ⟨pc, cost, ex, sub, o, h1, h2⟩ := at_cons_some h
    simp only [List.cons_append, replaceAt]
    congr 1
    exact modify_congr _ _ _ _ _ h1 (by simp only [ih sub w h2])

theorem setCode_eq (x : Bytes) : ∀ (p : List Nat) (v : VmTrace) (c : Bytes) (ops : List VmInstruction),
    v.at p = some (.mk c ops) → v.setCode x p = replaceAt (.mk x ops) v p := by
  intro p
  induction p with
  | nil =>
    intro v c ops h
    simp only [VmTrace.at, Option.some.injEq] at h; subst h; simp [replaceAt, VmTrace.setCode]
  | cons i p ih =>
    intro v c ops h
    obtain ⟨c', ops'⟩ := v
    obtain ⟨pc, cost, ex, sub, o, h1, h2⟩ := at_cons_some h
    simp only [VmTrace.setCode, replaceAt]
    congr 1
    exact modify_congr _ _ _ _ _ h1 (by simp only [ih sub c ops h2])

/-- The trace of a frame. -/
def tree (S : Nat → List CallTraceStep) (code : Nat → Bytes) (f : FrameCtx) : VmTrace :=
  .mk (code f.index) (vmOps S code (f.index + 1) f.body (S f.index))

/-- The codes agree outside the frame and the frames below it. -/
def AgreeOutside (f : FrameCtx) (c c' : Nat → Bytes) : Prop :=
  ∀ i, i < f.index ∨ f.index + 1 + f.body.size ≤ i → c i = c' i

theorem vmOps_congr (S : Nat → List CallTraceStep) (c c' : Nat → Bytes) (b : Body) :
    ∀ n ss, (∀ i, n ≤ i → i < n + b.size → c i = c' i) →
      vmOps S c n b ss = vmOps S c' n b ss ∧ nextVm S c n b = nextVm S c' n b := by
  induction b with
  | nil => intro n ss _; exact ⟨rfl, rfl⟩
  | act a rest ih =>
    intro n ss h
    refine ⟨?_, rfl⟩
    by_cases hi : isInstr a = true
    · cases ss with
      | nil => simp [vmOps, hi]
      | cons st ss =>
        rw [vmOps_act _ _ _ _ _ _ _ hi, vmOps_act _ _ _ _ _ _ _ hi, (ih n ss h).1, (ih n ss h).2]
    · rw [vmOps_skip _ _ _ _ _ _ hi, vmOps_skip _ _ _ _ _ _ hi, (ih n ss h).1]
  | sub h b o rest ihb ihr =>
    intro n ss hc
    simp only [Body.size] at hc
    refine ⟨?_, ?_⟩
    · simp only [vmOps]
      exact (ihr _ ss (fun i h1 h2 => hc i (by omega) (by omega))).1
    · simp only [nextVm]
      rw [hc n (by omega) (by omega),
        (ihb (n + 1) (S n) (fun i h1 h2 => hc i (by omega) (by omega))).1]

/-- The positions of the operations that have a sub-trace, with the frame of each. -/
def subPos (d p : Nat) (v : U256) : (n i : Nat) → Body → List (Nat × FrameCtx)
  | _, _, .nil => []
  | n, i, .act a rest =>
    if isInstr a then
      (match rest with
        | .sub h b o _ => [(i, ⟨n, some p, d, some v, h, b, o⟩)]
        | _ => []) ++ subPos d p v n (i + 1) rest
    else subPos d p v n i rest
  | n, i, .sub _ b _ rest => subPos d p v (n + 1 + b.size) i rest

/-- The first frame entered, if it is entered right away. -/
def nextPos (d p : Nat) (v : U256) (n i : Nat) : Body → List (Nat × FrameCtx)
  | .sub h b o _ => [(i, ⟨n, some p, d, some v, h, b, o⟩)]
  | _ => []

theorem subPos_act (d p : Nat) (v : U256) (n i : Nat) (a : Act) (rest : Body) (h : isInstr a = true) :
    subPos d p v n i (.act a rest) = nextPos d p v n i rest ++ subPos d p v n (i + 1) rest := by
  rw [subPos.eq_def]
  simp only [h, if_true]
  cases rest <;> rfl

theorem subPos_skip (d p : Nat) (v : U256) (n i : Nat) (a : Act) (rest : Body) (h : ¬isInstr a = true) :
    subPos d p v n i (.act a rest) = subPos d p v n i rest := by
  rw [subPos.eq_def]
  simp only [h, if_false, Bool.false_eq_true]

theorem subPaths_vmOps (S : Nat → List CallTraceStep) (c : Nat → Bytes) (d p : Nat) (v : U256)
    (path : List Nat) (b : Body) : ∀ n i ss, Match b ss →
    subPaths path i (vmOps S c n b ss) = (subPos d p v n i b).map (fun e => path ++ [e.1]) := by
  induction b with
  | nil => intros; rfl
  | act a rest ih =>
    intro n i ss hm
    by_cases hi : isInstr a = true
    · simp only [Match, hi, if_true] at hm
      obtain ⟨st, ss', rfl, _, hm'⟩ := hm
      rw [vmOps_act _ _ _ _ _ _ _ hi, subPos_act _ _ _ _ _ _ _ hi, List.map_append, ← ih n (i + 1) ss' hm']
      cases rest <;> rfl
    · simp only [Match, hi, if_false, Bool.false_eq_true] at hm
      rw [vmOps_skip _ _ _ _ _ _ hi, subPos_skip _ _ _ _ _ _ _ hi, ih n i ss hm]
  | sub h b o rest _ ih =>
    intro n i ss hm
    exact ih (n + 1 + b.size) i ss hm

theorem subPos_noSub (d p : Nat) (v : U256) (b : Body) (h : b.hasSub = false) : ∀ n i,
    subPos d p v n i b = [] := by
  induction b with
  | nil => intros; rfl
  | act a rest ih =>
    intro n i
    by_cases hi : isInstr a = true
    · rw [subPos_act _ _ _ _ _ _ _ hi, ih h]
      cases rest with
      | nil => rfl
      | act a rest => rfl
      | sub => simp [Body.hasSub] at h
    · rw [subPos_skip _ _ _ _ _ _ _ hi, ih h]
  | sub h' b o rest _ _ => simp [Body.hasSub] at h

theorem subPos_frames (cfg : Config) (d p : Nat) (v : U256) (b : Body) : ∀ n i pend,
    Attached pend b → (∀ g ∈ subFrames d p v n b, Spec.excluded cfg g = false) →
    (subPos d p v n i b).map (·.2) = (shownBelow cfg d p v n b).drop (if pend then 1 else 0) := by
  induction b with
  | nil => intros; simp [subPos, shownBelow]
  | act a rest ih =>
    intro n i pend hatt hx
    obtain ⟨h1, h2⟩ := hatt
    have hdrop : (shownBelow cfg d p v n (.act a rest)).drop (if pend then 1 else 0) =
        shownBelow cfg d p v n rest := by
      rw [shownBelow]
      cases pend with
      | false => rfl
      | true =>
        have : ∀ (b : Body), b.hasSub = false → ∀ n, shownBelow cfg d p v n b = [] := by
          intro b
          induction b with
          | nil => intros; rfl
          | act a rest ih => intro hs n; exact ih hs n
          | sub => intro hs; simp [Body.hasSub] at hs
        rw [this rest (h1 rfl)]; rfl
    rw [hdrop]
    by_cases hi : isInstr a = true
    · rw [subPos_act _ _ _ _ _ _ _ hi, List.map_append, ih n (i + 1) _ h2 hx]
      cases rest with
      | nil => simp [shownBelow, nextPos]
      | act a' rest =>
        cases hc : isCallStep a with
        | false => rfl
        | true =>
          rw [hc] at h2
          have := subPos_noSub d p v (.act a' rest) (by simpa [Body.hasSub] using h2.1 rfl) n (i + 1)
          have h3 := ih n (i + 1) true h2 hx
          rw [this] at h3
          simp only [List.map_nil, if_true, nextPos, List.nil_append] at h3 ⊢
          have h4 : ∀ (b : Body), b.hasSub = false → ∀ n, shownBelow cfg d p v n b = [] := by
            intro b
            induction b with
            | nil => intros; rfl
            | act a rest ih => intro hs n; exact ih hs n
            | sub => intro hs; simp [Body.hasSub] at hs
          rw [h4 (.act a' rest) (by simpa [Body.hasSub] using h2.1 rfl)]; rfl
      | sub h b o rest =>
        have hc : isCallStep a = true := h2.1
        rw [hc]
        have hxn := hx ⟨n, some p, d, some v, h, b, o⟩ (by simp [subFrames])
        simp [nextPos, shownBelow, hxn]
    · have hc : isCallStep a = false := by
        cases h : isCallStep a with
        | false => rfl
        | true => exact absurd (isCallStep_instr h) hi
      rw [hc] at h2
      rw [subPos_skip _ _ _ _ _ _ _ hi, ih n i false h2 hx]; rfl
  | sub h b o rest _ ih =>
    intro n i pend hatt hx
    obtain ⟨hp, _, h3⟩ := hatt
    subst hp
    have hxn := hx ⟨n, some p, d, some v, h, b, o⟩ (by simp [subFrames])
    rw [subPos, ih (n + 1 + b.size) i false h3 (fun g hg => hx g (by simp [subFrames, hg]))]
    simp [shownBelow, hxn]

theorem subPos_ge (d p : Nat) (v : U256) (b : Body) : ∀ n i, ∀ e ∈ subPos d p v n i b,
    i ≤ e.1 ∧ n ≤ e.2.index ∧ e.2.index + 1 + e.2.body.size ≤ n + b.size ∧
      e.2 ∈ subFrames d p v n b := by
  induction b with
  | nil => intro n i e he; simp [subPos] at he
  | act a rest ih =>
    intro n i e he
    by_cases hi : isInstr a = true
    · rw [subPos_act _ _ _ _ _ _ _ hi, List.mem_append] at he
      rcases he with he | he
      · cases rest with
        | nil => simp [nextPos] at he
        | act => simp [nextPos] at he
        | sub h b o rest =>
          simp only [nextPos, List.mem_singleton] at he
          subst he
          simp [subFrames, Body.size]
          omega
      · have := ih n (i + 1) e he
        simp only [Body.size, subFrames]
        exact ⟨by omega, this.2⟩
    · rw [subPos_skip _ _ _ _ _ _ _ hi] at he
      exact ih n i e he
  | sub h b o rest _ ih =>
    intro n i e he
    have := ih (n + 1 + b.size) i e he
    simp only [Body.size, subFrames]
    exact ⟨this.1, by omega, by omega, by simp [this.2.2.2]⟩

/-- Reading and replacing one sub-trace. -/
theorem vmOps_at (S : Nat → List CallTraceStep) (d p : Nat) (v : U256) (b : Body) :
    ∀ n i ss, Match b ss → ∀ e ∈ subPos d p v n i b, ∃ st : CallTraceStep,
      (∀ c, (vmOps S c n b ss)[e.1 - i]? = some (vmInstr st (some (tree S c e.2)))) ∧
      ∀ c c', AgreeOutside e.2 c c' →
        vmOps S c' n b ss = (vmOps S c n b ss).set (e.1 - i) (vmInstr st (some (tree S c' e.2))) := by
  induction b with
  | nil => intro n i ss _ e he; simp [subPos] at he
  | act a rest ih =>
    intro n i ss hm e he
    by_cases hi : isInstr a = true
    · simp only [Match, hi, if_true] at hm
      obtain ⟨st, ss', rfl, _, hm'⟩ := hm
      have hop : ∀ c, vmOps S c n (.act a rest) (st :: ss') = _ :=
        fun c => vmOps_act S c n a rest st ss' hi
      rw [subPos_act _ _ _ _ _ _ _ hi, List.mem_append] at he
      rcases he with he | he
      · cases rest with
        | nil => simp [nextPos] at he
        | act => simp [nextPos] at he
        | sub h b o rest =>
          simp only [nextPos, List.mem_singleton] at he
          subst he
          refine ⟨st, ?_, ?_⟩
          · intro c; rw [hop]; simp [nextVm, tree]
          · intro c c' hcc
            rw [hop, hop]
            simp only [Nat.sub_self, List.set_cons_zero]
            congr 1
            simp only [vmOps]
            exact ((vmOps_congr S c c' rest _ _ (fun j h1 _ => hcc j (Or.inr h1))).1).symm
      · obtain ⟨st', h1, h2⟩ := ih n (i + 1) ss' hm' e he
        have hge := (subPos_ge d p v rest n (i + 1) e he).1
        have hs : e.1 - i = (e.1 - (i + 1)) + 1 := by omega
        refine ⟨st', ?_, ?_⟩
        · intro c
          rw [hop, hs, List.getElem?_cons_succ]
          exact h1 c
        · intro c c' hcc
          rw [hop, hop, hs, List.set_cons_succ, ← h2 c c' hcc]
          congr 2
          cases rest with
          | nil => rfl
          | act => rfl
          | sub h b o rest =>
            have hge2 := (subPos_ge d p v rest (n + 1 + b.size) (i + 1) e he).2.1
            simp only [nextVm]
            rw [hcc n (Or.inl (by omega)), (vmOps_congr S c c' b (n + 1) (S n)
              (fun j _ h4 => hcc j (Or.inl (by omega)))).1]
    · simp only [Match, hi, if_false, Bool.false_eq_true] at hm
      rw [subPos_skip _ _ _ _ _ _ _ hi] at he
      obtain ⟨st', h1, h2⟩ := ih n i ss hm e he
      refine ⟨st', ?_, ?_⟩
      · intro c; rw [vmOps_skip _ _ _ _ _ _ hi]; exact h1 c
      · intro c c' hcc
        rw [vmOps_skip _ _ _ _ _ _ hi, vmOps_skip _ _ _ _ _ _ hi]; exact h2 c c' hcc
  | sub h b o rest _ ih =>
    intro n i ss hm e he
    exact ih (n + 1 + b.size) i ss hm e he

/-- The path leads to the frame's trace in the trace of the transaction. -/
structure Leads (S : Nat → List CallTraceStep) (t : Tx) (path : List Nat) (f : FrameCtx) : Prop where
  at_eq : ∀ c, (vmTree S c t).at path = some (tree S c f)
  replace : ∀ c c', AgreeOutside f c c' → replaceAt (tree S c' f) (vmTree S c t) path = vmTree S c' t

theorem Leads.root (S : Nat → List CallTraceStep) (t : Tx) : Leads S t [] (rootOf t) :=
  ⟨fun _ => rfl, fun _ _ _ => by simp only [replaceAt]; rfl⟩

theorem Leads.child {S : Nat → List CallTraceStep} {t : Tx} {path : List Nat} {f : FrameCtx}
    (h : Leads S t path f) (hm : Match f.body (S f.index)) (e : Nat × FrameCtx)
    (he : e ∈ subPos (f.depth + 1) f.index f.value (f.index + 1) 0 f.body) :
    Leads S t (path ++ [e.1]) e.2 := by
  obtain ⟨st, h1, h2⟩ := vmOps_at S _ _ _ f.body (f.index + 1) 0 (S f.index) hm e he
  obtain ⟨_, hge, hle, _⟩ := subPos_ge _ _ _ _ _ _ e he
  simp only [Nat.sub_zero] at h1 h2
  refine ⟨?_, ?_⟩
  · intro c
    rw [at_append, h.at_eq c]
    simp only [Option.bind_some, tree, VmTrace.at]
    rw [h1 c]
    simp only [vmInstr]
    rfl
  · intro c c' hcc
    rw [replaceAt_append _ _ _ _ _ (h.at_eq c)]
    have : replaceAt (tree S c' e.2) (tree S c f) [e.1] = tree S c' f := by
      simp only [tree, replaceAt]
      rw [hcc f.index (Or.inl (by omega)), h2 c c' hcc]
      congr 1
      apply List.ext_getElem?
      intro k
      rw [List.getElem?_modify, List.getElem?_set]
      split
      · rename_i hk; subst hk
        rw [h1 c]
        have hlt := (List.getElem?_eq_some_iff.1 (h1 c)).1
        simp only [Option.map_eq_map, Option.map_some, vmInstr, hlt, if_true]
        rfl
      · simp
    rw [this]
    exact h.replace c c' (fun i hi => hcc i (by omega))

/-- The code of one frame replaced. -/
def upd (c : Nat → Bytes) (i : Nat) (x : Bytes) : Nat → Bytes := fun j => if j = i then x else c j

theorem Leads.setCode {S : Nat → List CallTraceStep} {t : Tx} {path : List Nat} {f : FrameCtx}
    (h : Leads S t path f) (c : Nat → Bytes) (x : Bytes) :
    (vmTree S c t).setCode x path = vmTree S (upd c f.index x) t := by
  rw [setCode_eq x path _ _ _ (h.at_eq c)]
  have : VmTrace.mk x (vmOps S c (f.index + 1) f.body (S f.index)) = tree S (upd c f.index x) f := by
    simp only [tree, upd, if_true]
    congr 1
    exact (vmOps_congr S _ _ f.body _ _ (fun i h1 _ => by
      simp only [upd]; rw [if_neg (by omega)])).1
  rw [this]
  exact h.replace c _ (fun i hi => by
    simp only [upd]; rw [if_neg (by omega)])

/-- The two breadth-first walks in step. -/
theorem populateLoop_codes {ε : Type} (db : DB ε) (cfg : Config) (t : Tx) (nodes : List Node)
    (S : Nat → List CallTraceStep) (hn : VmNodes cfg t nodes S)
    (hx : ∀ f ∈ frames t, Spec.excluded cfg f = false ∧ Match f.body (S f.index) ∧
      Attached false f.body)
    (addr : Nat → Address) (haddr : ∀ (i : Nat) (x : Node), nodes[i]? = some x → x.trace.address = addr i)
    (hsub : ∀ f ∈ frames t, ∀ g ∈ subFrames (f.depth + 1) f.index f.value (f.index + 1) f.body,
      g ∈ frames t) :
    ∀ (fuel fuel' : Nat) (c : Nat → Bytes) (Q : List (List Nat × FrameCtx)) (W : List Node) (r : VmTrace),
    (∀ e ∈ Q, Leads S t e.1 e.2 ∧ e.2 ∈ frames t) →
    walkLoop nodes fuel' (Q.map (·.2.index)) = .ok W →
    populateLoop db fuel (vmTree S c t) (Q.map (·.1)) (W.map (·.trace.address)) = .ok r →
    (∀ i, c i = [] ∨ c i = codeOf db (addr i)) →
    ∃ c', r = vmTree S c' t ∧ (∀ i, c' i = codeOf db (addr i) ∨ (c' i = c i ∧ i ∉ W.map (·.idx)) ∨
      (c' i = [] ∧ codeOf db (addr i) = [])) := by
  intro fuel
  induction fuel with
  | zero =>
    intro fuel' c Q W r hQ hw hp hc
    cases Q with
    | nil =>
      simp only [List.map_nil] at hw
      have : W = [] := by cases fuel' <;> simp [walkLoop] at hw <;> exact hw
      subst this
      simp [populateLoop] at hp
      exact ⟨c, hp.symm, fun i => Or.inr (Or.inl ⟨rfl, by simp⟩)⟩
    | cons e Q => simp [populateLoop] at hp
  | succ fuel ih =>
    intro fuel' c Q W r hQ hw hp hc
    cases Q with
    | nil =>
      simp only [List.map_nil] at hw
      have : W = [] := by cases fuel' <;> simp [walkLoop] at hw <;> exact hw
      subst this
      simp [populateLoop] at hp
      exact ⟨c, hp.symm, fun i => Or.inr (Or.inl ⟨rfl, by simp⟩)⟩
    | cons e Q =>
      obtain ⟨path, f⟩ := e
      obtain ⟨hl, hf⟩ := hQ (path, f) (by simp)
      obtain ⟨y, hy, hly, _⟩ := hn.get f hf
      obtain ⟨hx1, hx2, hx3⟩ := hx f hf
      cases fuel' with
      | zero =>
        simp only [List.map_cons, walkLoop] at hw
        split at hw <;> cases hw
      | succ fuel' =>
        simp only [List.map_cons, walkLoop] at hw
        rw [show nodes[f.index]? = some y from hy] at hw
        simp only at hw
        cases hw2 : walkLoop nodes fuel' (Q.map (·.2.index) ++ y.children) with
        | error e' => rw [hw2] at hw; simp at hw
        | ok W2 =>
          rw [hw2] at hw
          simp only [Except.ok.injEq] at hw
          subst hw
          have hch : (Q ++ (subPos (f.depth + 1) f.index f.value (f.index + 1) 0 f.body).map
              (fun e => (path ++ [e.1], e.2))).map (·.2.index) = Q.map (·.2.index) ++ y.children := by
            rw [List.map_append, hly.children, ← shownBelow_index]
            have := subPos_frames cfg (f.depth + 1) f.index f.value f.body (f.index + 1) 0 false hx3
              (fun g hg => (hx g (hsub f hf g hg)).1)
            simp only [Bool.false_eq_true, if_false, List.drop_zero] at this
            rw [← this]
            simp
          have hpath : (Q ++ (subPos (f.depth + 1) f.index f.value (f.index + 1) 0 f.body).map
              (fun e => (path ++ [e.1], e.2))).map (·.1) =
              Q.map (·.1) ++ subPaths path 0 (tree S c f).ops := by
            rw [List.map_append, show (tree S c f).ops = vmOps S c (f.index + 1) f.body (S f.index) from rfl,
              subPaths_vmOps S c (f.depth + 1) f.index f.value path f.body _ _ _ hx2]
            simp
          have hQ' : ∀ e ∈ Q ++ (subPos (f.depth + 1) f.index f.value (f.index + 1) 0 f.body).map
              (fun e => (path ++ [e.1], e.2)), Leads S t e.1 e.2 ∧ e.2 ∈ frames t := by
            intro e he
            rcases List.mem_append.1 he with he | he
            · exact hQ e (by simp [he])
            · obtain ⟨e', he', rfl⟩ := List.mem_map.1 he
              exact ⟨hl.child hx2 e' he', hsub f hf _ (subPos_ge _ _ _ _ _ _ e' he').2.2.2⟩
          rw [← hch] at hw2
          simp only [List.map_cons, populateLoop, hl.at_eq c] at hp
          rw [← hpath, haddr _ _ hy] at hp
          cases hacc : db.account (addr f.index) with
          | error e' => rw [hacc] at hp; simp at hp
          | ok acc =>
            rw [hacc] at hp
            simp only at hp
            by_cases hk : acc.codeHash = KECCAK_EMPTY
            · rw [if_pos hk] at hp
              obtain ⟨c', r1, r2⟩ := ih fuel' c _ W2 r hQ' hw2 hp hc
              refine ⟨c', r1, ?_⟩
              intro i
              have hcode : codeOf db (addr f.index) = [] := by simp [codeOf, hacc, hk]
              rcases r2 i with h1 | ⟨h1, h2⟩ | h1
              · exact Or.inl h1
              · by_cases hi : i = f.index
                · subst hi
                  rcases hc f.index with h3 | h3
                  · exact Or.inr (Or.inr ⟨by rw [h1, h3], hcode⟩)
                  · exact Or.inl (by rw [h1, h3])
                · refine Or.inr (Or.inl ⟨h1, ?_⟩)
                  rw [List.map_cons, List.mem_cons, not_or]
                  exact ⟨by rw [hly.idx]; exact hi, h2⟩
              · exact Or.inr (Or.inr h1)
            · rw [if_neg hk] at hp
              cases hcd : db.codeByHash acc.codeHash with
              | error e' => rw [hcd] at hp; simp at hp
              | ok code =>
                rw [hcd] at hp
                simp only at hp
                rw [hl.setCode] at hp
                have hcode : codeOf db (addr f.index) = code := by simp [codeOf, hacc, hk, hcd]
                have hc' : ∀ i, upd c f.index code i = [] ∨ upd c f.index code i = codeOf db (addr i) := by
                  intro i
                  simp only [upd]
                  split
                  · rename_i hi; subst hi; exact Or.inr hcode.symm
                  · exact hc i
                obtain ⟨c', r1, r2⟩ := ih fuel' _ _ W2 r hQ' hw2 hp hc'
                refine ⟨c', r1, ?_⟩
                intro i
                rcases r2 i with h1 | ⟨h1, h2⟩ | h1
                · exact Or.inl h1
                · by_cases hi : i = f.index
                  · subst hi
                    exact Or.inl (by rw [h1, hcode]; simp [upd])
                  · refine Or.inr (Or.inl ⟨by rw [h1]; simp [upd, hi], ?_⟩)
                    rw [List.map_cons, List.mem_cons, not_or]
                    exact ⟨by rw [hly.idx]; exact hi, h2⟩
                · exact Or.inr (Or.inr h1)

end Verif.Par
