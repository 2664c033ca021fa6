import Verif.Lemmas.Vm
import Verif.Spec.Vm
/-! Under the conditions of C29 the queue of `make_vm_trace` holds exactly the traces of the frames
entered by the current frame, in order. -/
namespace Verif.Par
open Spec Rec Parity

theorem vmInstr_eq (st : CallTraceStep) (sub : Option VmTrace) :
    makeInstruction st sub = vmInstr st sub := rfl

/-- The traces of the frames entered directly, in order. -/
def vms (S : Nat → List CallTraceStep) (code : Nat → Bytes) : Nat → Body → List VmTrace
  | _, .nil => []
  | n, .act _ rest => vms S code n rest
  | n, .sub _ b _ rest =>
    .mk (code n) (vmOps S code (n + 1) b (S n)) :: vms S code (n + 1 + b.size) rest

/-- The recorded steps belong to the instructions of the body. -/
def Match : Body → List CallTraceStep → Prop
  | .nil, ss => ss = []
  | .act a rest, ss =>
    if isInstr a then ∃ st ss', ss = st :: ss' ∧ st.isCalllikeOp = isCallStep a ∧ Match rest ss'
    else Match rest ss
  | .sub _ _ _ rest, ss => Match rest ss

theorem vms_noSub (S code) (b : Body) (h : b.hasSub = false) : ∀ n, vms S code n b = [] := by
  induction b with
  | nil => intros; rfl
  | act a rest ih => intro n; exact ih h n
  | sub h' b o rest _ _ => simp [Body.hasSub] at h

theorem noCall_noSub (b : Body) : ∀ {pend}, Attached pend b → pend = false → hasCall b = false →
    b.hasSub = false := by
  induction b with
  | nil => intros; rfl
  | act a rest ih =>
    intro pend h hp hc
    simp only [hasCall, Bool.or_eq_false_iff] at hc
    exact ih h.2 hc.1 hc.2
  | sub h' b o rest _ _ => intro pend h hp; simp [Attached, hp] at h

theorem vmOps_act (S code n a rest st ss) (h : isInstr a = true) :
    vmOps S code n (.act a rest) (st :: ss) =
      vmInstr st (nextVm S code n rest) :: vmOps S code n rest ss := by
  simp only [vmOps, h, if_true]

theorem vmOps_skip (S code n a rest ss) (h : ¬isInstr a = true) :
    vmOps S code n (.act a rest) ss = vmOps S code n rest ss := by
  cases ss <;> simp [vmOps, h]

theorem isCallStep_instr {a : Act} (h : isCallStep a = true) : isInstr a = true := by
  cases a <;> simp_all [isCallStep, isInstr]

theorem nextVm_call (S code n) (rest : Body) (h : Attached true rest) :
    (vms S code n rest).head? = nextVm S code n rest := by
  cases rest with
  | nil => rfl
  | act a rest => rw [vms, vms_noSub S code rest (h.1 rfl)]; rfl
  | sub h' b o rest => rfl

theorem nextVm_noCall (S code n) (rest : Body) (h : Attached false rest) :
    nextVm S code n rest = none := by
  cases rest with
  | nil => rfl
  | act a rest => rfl
  | sub h' b o rest => simp [Attached] at h

theorem instrLoop_tree (ls : Bool) (S : Nat → List CallTraceStep) (code : Nat → Bytes) (b : Body) :
    ∀ (n : Nat) (ss : List CallTraceStep) (q : List VmTrace) (ins : List VmInstruction) (pend : Bool),
    Attached pend b → Match b ss → (hasCall b = true → q = []) →
    (ls = true → ins = [] → ∀ st, ss.head? = some st → st.isStop = false) →
    instrLoop ls ss ((vms S code n b).drop (if pend then 1 else 0) ++ q) ins =
      (false, q, ins ++ vmOps S code n b ss) := by
  induction b with
  | nil =>
    intro n ss q ins pend _ hm _ _
    simp only [Match] at hm
    subst hm
    simp [instrLoop, vms, vmOps]
  | act a rest ih =>
    intro n ss q ins pend hatt hm hq hstop
    obtain ⟨h1, h2⟩ := hatt
    have hdrop : (vms S code n (.act a rest)).drop (if pend then 1 else 0) = vms S code n rest := by
      rw [vms]
      cases pend with
      | false => rfl
      | true => rw [vms_noSub S code rest (h1 rfl)]; rfl
    rw [hdrop]
    by_cases hi : isInstr a = true
    · simp only [Match, hi, if_true] at hm
      obtain ⟨st, ss', rfl, hcl, hm'⟩ := hm
      rw [vmOps_act _ _ _ _ _ _ _ hi, instrLoop]
      have hns : (st.isStop && ins.isEmpty && ls) = false := by
        cases ls with
        | false => simp
        | true =>
          cases ins with
          | nil => simp [hstop rfl rfl st rfl]
          | cons => simp
      by_cases hc : isCallStep a = true
      · have hq0 := hq (by simp [hasCall, hc])
        subst hq0
        simp only [hcl, hc, if_true, hns, Bool.false_eq_true, if_false, List.append_nil, vmInstr_eq]
        rw [hc] at h2
        rw [nextVm_call _ _ _ _ h2]
        have := ih n ss' [] (ins ++ [vmInstr st (nextVm S code n rest)]) true h2 hm' (fun _ => rfl)
          (fun _ h => by simp at h)
        simp only [if_true, List.append_nil, List.drop_one] at this
        rw [this]; simp
      · simp only [hcl, hc, if_false, hns, Bool.false_eq_true, vmInstr_eq]
        have hc' : isCallStep a = false := by simpa using hc
        rw [hc'] at h2
        rw [nextVm_noCall _ _ _ _ h2]
        have := ih n ss' q (ins ++ [vmInstr st none]) false h2 hm'
          (fun h => hq (by simp [hasCall, h])) (fun _ h => by simp at h)
        simp only [Bool.false_eq_true, if_false, List.drop_zero] at this
        rw [this]; simp
    · have hc : isCallStep a = false := by
        cases h : isCallStep a with
        | false => rfl
        | true => exact absurd (isCallStep_instr h) hi
      simp only [Match, hi, if_false, Bool.false_eq_true] at hm
      rw [hc] at h2
      have := ih n ss q ins false h2 hm (fun h => hq (by simp [hasCall, h])) hstop
      simp only [Bool.false_eq_true, if_false, List.drop_zero] at this
      rw [this, vmOps_skip _ _ _ _ _ _ hi]
  | sub h b o rest _ ih =>
    intro n ss q ins pend hatt hm hq hstop
    obtain ⟨hp, _, h3⟩ := hatt
    subst hp
    have := ih (n + 1 + b.size) ss q ins false h3 hm (fun h => hq h) hstop
    simp only [Bool.false_eq_true, if_false, List.drop_zero] at this
    simp only [vms, if_true, List.drop_succ_cons, List.drop_zero, this, vmOps]

theorem dfs_tree (cfg : Config) (ls : Bool) (S : Nat → List CallTraceStep) (b : Body) :
    ∀ (d p : Nat) (v : U256) (n : Nat) (q : List VmTrace) (first pend : Bool),
    FirstChain first b → Attached pend b → (first = true → q = []) →
    (∀ g ∈ subFrames d p v n b, Spec.excluded cfg g = false ∧ Match g.body (S g.index) ∧
      (ls = true → ∀ st, (S g.index).head? = some st → st.isStop = false)) →
    dfs cfg ls S d p v n q b = .ok (q ++ vms S (fun _ => []) n b) := by
  induction b with
  | nil => intro d p v n q first pend _ _ _ _; simp [dfs, vms]
  | act a rest ih =>
    intro d p v n q first pend hf hatt hq hg
    exact ih d p v n q first _ hf hatt.2 hq hg
  | sub h b o rest ihb ihr =>
    intro d p v n q first pend hf hatt hq hg
    obtain ⟨f1, f2, f3⟩ := hf
    obtain ⟨_, a2, a3⟩ := hatt
    obtain ⟨g1, g2, g3⟩ := hg ⟨n, some p, d, some v, h, b, o⟩ (by simp [subFrames])
    have hb := ihb (d + 1) n (valueInScope (some v) h) (n + 1) q first false f2 a2 hq
      (fun g hgm => hg g (by simp [subFrames, hgm]))
    have hr := ihr d p v (n + 1 + b.size) (q ++ [.mk [] (vmOps S (fun _ => []) (n + 1) b (S n))])
      false false f3 a3 (fun h => by simp at h) (fun g hgm => hg g (by simp [subFrames, hgm]))
    have hloop : instrLoop ls (S n) (q ++ vms S (fun _ => []) (n + 1) b) [] =
        (false, q, vmOps S (fun _ => []) (n + 1) b (S n)) := by
      have hi := instrLoop_tree ls S (fun _ => []) b (n + 1) (S n) q [] false a2 g2
        (fun hc => by
          cases first with
          | true => exact hq rfl
          | false => rw [f1 rfl] at hc; simp at hc) (fun h _ => g3 h)
      simp only [Bool.false_eq_true, if_false, List.drop_zero, List.nil_append] at hi
      rw [← hi]
      cases first with
      | true => rw [hq rfl]; simp
      | false => rw [vms_noSub _ _ b (noCall_noSub b a2 rfl (f1 rfl))]; simp
    rw [dfs, if_neg (by simp [g1]), hb]
    dsimp only
    rw [hloop]
    dsimp only
    rw [hr]
    simp [vms]

/-! ### Steps of the recording -/

theorem match_stepsFor (cfg : Config) (hall : RecordsAll cfg) (d : Nat) (b : Body) :
    ∀ prev, Match b (stepsFor cfg d (instrs cfg b) prev) := by
  have hall' : ∀ op, records cfg op = true := hall
  induction b with
  | nil => intro prev; rfl
  | act a rest ih =>
    intro prev
    cases a with
    | step i c i' c' =>
      simp only [Match, isInstr, if_true, instrs, hall', List.singleton_append, stepsFor]
      exact ⟨_, _, rfl, stepFor_calllike .., ih _⟩
    | aborted i c =>
      simp only [Match, isInstr, if_true, instrs, hall', List.singleton_append, stepsFor]
      exact ⟨_, _, rfl, stepFor_calllike .., ih _⟩
    | log c l => simpa [Match, isInstr, instrs] using ih prev
    | selfdestruct x y z => simpa [Match, isInstr, instrs] using ih prev
  | sub h b o rest _ ih => intro prev; exact ih prev

theorem head_stepsFor (cfg : Config) (hall : RecordsAll cfg) (d : Nat) (b : Body) :
    ∀ prev, (stepsFor cfg d (instrs cfg b) prev).head?.map (·.op) = firstOp b := by
  have hall' : ∀ op, records cfg op = true := hall
  induction b with
  | nil => intro prev; rfl
  | act a rest ih =>
    intro prev
    cases a with
    | step i c i' c' =>
      simp [instrs, hall', stepsFor, firstOp, stepFor_op]
    | aborted i c =>
      simp [instrs, hall', stepsFor, firstOp, stepFor_op]
    | log c l => simpa [instrs, firstOp] using ih prev
    | selfdestruct x y z => simpa [instrs, firstOp] using ih prev
  | sub h b o rest _ ih => intro prev; exact ih prev

theorem last_stepsFor (cfg : Config) (hall : RecordsAll cfg) (d : Nat) (b : Body) :
    ∀ prev, (stepsFor cfg d (instrs cfg b) prev).getLast?.map (·.op) = lastOp b := by
  have hall' : ∀ op, records cfg op = true := hall
  induction b with
  | nil => intro prev; rfl
  | act a rest ih =>
    intro prev
    cases a with
    | step i c i' c' =>
      simp only [instrs, hall', if_true, List.singleton_append, stepsFor, lastOp, List.getLast?_cons]
      rw [← ih, Option.map_some]
      cases (stepsFor cfg d (instrs cfg rest) _).getLast? <;> simp [stepFor_op]
    | aborted i c =>
      simp only [instrs, hall', if_true, List.singleton_append, stepsFor, lastOp, List.getLast?_cons]
      rw [← ih, Option.map_some]
      cases (stepsFor cfg d (instrs cfg rest) _).getLast? <;> simp [stepFor_op]
    | log c l => simpa [instrs, lastOp] using ih prev
    | selfdestruct x y z => simpa [instrs, lastOp] using ih prev
  | sub h b o rest _ ih => intro prev; exact ih prev

end Verif.Par
