import Verif.Spec.ExtCalls
import Verif.Props.StructLogsExact
import Verif.Props.VmExact
import Verif.Props.VmExamples
import Verif.Props.Standalone
/-!
# C107: EXTCALL, EXTDELEGATECALL and EXTSTATICCALL
-/
namespace Verif.Props
open Spec Rec Parity Par

theorem isExt_not_enters (op : OpCode) (h : isExtCall op = true) : entersFrame op = false := by
  simp only [isExtCall, Bool.or_eq_true, beq_iff_eq] at h
  rcases h with (rfl | rfl) | rfl <;> decide

/-! ## Without these instructions -/

theorem attached_of_made (b : Body) : ∀ last, MadeByCalls last b → extBodies last b = [] →
    Attached ((last.map entersFrame).getD false) b := by
  induction b with
  | nil => intros; trivial
  | act a rest ih =>
    intro last h he
    refine ⟨?_, ?_⟩
    · intro hp
      cases last with
      | none => simp at hp
      | some op => exact h.1 ⟨op, rfl, by simpa using hp⟩
    · have := ih _ h.2 he
      cases a <;> exact this
  | sub hd b o rest ihb ih =>
    intro last h he
    obtain ⟨⟨op, rfl, hop⟩, h1, h2⟩ := h
    simp only [extBodies, List.append_eq_nil_iff] at he
    refine ⟨?_, ihb none h1 he.1.2, ih none h2 he.2⟩
    rcases hop with h | h
    · simpa using h
    · have := he.1.1
      simp [h] at this

/-! ## What follows such an instruction in the struct logs -/

/-- Of two instructions listed one after the other, the second is not in a deeper frame if the first is
EXTCALL or one of its relatives. -/
def NotDeeper (x y : FrameCtx × Instr) : Prop :=
  isExtCall x.2.before.op = true → y.1.depth ≤ x.1.depth

/-- Every element and the next one are related. -/
def EachNext {α : Type} (R : α → α → Prop) : List α → Prop
  | [] => True
  | x :: l => (∀ y, l.head? = some y → R x y) ∧ EachNext R l

theorem eachNext_append {α : Type} {R : α → α → Prop} (r : List α) (h2 : EachNext R r) :
    ∀ l, EachNext R l → (∀ x ∈ l, ∀ y, r.head? = some y → R x y) → EachNext R (l ++ r) := by
  intro l
  induction l with
  | nil => intros; exact h2
  | cons x l ih =>
    intro h1 h
    refine ⟨?_, ih h1.2 (fun z hz => h z (List.mem_cons_of_mem _ hz))⟩
    intro y hy
    cases l with
    | nil => exact h x (List.mem_cons_self ..) y hy
    | cons z l => exact h1.1 y hy

theorem eachNext_get {α : Type} {R : α → α → Prop} : ∀ (l : List α), EachNext R l →
    ∀ (k : Nat) (x y : α), l[k]? = some x → l[k + 1]? = some y → R x y := by
  intro l
  induction l with
  | nil => intro _ k x y h; simp at h
  | cons z l ih =>
    intro h k x y hx hy
    cases k with
    | zero =>
      simp only [List.getElem?_cons_zero, Option.some.injEq] at hx
      subst hx
      simp only [List.getElem?_cons_succ] at hy
      exact h.1 y (by rw [List.head?_eq_getElem?]; exact hy)
    | succ k => exact ih h.2 k x y hx hy

/-- What is listed for a frame at depth `d`. -/
structure ListedAt (d : Nat) (l : List (FrameCtx × Instr)) : Prop where
  chain : EachNext NotDeeper l
  deep : ∀ e ∈ l, d ≤ e.1.depth

theorem weave_head (f : FrameCtx) (as : List Instr) (subs) (y : FrameCtx × Instr)
    (h : (weave f as subs).head? = some y) : y.1 = f := by
  cases as with
  | nil => simp [weave] at h
  | cons a as => simp only [weave, List.head?_cons, Option.some.injEq] at h; rw [← h]

theorem weave_listed (f : FrameCtx) (as : List Instr) : ∀ subs,
    (∀ l ∈ subs, ListedAt (f.depth + 1) l) → ListedAt f.depth (weave f as subs) := by
  induction as with
  | nil => intros; exact ⟨trivial, fun e he => nomatch he⟩
  | cons a as ih =>
    intro subs hs
    simp only [weave]
    split
    · rename_i hen
      have hx : isExtCall a.before.op = false := by
        cases h : isExtCall a.before.op with
        | false => rfl
        | true => rw [isExt_not_enters _ h] at hen; nomatch hen
      have hsub : ListedAt (f.depth + 1) (subs.head?.getD []) := by
        cases subs with
        | nil => exact ⟨trivial, fun e he => nomatch he⟩
        | cons l ls => exact hs l (List.mem_cons_self ..)
      have hrest := ih subs.tail (fun l hl => hs l (List.mem_of_mem_tail hl))
      refine ⟨?_, ?_⟩
      · refine ⟨?_, eachNext_append _ hrest.chain _ hsub.chain ?_⟩
        · intro y _ h
          rw [hx] at h
          nomatch h
        · intro x hxm y hy _
          rw [weave_head f _ _ y hy]
          have := hsub.deep x hxm
          omega
      · intro e he
        rcases List.mem_cons.1 he with rfl | he
        · exact Nat.le_refl _
        · rcases List.mem_append.1 he with he | he
          · have := hsub.deep e he
            omega
          · exact hrest.deep e he
    · have hrest := ih subs hs
      refine ⟨?_, ?_⟩
      · refine ⟨?_, hrest.chain⟩
        intro y hy _
        rw [weave_head f _ _ y hy]
        exact Nat.le_refl _
      · intro e he
        rcases List.mem_cons.1 he with rfl | he
        · exact Nat.le_refl _
        · exact hrest.deep e he

theorem loggedBelow_listed (cfg : Config) (b : Body) : ∀ d p v n,
    ∀ l ∈ loggedBelow cfg d p v n b, ListedAt d l := by
  induction b with
  | nil => intro d p v n l hl; nomatch hl
  | act a rest ih => intro d p v n l hl; exact ih d p v n l hl
  | sub h b o rest ihb ih =>
    intro d p v n l hl
    simp only [loggedBelow] at hl
    rcases List.mem_append.1 hl with hl | hl
    · split at hl
      · nomatch hl
      · rw [List.mem_singleton] at hl
        rw [hl]
        exact weave_listed ⟨n, some p, d, some v, h, b, o⟩ _ _ (fun l hl => ihb _ _ _ _ l hl)
    · exact ih _ _ _ _ l hl

/-! ## What follows it in the execution -/

theorem chron_head (b : Body) (hr : runsCode b = true) : ∀ (f : FrameCtx) (n : Nat) last,
    MadeByCalls last b → (∀ op, last ≠ some op) →
    ∃ a r, chronBody f n b = (f, a) :: r := by
  induction b with
  | nil => simp [runsCode] at hr
  | act a rest ih =>
    intro f n last h _
    cases a with
    | step i c i' c' => exact ⟨_, _, rfl⟩
    | aborted i c => exact ⟨_, _, rfl⟩
    | log c l => exact ih hr f n none h.2 (fun op => by simp)
    | selfdestruct x y z => exact ih hr f n none h.2 (fun op => by simp)
  | sub hd b o rest _ _ =>
    intro f n last h hl
    obtain ⟨⟨op, h, _⟩, _⟩ := h
    exact absurd h (hl op)

/-- Somewhere in the list an EXTCALL instruction or one of its relatives is followed by an instruction one
frame deeper. -/
def Enters (l : List (FrameCtx × Instr)) : Prop :=
  ∃ pre x y post, l = pre ++ x :: y :: post ∧ isExtCall x.2.before.op = true ∧
    y.1.depth = x.1.depth + 1

theorem enters_append_right (l r) (h : Enters r) : Enters (l ++ r) := by
  obtain ⟨pre, x, y, post, rfl, h⟩ := h
  exact ⟨l ++ pre, x, y, post, by simp, h⟩

theorem enters_append_left (l r) (h : Enters l) : Enters (l ++ r) := by
  obtain ⟨pre, x, y, post, rfl, h⟩ := h
  exact ⟨pre, x, y, post ++ r, by simp, h⟩

theorem chron_enters (b : Body) : ∀ (f : FrameCtx) (n : Nat) (last : Option OpCode),
    MadeByCalls last b → (∃ c ∈ extBodies last b, runsCode c = true) →
    ∀ (pre : List (FrameCtx × Instr)),
      (∀ op, last = some op → ∃ a, pre.getLast? = some (f, a) ∧ a.before.op = op) →
      Enters (pre ++ chronBody f n b) := by
  induction b with
  | nil => intro f n last _ h; obtain ⟨c, hc, _⟩ := h; nomatch hc
  | act a rest ih =>
    intro f n last h hx pre hpre
    cases a with
    | step i c i' c' =>
      have := ih f n (some i.op) h.2 hx (pre ++ [(f, ⟨i, c, some (i', c')⟩)])
        (fun op hop => ⟨⟨i, c, some (i', c')⟩, by simp, by simpa using hop⟩)
      rw [List.append_assoc] at this
      exact this
    | aborted i c =>
      have := ih f n (some i.op) h.2 hx (pre ++ [(f, ⟨i, c, none⟩)])
        (fun op hop => ⟨⟨i, c, none⟩, by simp, by simpa using hop⟩)
      rw [List.append_assoc] at this
      exact this
    | log c l => exact ih f n none h.2 hx pre (fun op hop => nomatch hop)
    | selfdestruct x y z => exact ih f n none h.2 hx pre (fun op hop => nomatch hop)
  | sub hd b o rest ihb ih =>
    intro f n last h hx pre hpre
    obtain ⟨⟨op, rfl, hop⟩, h1, h2⟩ := h
    obtain ⟨c, hc, hrun⟩ := hx
    simp only [extBodies] at hc
    rcases List.mem_append.1 hc with hc | hc
    · rcases List.mem_append.1 hc with hc | hc
      · split at hc
        · rename_i hext
          rw [List.mem_singleton] at hc
          subst hc
          obtain ⟨a, ha, hao⟩ := hpre op rfl
          obtain ⟨pre', rfl⟩ : ∃ pre', pre = pre' ++ [(f, a)] := by
            rw [List.getLast?_eq_some_iff] at ha
            exact ha
          obtain ⟨a', r, hr⟩ := chron_head c hrun
            ⟨n, some f.index, f.depth + 1, some f.value, hd, c, o⟩ (n + 1) none h1 (by simp)
          refine ⟨pre', (f, a), (⟨n, some f.index, f.depth + 1, some f.value, hd, c, o⟩, a'), r ++ chronBody f (n + 1 + c.size) rest, ?_, ?_, rfl⟩
          · rw [chronBody, hr]
            simp
          · rw [hao]
            simpa using hext
        · nomatch hc
      · have := ihb ⟨n, some f.index, f.depth + 1, some f.value, hd, b, o⟩ (n + 1) none h1
          ⟨c, hc, hrun⟩ [] (fun op h => nomatch h)
        simp only [chronBody]
        exact enters_append_right _ _ (enters_append_left _ _ (by simpa using this))
    · have := ih f (n + 1 + b.size) none h2 ⟨c, hc, hrun⟩ [] (fun op h => nomatch h)
      simp only [chronBody]
      rw [← List.append_assoc]
      exact enters_append_right _ _ (by simpa using this)

/-! ## The properties -/

/-- **C107** (partial). If no frame was entered by EXTCALL, EXTDELEGATECALL or EXTSTATICCALL, the struct
logs list all executed instructions in the order of execution. What is missing for the full statement:
with such frames it is false, see `C107_never`. -/
theorem C107_logs_partial (cfg : Config) (t : Tx) (opts : GethOptions) (gas : Nat) (ret : Bytes)
    (hwf : t.WF) (hsafe : Safe cfg t.body) (hmade : MadeByCalls none t.body)
    (hext : extBodies none t.body = [])
    (hc : ∀ op, records cfg op = true)
    (hcalls : ∀ f ∈ frames t, Spec.excluded cfg f = false) :
    ∃ s out, TI.run cfg TI.new t.events = .ok s ∧ gethTraces s.arena gas ret opts = .ok out ∧
      out.structLogs.map readLog = (chron t).map expectedLog := by
  have hatt := attached_of_made t.body none hmade hext
  have h := C72_filtered_partial cfg t opts gas ret hwf hsafe hatt (fun op _ => hc op) hcalls
  have hf : (chron t).filter (fun e => records cfg e.2.before.op) = chron t :=
    List.filter_eq_self.2 (fun e _ => hc _)
  rw [hf] at h
  exact h

/-- **C107, the struct logs, exactly.** For every execution and configuration: directly after an EXTCALL,
EXTDELEGATECALL or EXTSTATICCALL the struct logs never list an instruction of a deeper frame. -/
theorem C107_logs_exact (cfg : Config) (t : Tx) (opts : GethOptions) (gas : Nat) (ret : Bytes)
    (hwf : t.WF) (hsafe : Safe cfg t.body) :
    ∃ s out, TI.run cfg TI.new t.events = .ok s ∧ gethTraces s.arena gas ret opts = .ok out ∧
      ∀ (k : Nat) (x y : StructLog), out.structLogs[k]? = some x → out.structLogs[k + 1]? = some y →
        isExtCall x.op = true → y.depth ≤ x.depth := by
  obtain ⟨s, out, hr, hg, _, _, _, hlen, h⟩ := C72_exact cfg t opts gas ret hwf hsafe
  refine ⟨s, out, hr, hg, ?_⟩
  intro k x y hx hy hext
  have hl := (weave_listed (rootOf t) (instrs cfg t.body) _
    (fun l hl => loggedBelow_listed cfg t.body 1 0 (valueInScope none t.hdr) 1 l hl)).chain
  change EachNext NotDeeper (logged cfg t) at hl
  have k1 : k + 1 < (logged cfg t).length := by
    rw [← hlen]
    exact (List.getElem?_eq_some_iff.1 hy).1
  obtain ⟨⟨f, a⟩, g1⟩ : ∃ e, (logged cfg t)[k]? = some e :=
    ⟨_, List.getElem?_eq_getElem (by omega)⟩
  obtain ⟨⟨f', a'⟩, g2⟩ : ∃ e, (logged cfg t)[k + 1]? = some e := ⟨_, List.getElem?_eq_getElem k1⟩
  have e1 := (h k f a x g1 hx).1
  have e2 := (h (k + 1) f' a' y g2 hy).1
  have hr := eachNext_get _ hl k _ _ g1 g2
  simp only [readLog, expectedLog, LogView.mk.injEq] at e1 e2
  have hd : f'.depth ≤ f.depth := hr (by show isExtCall a.before.op = true; rw [← e1.2.2.1]; exact hext)
  omega

/-- **C107, refuted for every such execution.** Whenever a frame that EXTCALL, EXTDELEGATECALL or
EXTSTATICCALL entered executes an instruction, the struct logs are not the executed instructions in the
order of execution: already the sequences of opcodes and depths differ, whatever is recorded. -/
theorem C107_never (cfg : Config) (t : Tx) (opts : GethOptions) (gas : Nat) (ret : Bytes)
    (hwf : t.WF) (hsafe : Safe cfg t.body) (hmade : MadeByCalls none t.body)
    (hrun : ∃ b ∈ extBodies none t.body, runsCode b = true) :
    ∃ s out, TI.run cfg TI.new t.events = .ok s ∧ gethTraces s.arena gas ret opts = .ok out ∧
      out.structLogs.map (fun l => (l.depth, l.op)) ≠
        (chron t).map (fun e => (e.1.depth + 1, e.2.before.op)) := by
  obtain ⟨s, out, hr, hg, h⟩ := C107_logs_exact cfg t opts gas ret hwf hsafe
  refine ⟨s, out, hr, hg, ?_⟩
  intro heq
  obtain ⟨pre, x, y, post, hl, hext, hd⟩ := chron_enters t.body
    ⟨0, none, 0, none, t.hdr, t.body, t.out⟩ 1 none hmade hrun [] (fun op h => nomatch h)
  rw [List.nil_append] at hl
  have hch : chron t = pre ++ x :: y :: post := hl
  have g1 := congrArg (fun l => l[pre.length]?) heq
  have g2 := congrArg (fun l => l[pre.length + 1]?) heq
  simp only [hch, List.getElem?_map] at g1 g2
  rw [List.getElem?_append_right (by omega)] at g1 g2
  simp only [Nat.sub_self, List.getElem?_cons_zero, Option.map_some] at g1
  rw [show pre.length + 1 - pre.length = 1 by omega] at g2
  simp only [List.getElem?_cons_succ, List.getElem?_cons_zero, Option.map_some] at g2
  cases h1 : out.structLogs[pre.length]? with
  | none => rw [h1] at g1; nomatch g1
  | some l1 =>
    cases h2 : out.structLogs[pre.length + 1]? with
    | none => rw [h2] at g2; nomatch g2
    | some l2 =>
      rw [h1] at g1
      rw [h2] at g2
      simp only [Option.map_some, Option.some.injEq, Prod.mk.injEq] at g1 g2
      have := h _ l1 l2 h1 h2 (by rw [g1.2]; exact hext)
      omega

/-! ## The `vmTrace` -/

theorem calllike_not_ext (op : OpCode) (h : isExtCall op = true) : entersFrame op = false := by
  simp only [isExtCall, Bool.or_eq_true, beq_iff_eq] at h
  rcases h with (rfl | rfl) | rfl <;> decide

theorem handOut_mem (ss : List CallTraceStep) : ∀ (q : List VmTrace) pc cost ex sub op,
    VmInstruction.mk pc cost ex sub op ∈ handOut ss q →
    (∀ w, sub = some w → w ∈ q) ∧ (isExtCall op = true → sub = none) := by
  induction ss with
  | nil => intro q pc cost ex sub op h; nomatch h
  | cons st ss ih =>
    intro q pc cost ex sub op h
    simp only [handOut] at h
    split at h
    · rename_i hc
      rcases List.mem_cons.1 h with h | h
      · simp only [vmInstr, VmInstruction.mk.injEq] at h
        obtain ⟨_, _, _, rfl, rfl⟩ := h
        refine ⟨fun w hw => List.mem_of_mem_head? hw, fun he => ?_⟩
        rw [calllike_not_ext _ he] at hc
        nomatch hc
      · obtain ⟨h1, h2⟩ := ih _ _ _ _ _ _ h
        exact ⟨fun w hw => List.mem_of_mem_tail (h1 w hw), h2⟩
    · rcases List.mem_cons.1 h with h | h
      · simp only [vmInstr, VmInstruction.mk.injEq] at h
        obtain ⟨_, _, _, rfl, rfl⟩ := h
        exact ⟨fun w hw => (nomatch hw), fun _ => rfl⟩
      · exact ih _ _ _ _ _ _ h

/-- **C107, the `vmTrace`, exactly.** For every execution and configuration: nowhere in the `vmTrace` has an
EXTCALL, EXTDELEGATECALL or EXTSTATICCALL a sub-trace. -/
theorem C107_vm_exact (cfg : Config) (t : Tx) (hwf : t.WF) (hsafe : Safe cfg t.body) :
    ∃ s v, TI.run cfg TI.new t.events = .ok s ∧ vmTrace s.arena = .ok v ∧
      ∀ (path : List Nat) (w : VmTrace) pc cost ex sub op, v.at path = some w →
        VmInstruction.mk pc cost ex sub op ∈ w.ops → isExtCall op = true → sub = none := by
  obtain ⟨s, v, hr, hv, hstop, hgo⟩ := C29_exact cfg t hwf hsafe
  refine ⟨s, v, hr, hv, ?_⟩
  by_cases hs : StopCase cfg t (stepsAt s.arena)
  · rw [hstop hs]
    intro path w pc cost ex sub op hp hm
    cases path with
    | nil =>
      simp only [VmTrace.at, Option.some.injEq] at hp
      subst hp
      nomatch hm
    | cons i path => simp [VmTrace.at] at hp
  · obtain ⟨V, hlen, hlast, htr⟩ := hgo hs
    have hV : ∀ w ∈ V, ∃ ss q, (∀ u ∈ q, u ∈ V) ∧ w = .mk [] (handOut ss q) := by
      intro w hw
      obtain ⟨i, hi, rfl⟩ := List.getElem_of_mem hw
      have := htr i _ V[i] (List.getElem?_eq_getElem (by omega)) (List.getElem?_eq_getElem hi)
      exact ⟨_, _, fun u hu => List.mem_of_mem_take (List.mem_of_mem_drop hu), this⟩
    have hat : ∀ (path : List Nat) (u w : VmTrace), u ∈ V → u.at path = some w → w ∈ V := by
      intro path
      induction path with
      | nil =>
        intro u w hu h
        simp only [VmTrace.at, Option.some.injEq] at h
        exact h ▸ hu
      | cons i path ih =>
        intro u w hu h
        obtain ⟨ss, q, hq, rfl⟩ := hV u hu
        simp only [VmTrace.at] at h
        split at h
        · rename_i pc cost ex sub op hi
          exact ih _ _ (hq _ ((handOut_mem ss q _ _ _ _ _ (List.mem_of_getElem? hi)).1 _ rfl)) h
        · nomatch h
    intro path w pc cost ex sub op hp hm hext
    obtain ⟨ss, q, hq, rfl⟩ := hV w (hat path v w (List.mem_of_getLast? hlast) hp)
    exact (handOut_mem ss q _ _ _ _ _ hm).2 hext

/-! ## The access list -/

/-- The hook call is the start of an EXTCALL, EXTDELEGATECALL or EXTSTATICCALL. -/
def startsExtCall : Event → Bool
  | .step i _ => isExtCall i.op
  | _ => false

/-- **C107, the access list, exactly.** The access list is the same without the EXTCALL,
EXTDELEGATECALL and EXTSTATICCALL instructions: the accounts they name are not listed. -/
theorem C107_access_exact (s : AccessList) (es : List Event) :
    runHooks AccessList.hook s es =
      runHooks AccessList.hook s (es.filter (fun e => !startsExtCall e)) := by
  induction es generalizing s with
  | nil => rfl
  | cons e es ih =>
    cases hx : startsExtCall e with
    | false =>
      simp only [List.filter_cons, hx, Bool.not_false, if_true, runHooks]
      cases AccessList.hook s e with
      | error p => rfl
      | ok s' => exact ih s'
    | true =>
      have hh : AccessList.hook s e = .ok s := by
        cases e <;> simp only [startsExtCall, Bool.false_eq_true] at hx
        rename_i i c
        simp only [isExtCall, Bool.or_eq_true, beq_iff_eq] at hx
        simp only [AccessList.hook]
        rcases hx with (hx | hx) | hx <;> rw [hx] <;> rfl
      simp only [List.filter_cons, hx, Bool.not_true, runHooks, hh]
      exact ih s

/-! ## Examples -/

namespace ExtExample
open Example VmExample

/-- A contract in the object format that calls 0xb with EXTCALL, then calls 0xd with the opcode `op`. -/
def extTx (op : OpCode) : Tx where
  hdr := callHdr .Call 0x99 0xa 0xa 0
  body :=
    .act (stepAct 0xf8 0 900 .CallOrCreate)
      (.sub (callHdr .Call 0xa 0xb 0xb 0) flat (out .Return)
        (.act (stepAct op 1 500 .CallOrCreate)
          (.sub (callHdr .Call 0xa 0xd 0xd 0) (.act (stepAct 0x02 0 50 .Return) .nil) (out .Return)
            (.act (stepAct 0xf3 2 100 .Return) .nil))))
  out := out .Return

theorem extTx_wf (op : OpCode) : (extTx op).WF := by
  refine ⟨fun _ => rfl, fun h => absurd h (by
    show ¬ (callHdr .Call 0x99 0xa 0xa 0).isPrecompile = true
    decide), ?_⟩
  refine ⟨fun _ => rfl, fun h => absurd h (by decide), trivial, ?_⟩
  exact ⟨fun _ => rfl, fun h => absurd h (by decide), trivial, trivial⟩

theorem extTx_made (op : OpCode) (h : entersFrame op = true ∨ isExtCall op = true) :
    MadeByCalls none (extTx op).body := by
  refine ⟨fun h => ?_, ⟨0xf8, rfl, .inr (by decide)⟩, ⟨fun h => ?_, trivial⟩, fun h => ?_,
    ⟨op, rfl, h⟩, ⟨fun h => ?_, trivial⟩, fun h => ?_, trivial⟩ <;>
  · obtain ⟨_, h, _⟩ := h
    nomatch h

end ExtExample

open ExtExample VmExample Example in
set_option maxRecDepth 20000 in
/-- **C107, refuted (lost).** A contract calls two others with EXTCALL: the struct logs list the
instructions of neither, and the `vmTrace` shows no sub-trace. -/
theorem C107_refuted_lost : (extTx 0xf8).WF ∧ MadeByCalls none (extTx 0xf8).body ∧
    (chron (extTx 0xf8)).map (fun e => (e.1.depth + 1, e.2.before.op)) =
      [(1, 0xf8), (2, Op.ADD), (1, 0xf8), (2, 0x02), (1, 0xf3)] ∧
    logOps Config.all (extTx 0xf8) = some [(1, 0xf8), (1, 0xf8), (1, 0xf3)] ∧
    ∃ s v, TI.run Config.all TI.new (extTx 0xf8).events = .ok s ∧ vmTrace s.arena = .ok v ∧
      view v = [(0xf8, none), (0xf8, none), (0xf3, none)] := by
  refine ⟨extTx_wf _, extTx_made _ (.inr (by decide)), by decide +kernel, by decide +kernel, ?_⟩
  exact ⟨_, _, rfl, rfl, by decide⟩

open ExtExample VmExample Example in
set_option maxRecDepth 20000 in
/-- **C107, refuted (order).** When the second call is a CALL, the struct logs and the `vmTrace` show the
instructions of the contract called first below the instruction that called the second one, whose own
instructions are lost. -/
theorem C107_refuted_order : (extTx Op.CALL).WF ∧ MadeByCalls none (extTx Op.CALL).body ∧
    (chron (extTx Op.CALL)).map (fun e => (e.1.depth + 1, e.2.before.op)) =
      [(1, 0xf8), (2, Op.ADD), (1, Op.CALL), (2, 0x02), (1, 0xf3)] ∧
    logOps Config.all (extTx Op.CALL) = some [(1, 0xf8), (1, Op.CALL), (2, Op.ADD), (1, 0xf3)] ∧
    ∃ s v, TI.run Config.all TI.new (extTx Op.CALL).events = .ok s ∧ vmTrace s.arena = .ok v ∧
      view v = [(0xf8, none), (Op.CALL, some [(Op.ADD, false)]), (0xf3, none)] := by
  refine ⟨extTx_wf _, extTx_made _ (.inl (by decide)), by decide +kernel, by decide +kernel, ?_⟩
  exact ⟨_, _, rfl, rfl, by decide⟩

open ExtExample VmExample Example in
/-- **C107, refuted (access list).** The account that a CALL names is listed, the one that an EXTCALL names
(at the top of the stack) is not. -/
theorem C107_refuted_access :
    (interp 0xf8 0 900 .Continue).peek 0 = some 19 ∧ (interp Op.CALL 0 900 .Continue).peek 1 = some 18 ∧
    (runHooks AccessList.hook (AccessList.new [] 1 2 []) (extTx 0xf8).events).toOption.map (·.result)
      = some [] ∧
    (runHooks AccessList.hook (AccessList.new [] 1 2 []) (extTx Op.CALL).events).toOption.map (·.result)
      = some [(18, [])] := by
  decide +kernel

open ExtExample VmExample Example in
/-- The hypotheses of `C107_never` are met by both examples with every configuration, and those of
`C107_logs_partial` by an execution with CALL only. -/
example : (∀ op cfg, (op = 0xf8 ∨ op = Op.CALL) → Safe cfg (extTx op).body ∧
      ∃ b ∈ extBodies none (extTx op).body, runsCode b = true) ∧
    (MadeByCalls none (tx2 flat nested).body ∧ extBodies none (tx2 flat nested).body = []) := by
  refine ⟨?_, ?_, by decide⟩
  · rintro op cfg (rfl | rfl) <;>
    exact ⟨⟨stepSafe _ _ _ _ (by decide), ⟨stepSafe _ _ _ _ (by decide), trivial⟩,
      stepSafe _ _ _ _ (by decide), ⟨stepSafe _ _ _ _ (by decide), trivial⟩,
      stepSafe _ _ _ _ (by decide), trivial⟩, flat, by simp [extBodies, extTx, isExtCall, opOf, stepAct, interp], rfl⟩
  · refine ⟨fun h => ?_, ⟨Op.CALL, rfl, .inl (by decide)⟩, ⟨fun h => ?_, trivial⟩, fun h => ?_,
      ⟨Op.CALL, rfl, .inl (by decide)⟩, ⟨fun h => ?_, ⟨Op.CALL, rfl, .inl (by decide)⟩,
        ⟨fun h => ?_, trivial⟩, fun h => ?_, trivial⟩, fun h => ?_, trivial⟩ <;>
    · obtain ⟨_, h, _⟩ := h
      nomatch h

end Verif.Props
