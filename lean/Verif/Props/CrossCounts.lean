import Verif.Props.Arena
import Verif.Props.Standalone
import Verif.Props.StructLogs
/-!
# C68: the small inspectors and the recording agree

What `OpcodeCounterInspector`, `OpcodeGasInspector` and `FourByteInspector` report, in terms of the
nodes that a `TracingInspector` records for the same execution.
-/
namespace Verif.Props
open Spec
open Verif.Rec (run_frames nodeOf)

/-! ### Sums over frames -/

/-- Sum of the weights of the actions of a frame itself. -/
def ownSum (w : Act → Nat) : Body → Nat
  | .nil => 0
  | .act a rest => w a + ownSum w rest
  | .sub _ _ _ rest => ownSum w rest

/-- Sum of the weights of all actions and headers in and below a frame. -/
def allSum (w : Act → Nat) (wh : Header → Nat) : Body → Nat
  | .nil => 0
  | .act a rest => w a + allSum w wh rest
  | .sub h b _ rest => wh h + allSum w wh b + allSum w wh rest

theorem subFrames_sum (w : Act → Nat) (wh : Header → Nat) (b : Body) (d p : Nat) (v : U256) (n : Nat) :
    ownSum w b + ((subFrames d p v n b).map (fun f => wh f.hdr + ownSum w f.body)).sum
      = allSum w wh b := by
  induction b generalizing d p v n with
  | nil => rfl
  | act a rest ih => rw [ownSum, subFrames, allSum, ← ih d p v n]; omega
  | sub h b o rest ihb ihr =>
    rw [ownSum, subFrames, allSum, ← ihb (d + 1) n (valueInScope (some v) h) (n + 1),
      ← ihr d p v (n + 1 + b.size)]
    simp only [List.map_cons, List.sum_cons, List.map_append, List.sum_append_nat]
    omega

theorem frames_sum (w : Act → Nat) (wh : Header → Nat) (t : Tx) :
    ((frames t).map (fun f => wh f.hdr + ownSum w f.body)).sum = wh t.hdr + allSum w wh t.body := by
  rw [frames, List.map_cons, List.sum_cons, ← subFrames_sum w wh t.body 1 0 (valueInScope none t.hdr) 1]
  dsimp only
  omega

/-! ### The events of an execution as such sums -/

def startW : Act → Nat
  | .step _ _ _ _ => 1
  | .aborted _ _ => 1
  | _ => 0

def opW (op : OpCode) : Act → Nat
  | .step i _ _ _ => if i.op == op then 1 else 0
  | .aborted i _ => if i.op == op then 1 else 0
  | _ => 0

def gasW (op : OpCode) : Act → Nat
  | .step i _ i' _ => if i.op == op then i.gas.remaining - i'.gas.remaining else 0
  | _ => 0

def selW (sel : Bytes) (size : Nat) : Header → Nat
  | .call _ inp => if inp.input.length = 4 + size ∧ inp.input.take 4 = sel then 1 else 0
  | .create _ _ => 0

theorem starts_append (a b : List Event) : starts (a ++ b) = starts a + starts b := by
  induction a with
  | nil => simp [starts]
  | cons e a ih => cases e <;> simp only [List.cons_append, starts, ih] <;> omega

theorem starts_body (b : Body) (d : Nat) : starts (b.events d) = allSum startW (fun _ => 0) b := by
  induction b generalizing d with
  | nil => rfl
  | act a rest ih =>
    rw [Body.events, starts_append, allSum, ih]
    cases a <;> rfl
  | sub h b o rest ihb ihr =>
    rw [Body.events, allSum, ← ihb (d + 1), ← ihr d]
    cases h <;> simp only [Header.enter, Header.leave, starts, starts_append] <;> omega

theorem starts_tx (t : Tx) : starts t.events = allSum startW (fun _ => 0) t.body := by
  rw [Tx.events, ← starts_body t.body 1]
  cases t.hdr <;> simp only [Header.enter, Header.leave, starts, starts_append] <;> omega

theorem callsWith_append (sel : Bytes) (size : Nat) (a b : List Event) :
    callsWith sel size (a ++ b) = callsWith sel size a + callsWith sel size b := by
  induction a with
  | nil => simp [callsWith]
  | cons e a ih => cases e <;> simp only [List.cons_append, callsWith, ih] <;> omega

theorem callsWith_body (sel : Bytes) (size : Nat) (b : Body) (d : Nat) :
    callsWith sel size (b.events d) = allSum (fun _ => 0) (selW sel size) b := by
  induction b generalizing d with
  | nil => rfl
  | act a rest ih =>
    rw [Body.events, callsWith_append, allSum, ih]
    cases a <;> rfl
  | sub h b o rest ihb ihr =>
    rw [Body.events, allSum, ← ihb (d + 1), ← ihr d]
    cases h <;> simp only [Header.enter, Header.leave, callsWith, callsWith_append, selW] <;> omega

theorem callsWith_tx (sel : Bytes) (size : Nat) (t : Tx) :
    callsWith sel size t.events = selW sel size t.hdr + allSum (fun _ => 0) (selW sel size) t.body := by
  rw [Tx.events, ← callsWith_body sel size t.body 1]
  cases t.hdr <;> simp only [Header.enter, Header.leave, callsWith, callsWith_append, selW] <;> omega

theorem countOf_executed (op : OpCode) (b : Body) (h : NoAborts b) :
    countOf op (executed b) = allSum (opW op) (fun _ => 0) b := by
  unfold countOf
  induction b with
  | nil => rfl
  | act a rest ih =>
    cases a with
    | aborted i c => exact absurd h (by simp [NoAborts])
    | step i c i' c' =>
      rw [executed, allSum, ← ih h, opW, List.filter_cons]
      by_cases e : (i.op == op) = true
      · rw [if_pos e, if_pos e, List.length_cons]; omega
      · rw [if_neg e, if_neg e]; omega
    | log c l => rw [executed, allSum, ← ih h, opW, Nat.zero_add] <;> simp
    | selfdestruct a t v => rw [executed, allSum, ← ih h, opW, Nat.zero_add] <;> simp
  | sub hd b o rest ihb ihr =>
    rw [executed, allSum, ← ihb h.1, ← ihr h.2, List.filter_append, List.length_append]; omega

theorem gasOf_executed (op : OpCode) (b : Body) (h : NoAborts b) :
    gasOf op (executed b) = allSum (gasW op) (fun _ => 0) b := by
  unfold gasOf
  induction b with
  | nil => rfl
  | act a rest ih =>
    cases a with
    | aborted i c => exact absurd h (by simp [NoAborts])
    | step i c i' c' =>
      rw [executed, allSum, ← ih h, gasW, List.filter_cons]
      by_cases e : (i.op == op) = true
      · rw [if_pos e, if_pos e, List.map_cons, List.sum_cons]
      · rw [if_neg e, if_neg e]; omega
    | log c l => rw [executed, allSum, ← ih h, gasW, Nat.zero_add] <;> simp
    | selfdestruct a t v => rw [executed, allSum, ← ih h, gasW, Nat.zero_add] <;> simp
  | sub hd b o rest ihb ihr =>
    rw [executed, allSum, ← ihb h.1, ← ihr h.2, List.filter_append, List.map_append,
      List.sum_append_nat]; omega

/-! ### The recorded steps as such sums -/

theorem records_all {cfg : Config} (h1 : cfg.recordSteps = true) (h2 : cfg.recordOpcodesFilter = none)
    (op : OpCode) : records cfg op = true := by
  simp [records, h1, h2]

theorem executedSteps_length {cfg : Config} (h1 : cfg.recordSteps = true)
    (h2 : cfg.recordOpcodesFilter = none) (d : Nat) (b : Body) :
    (executedSteps cfg d b).length = ownSum startW b := by
  induction b with
  | nil => rfl
  | act a rest ih =>
    cases a <;> simp only [executedSteps, ownSum, startW, records_all h1 h2, if_true, List.length_append,
      List.length_cons, List.length_nil, ih] <;> omega
  | sub hd b o rest _ ihr => exact ihr

theorem executedSteps_count {cfg : Config} (h1 : cfg.recordSteps = true)
    (h2 : cfg.recordOpcodesFilter = none) (op : OpCode) (d : Nat) (b : Body) :
    ((executedSteps cfg d b).filter (fun v => v.op == op)).length = ownSum (opW op) b := by
  induction b with
  | nil => rfl
  | act a rest ih =>
    cases a with
    | step i c i' c' =>
      simp only [executedSteps, ownSum, opW, records_all h1 h2, if_true, List.filter_append,
        List.length_append, ih]
      by_cases e : (i.op == op) = true
      · rw [List.filter_cons, if_pos (by exact e)]; simp [e, stepView]
      · rw [List.filter_cons, if_neg (by exact e)]; simp [e]
    | aborted i c =>
      simp only [executedSteps, ownSum, opW, records_all h1 h2, if_true, List.filter_append,
        List.length_append, ih]
      by_cases e : (i.op == op) = true
      · rw [List.filter_cons, if_pos (by exact e)]; simp [e, stepView]
      · rw [List.filter_cons, if_neg (by exact e)]; simp [e]
    | log c l => simpa [executedSteps, ownSum, opW] using ih
    | selfdestruct a t v => simpa [executedSteps, ownSum, opW] using ih
  | sub hd b o rest _ ihr => exact ihr

theorem executedSteps_gas {cfg : Config} (h1 : cfg.recordSteps = true)
    (h2 : cfg.recordOpcodesFilter = none) (op : OpCode) (d : Nat) (b : Body) :
    (((executedSteps cfg d b).filter (fun v => v.op == op)).map (·.gasCost)).sum = ownSum (gasW op) b := by
  induction b with
  | nil => rfl
  | act a rest ih =>
    cases a with
    | step i c i' c' =>
      simp only [executedSteps, ownSum, gasW, records_all h1 h2, if_true, List.filter_append,
        List.map_append, List.sum_append_nat, ih]
      by_cases e : (i.op == op) = true
      · rw [List.filter_cons, if_pos (by exact e)]; simp [e, stepView]
      · rw [List.filter_cons, if_neg (by exact e)]; simp [e]
    | aborted i c =>
      simp only [executedSteps, ownSum, gasW, records_all h1 h2, if_true, List.filter_append,
        List.map_append, List.sum_append_nat, ih]
      by_cases e : (i.op == op) = true
      · rw [List.filter_cons, if_pos (by exact e)]; simp [e, stepView]
      · rw [List.filter_cons, if_neg (by exact e)]; simp [e]
    | log c l => simpa [executedSteps, ownSum, gasW] using ih
    | selfdestruct a t v => simpa [executedSteps, ownSum, gasW] using ih
  | sub hd b o rest _ ihr => exact ihr

/-- A sum over the arena as a sum over the frames. -/
theorem sum_arena {cfg : Config} {t : Tx} {arena : List Node} (g : Node → Nat) (g' : FrameCtx → Nat)
    (hl : arena.length = (frames t).length)
    (h : ∀ (k : Nat) (f : FrameCtx) (x : Node), (frames t)[k]? = some f → arena[k]? = some x →
      g x = g' f) : (arena.map g).sum = ((frames t).map g').sum := by
  congr 1
  apply List.ext_getElem?
  intro k
  rw [List.getElem?_map, List.getElem?_map]
  cases hx : arena[k]? with
  | none =>
    have := List.getElem?_eq_none_iff.1 hx
    rw [List.getElem?_eq_none (by omega)]; rfl
  | some x =>
    have hlt := (List.getElem?_eq_some_iff.1 hx).1
    have hf : (frames t)[k]? = some ((frames t)[k]'(by omega)) := List.getElem?_eq_getElem _
    rw [hf]
    simp only [Option.map_some]
    rw [h k _ x hf hx]

/-- The node records a call (not a create) with these first four bytes of input and this number of
bytes after them. -/
def isCallWith (sel : Bytes) (size : Nat) (x : Node) : Bool :=
  decide (x.trace.kind ≠ .Create) && decide (x.trace.kind ≠ .Create2) &&
    decide (x.trace.data.length = 4 + size) && decide (x.trace.data.take 4 = sel)

theorem length_filter_sum {α : Type} (p : α → Bool) (l : List α) :
    (l.filter p).length = (l.map (fun x => if p x then 1 else 0)).sum := by
  induction l with
  | nil => rfl
  | cons x l ih =>
    rw [List.filter_cons, List.map_cons, List.sum_cons, ← ih]
    split <;> simp <;> omega

/-- **C68.** One execution, watched by a `TracingInspector` that records all steps and by the small
inspectors: the opcode counter counts the recorded steps of all nodes; for each opcode the opcode-gas
inspector has the number of recorded steps with this opcode and the sum of their recorded gas costs; for
each selector and size the four-byte inspector has the number of recorded calls with them. (Totals must
fit in 64 bits, and for the opcode gas no instruction is skipped by another inspector.) -/
theorem C68_counts_agree (cfg : Config) (t : Tx) (hwf : t.WF) (hsafe : Safe cfg t.body)
    (hsteps : cfg.recordSteps = true) (hfilter : cfg.recordOpcodesFilter = none)
    (known : OpCode → Bool) :
    ∃ s, TI.run cfg TI.new t.events = .ok s ∧
      ((s.arena.map (fun x => x.trace.steps.length)).sum < 2 ^ 64 →
        runHooks opcountHook 0 t.events = .ok (s.arena.map (fun x => x.trace.steps.length)).sum) ∧
      (NoAborts t.body →
        (∀ op, known op = true → (s.arena.flatMap (·.trace.steps) |>.filter (·.op == op)).length < 2 ^ 64 ∧
          ((s.arena.flatMap (·.trace.steps) |>.filter (·.op == op)).map (·.gasCost)).sum < 2 ^ 64) →
        ∃ g, runHooks (OpcodeGas.hook known) {} t.events = .ok g ∧
          ∀ op n c, (op, (n, c)) ∈ g.opcodeIter ↔ known op = true ∧ n ≠ 0 ∧
            n = (s.arena.flatMap (·.trace.steps) |>.filter (·.op == op)).length ∧
            c = ((s.arena.flatMap (·.trace.steps) |>.filter (·.op == op)).map (·.gasCost)).sum) ∧
      ((∀ sel size, (s.arena.filter (isCallWith sel size)).length < 2 ^ 64) →
        ∃ m, runHooks fourByteHook [] t.events = .ok m ∧ AMap.Nodup m ∧
          ∀ sel size, AMap.get? m (sel, size)
            = if (s.arena.filter (isCallWith sel size)).length = 0 then none
              else some (s.arena.filter (isCallWith sel size)).length) := by
  obtain ⟨s, hr, hl, hst, _⟩ := C06_steps_as_configured cfg t hwf hsafe
  obtain ⟨s', hr', har, _⟩ := C03_recorded cfg t hwf hsafe
  rw [hr] at hr'
  obtain rfl := Except.ok.inj hr'
  refine ⟨s, hr, ?_, ?_, ?_⟩
  · have h : (s.arena.map (fun x => x.trace.steps.length)).sum = starts t.events := by
      rw [starts_tx, sum_arena (cfg := cfg) _ (fun f => 0 + ownSum startW f.body) hl
        (fun k f x hf hx => by
          rw [Nat.zero_add, ← executedSteps_length hsteps hfilter (f.depth + 1), ← hst k f x hf hx,
            List.length_map])]
      rw [frames_sum startW (fun _ => 0), Nat.zero_add]
    rw [h]
    exact C36_opcount t.events
  · intro hno hb
    have hcount : ∀ op, (s.arena.flatMap (·.trace.steps) |>.filter (·.op == op)).length
        = countOf op (executed t.body) := by
      intro op
      rw [countOf_executed op _ hno, ← Nat.zero_add (allSum (opW op) _ _),
        ← frames_sum (opW op) (fun _ => 0),
        ← sum_arena (cfg := cfg) (fun x => (x.trace.steps.filter (·.op == op)).length) _ hl
          (fun k f x hf hx => by
            rw [Nat.zero_add, ← executedSteps_count hsteps hfilter op (f.depth + 1), ← hst k f x hf hx,
              List.filter_map, List.length_map]
            rfl)]
      rw [List.filter_flatMap, List.length_flatMap]
    have hgas : ∀ op, ((s.arena.flatMap (·.trace.steps) |>.filter (·.op == op)).map (·.gasCost)).sum
        = gasOf op (executed t.body) := by
      intro op
      rw [gasOf_executed op _ hno, ← Nat.zero_add (allSum (gasW op) _ _),
        ← frames_sum (gasW op) (fun _ => 0),
        ← sum_arena (cfg := cfg) (fun x => ((x.trace.steps.filter (·.op == op)).map (·.gasCost)).sum) _ hl
          (fun k f x hf hx => by
            rw [Nat.zero_add, ← executedSteps_gas hsteps hfilter op (f.depth + 1), ← hst k f x hf hx,
              List.filter_map, List.map_map]
            rfl)]
      generalize s.arena = l
      induction l with
      | nil => rfl
      | cons x l ih =>
        rw [List.flatMap_cons, List.filter_append, List.map_append, List.sum_append_nat, ih,
          List.map_cons, List.sum_cons]
    obtain ⟨g, h1, _, _, _, h5⟩ := C35_opcode_gas_partial known t.events (executed t.body)
      (C35_executions t hno) (fun op hk => by rw [← hcount]; exact (hb op hk).1)
      (fun op hk => by rw [← hgas]; exact (hb op hk).2)
    refine ⟨g, h1, ?_⟩
    intro op n c
    rw [h5, hcount, hgas]
    constructor
    · rintro ⟨a, b, rfl, rfl⟩; exact ⟨a, b, rfl, rfl⟩
    · rintro ⟨a, b, rfl, rfl⟩; exact ⟨a, b, rfl, rfl⟩
  · intro hb
    have hsel : ∀ sel size, (s.arena.filter (isCallWith sel size)).length = callsWith sel size t.events := by
      intro sel size
      rw [length_filter_sum, callsWith_tx, ← frames_sum (fun _ => 0) (selW sel size)]
      refine sum_arena (cfg := cfg) _ _ hl ?_
      intro k f x hf hx
      have hd : readFrame x = frameData f := by
        have := congrArg (·[k]?) har
        simp only [List.getElem?_map, hf, hx, Option.map_some, Option.some.injEq] at this
        exact this
      have hk : x.trace.kind = kind f.hdr := congrArg FrameData.kind hd
      have hi : x.trace.data = input f.hdr := congrArg FrameData.input hd
      have h0 : ownSum (fun _ => 0) f.body = 0 := by
        generalize f.body = b
        induction b with
        | nil => rfl
        | act a rest ih => rw [ownSum, ih]
        | sub _ _ _ rest _ ih => rw [ownSum, ih]
      rw [h0, Nat.add_zero]
      unfold isCallWith
      rw [hk, hi]
      cases f.hdr with
      | call c inp =>
        rw [selW]
        have hk : decide (kind (.call c inp) ≠ .Create) = true ∧
            decide (kind (.call c inp) ≠ .Create2) = true := by
          cases hs : inp.scheme <;> simp [kind, hs]
        rw [hk.1, hk.2, input, Bool.true_and, Bool.true_and]
        by_cases e1 : inp.input.length = 4 + size <;> by_cases e2 : inp.input.take 4 = sel <;> simp [e1, e2]
      | create c inp => cases hs : inp.scheme <;> simp [kind, selW, hs]
    obtain ⟨m, h1, h2, h3⟩ := C37_counts t.events (fun sel size => by rw [← hsel]; exact hb sel size)
    exact ⟨m, h1, h2, fun sel size => by rw [h3, hsel]⟩

/-- The example meets the hypotheses: nine instructions, two of them STOP with a total cost of
6, and four of its five frames are calls with the selector `01020304` and one byte after it. -/
example : NoAborts Example.tx.body ∧ starts Example.tx.events = 9 ∧
    countOf 0x00 (executed Example.body) = 2 ∧ gasOf 0x00 (executed Example.body) = 6 ∧
    callsWith [1, 2, 3, 4] 1 Example.tx.events = 4 := by
  refine ⟨?_, by decide, by decide, by decide, by decide⟩
  exact ⟨⟨trivial, trivial⟩, trivial, trivial, trivial⟩

end Verif.Props
