import Verif.Props.OpcodeGasExact
import Verif.Props.StandaloneExamples
import Verif.Props.AccessListLaws
/-!
# C35 with instructions that do not end; C108: the small inspectors over several transactions
-/
namespace Verif.Props
open Spec

/-! ## C35: instructions that do not end -/

/-- The end of the instruction that started just before these events, if it has one: an end before
another instruction starts. -/
def ownEnd : List Event → Option Interp
  | [] => none
  | .stepEnd i _ :: _ => some i
  | .step _ _ :: _ => none
  | _ :: es => ownEnd es

/-- The instructions that start and end in a history, with the gas they took. -/
def consumed : List Event → List (OpCode × Nat)
  | [] => []
  | .step i _ :: es =>
    match ownEnd es with
    | none => consumed es
    | some i' => (i.op, i.gas.remaining - i'.gas.remaining) :: consumed es
  | _ :: es => consumed es

theorem endOf_own (known : OpCode → Bool) (es : List Event)
    (h : ∀ i c, Event.step i c ∈ es → known i.op = true) : endOf known es = ownEnd es := by
  induction es with
  | nil => rfl
  | cons e es ih =>
    have ih := ih (fun i c hm => h i c (List.mem_cons_of_mem _ hm))
    cases e <;> simp only [endOf, ownEnd, ih]
    rename_i i c
    rw [h i c (List.mem_cons_self ..)]
    rfl

theorem charges_consumed (known : OpCode → Bool) (es : List Event)
    (h : ∀ i c, Event.step i c ∈ es → known i.op = true) : charges known es = consumed es := by
  induction es with
  | nil => rfl
  | cons e es ih =>
    have hes := fun i c hm => h i c (List.mem_cons_of_mem _ hm)
    have ih := ih hes
    cases e <;> simp only [charges, consumed, ih]
    rename_i i c
    rw [h i c (List.mem_cons_self ..), endOf_own known es hes]
    rfl

/-- **C35** for histories with instructions that do not end (partial: all opcodes that start are known to
revm, and the totals fit in 64 bits; see `C35_refuted_stale` and `C35_refuted`). Each opcode that started is
reported once, with the number of its starts and the gas of those of its instructions that ended. -/
theorem C35_unended_partial (known : OpCode → Bool) (es : List Event)
    (hk : ∀ i c, Event.step i c ∈ es → known i.op = true)
    (hc : ∀ op, startsOf op es < 2 ^ 64) (hg : ∀ op, chargedTo op (consumed es) < 2 ^ 64) :
    ∃ s, runHooks (OpcodeGas.hook known) {} es = .ok s ∧ (s.opcodeIter.map Prod.fst).Nodup ∧
      ∀ op n g, (op, (n, g)) ∈ s.opcodeIter ↔
        known op = true ∧ n ≠ 0 ∧ n = startsOf op es ∧ g = chargedTo op (consumed es) := by
  obtain ⟨h1, h2⟩ := C35_exact known es
  rw [charges_consumed known es hk] at h1 h2
  obtain ⟨s, hs⟩ := h1.2 (fun op => ⟨fun _ => hc op, hg op⟩)
  exact ⟨s, hs, h2 s hs⟩

namespace SeveralExample
open StandaloneExample

/-- A frame whose instruction does not end. -/
def stops (op : OpCode) (remaining : Nat) : Act :=
  .aborted { Example.interp op 0 remaining .Continue with gas := ⟨1000, remaining, 0⟩ } Example.ctx

/-- A contract calls another, whose ADD another inspector stops, losing the gas of the callee; the next
instruction of the calling contract, 0x0c, is none revm knows. -/
def stale : Tx where
  hdr := hdr 0 []
  body :=
    .act (instr 0xf1 [] 1000 15) <|
    .sub (hdr 0 []) (.act (stops 0x01 900) .nil) out <|
    .act (instr 0x0c [] 15 15) .nil
  out := out

/-- revm knows all opcodes but 0x0c. -/
def known (op : OpCode) : Bool := op != 0x0c

/-- A transaction whose first instruction another inspector stops. -/
def first : Tx where
  hdr := hdr 0 []
  body := .act (stops 0x01 900) .nil
  out := out

/-- A transaction whose only instruction is none revm knows. -/
def second : Tx where
  hdr := hdr 0 []
  body := .act (instr 0x0c [] 100 100) .nil
  out := out

end SeveralExample

open SeveralExample in
/-- **C35, refuted** (instructions that do not end): the ADD of the callee was never executed, but 885 gas is
reported for it when the next instruction, with an opcode revm does not know, ends. -/
theorem C35_refuted_stale :
    consumed stale.events = [(0xf1, 985), (0x0c, 0)] ∧
    (runHooks (OpcodeGas.hook known) {} stale.events).toOption.map (·.opcodeIter) =
      some [(0xf1, 1, 985), (0x01, 1, 885)] := by
  decide +kernel

open SeveralExample in
/-- The hypotheses of `C35_unended_partial` are met by an execution with an instruction that does not end. -/
example : (∀ i c, Event.step i c ∈ first.events → known i.op = true) ∧
    (∀ op, startsOf op first.events < 2 ^ 64) ∧ (∀ op, chargedTo op (consumed first.events) < 2 ^ 64) ∧
    startsOf 0x01 first.events = 1 ∧ consumed first.events = [] := by
  refine ⟨?_, ?_, ?_, by decide, by decide⟩
  · intro i c h
    simp only [first, Tx.events, Body.events, Act.events, stops, StandaloneExample.hdr, Header.enter, Header.leave,
      List.cons_append, List.nil_append, List.mem_cons, List.not_mem_nil, or_false, reduceCtorEq, false_or,
      Event.step.injEq] at h
    rw [h.1]
    decide
  · intro op
    have : startsOf op first.events ≤ 1 := by
      simp only [first, Tx.events, Body.events, Act.events, stops, StandaloneExample.hdr, Header.enter,
        Header.leave, List.cons_append, List.nil_append, startsOf]
      split <;> omega
    omega
  · intro op
    exact (by decide : (0 : Nat) < 2 ^ 64)

/-! ## C108: several transactions -/

/-- The hook calls of transactions that follow each other. -/
def eventsOf (ts : List Tx) : List Event := ts.flatMap Tx.events

theorem starts_append (es es' : List Event) : starts (es ++ es') = starts es + starts es' := by
  induction es with
  | nil => simp [starts]
  | cons e es ih => cases e <;> simp only [List.cons_append, starts, ih]; omega

theorem callsWith_append (sel : Bytes) (size : Nat) (es es' : List Event) :
    callsWith sel size (es ++ es') = callsWith sel size es + callsWith sel size es' := by
  induction es with
  | nil => simp [callsWith]
  | cons e es ih => cases e <;> simp only [List.cons_append, callsWith, ih]; omega

theorem startsOf_append (op : OpCode) (es es' : List Event) :
    startsOf op (es ++ es') = startsOf op es + startsOf op es' := by
  induction es with
  | nil => simp [startsOf]
  | cons e es ih => cases e <;> simp only [List.cons_append, startsOf, ih]; omega

/-- A measure that adds up over histories adds up over transactions. -/
theorem sum_events (f : List Event → Nat) (h0 : f [] = 0) (h : ∀ es es', f (es ++ es') = f es + f es')
    (ts : List Tx) : f (eventsOf ts) = (ts.map (fun t => f t.events)).sum := by
  induction ts with
  | nil => exact h0
  | cons t ts ih =>
    simp only [eventsOf, List.flatMap_cons, List.map_cons, List.sum_cons, h]
    rw [← ih]
    rfl

theorem le_sum (f : Tx → Nat) {ts : List Tx} {t : Tx} (h : t ∈ ts) : f t ≤ (ts.map f).sum := by
  induction ts with
  | nil => nomatch h
  | cons u ts ih =>
    simp only [List.map_cons, List.sum_cons]
    rcases List.mem_cons.1 h with rfl | h
    · omega
    · have := ih h
      omega

theorem sum_congr' (f g : Tx → Nat) (ts : List Tx) (h : ∀ t ∈ ts, f t = g t) :
    (ts.map f).sum = (ts.map g).sum := by
  rw [List.map_congr_left h]

/-- **C108, opcode counter.** An opcode counter that is used for several transactions has the sum of the
counts that separate ones have (if it fits in 64 bits). -/
theorem C108_counts (ts : List Tx) (h : (ts.map (fun t => starts t.events)).sum < 2 ^ 64) :
    ∃ r : Tx → Nat, (∀ t ∈ ts, runHooks opcountHook 0 t.events = .ok (r t)) ∧
      runHooks opcountHook 0 (eventsOf ts) = .ok (ts.map r).sum := by
  refine ⟨fun t => starts t.events, fun t ht => C36_opcount _ ?_, ?_⟩
  · exact Nat.lt_of_le_of_lt (le_sum (fun t => starts t.events) ht) h
  · rw [← sum_events starts rfl starts_append] at h ⊢
    exact C36_opcount _ h

/-- **C108, four-byte statistics.** Used for several transactions, the inspector has for each selector and
size the sum of the counts that separate inspectors have. -/
theorem C108_fourbyte (ts : List Tx)
    (h : ∀ sel size, (ts.map (fun t => callsWith sel size t.events)).sum < 2 ^ 64) :
    ∃ (r : Tx → FourByte) (s : FourByte), (∀ t ∈ ts, runHooks fourByteHook [] t.events = .ok (r t)) ∧
      runHooks fourByteHook [] (eventsOf ts) = .ok s ∧
      ∀ sel size, (AMap.get? s (sel, size)).getD 0 =
        (ts.map (fun t => (AMap.get? (r t) (sel, size)).getD 0)).sum := by
  have hget : ∀ (es : List Event) (s : FourByte), (∀ sel size, AMap.get? s (sel, size)
      = if callsWith sel size es = 0 then none else some (callsWith sel size es)) →
      ∀ sel size, (AMap.get? s (sel, size)).getD 0 = callsWith sel size es := by
    intro es s hs sel size
    rw [hs sel size]
    split
    · rename_i h0; rw [h0]; rfl
    · rfl
  have hone : ∀ t ∈ ts, ∃ s, runHooks fourByteHook [] t.events = .ok s ∧
      ∀ sel size, (AMap.get? s (sel, size)).getD 0 = callsWith sel size t.events := by
    intro t ht
    obtain ⟨s, h1, _, h2⟩ := C37_counts t.events (fun sel size =>
      Nat.lt_of_le_of_lt (le_sum (fun t => callsWith sel size t.events) ht) (h sel size))
    exact ⟨s, h1, hget _ s h2⟩
  have hsum := fun sel size => sum_events (callsWith sel size) rfl (callsWith_append sel size) ts
  obtain ⟨s, h1, _, h2⟩ := C37_counts (eventsOf ts) (fun sel size => by
    rw [hsum sel size]; exact h sel size)
  refine ⟨fun t => (runHooks fourByteHook [] t.events).toOption.getD [], s, ?_, h1, ?_⟩
  · intro t ht
    obtain ⟨s', hs', _⟩ := hone t ht
    simp only [hs']
    rfl
  · intro sel size
    rw [hget _ s h2, hsum sel size]
    apply sum_congr'
    intro t ht
    obtain ⟨s', hs', he⟩ := hone t ht
    simp only [hs']
    exact (he sel size).symm

/-- **C108, transfers.** Used for several transactions, the inspector lists the transfers that separate
inspectors list, one list after the other. -/
theorem C108_transfers (io : Bool) (ts : List Tx) :
    ∃ r : Tx → List Transfer, (∀ t ∈ ts, runHooks (transferHook io) [] t.events = .ok (r t)) ∧
      runHooks (transferHook io) [] (eventsOf ts) = .ok (ts.flatMap r) := by
  refine ⟨fun t => t.events.flatMap (emit io), fun t _ => ?_, ?_⟩
  · rw [transfer_run]; rfl
  · rw [transfer_run, List.nil_append, eventsOf, List.flatMap_assoc]

theorem slotTouched_eventsOf (ts : List Tx) (a : Address) (k : U256) :
    SlotTouched (eventsOf ts) a k ↔ ∃ t ∈ ts, SlotTouched t.events a k := by
  induction ts with
  | nil => simp [eventsOf, SlotTouched]
  | cons t ts ih =>
    have : eventsOf (t :: ts) = t.events ++ eventsOf ts := rfl
    rw [this, slotTouched_append, ih]
    simp

theorem addressNamed_eventsOf (ts : List Tx) (a : Address) :
    AddressNamed (eventsOf ts) a ↔ ∃ t ∈ ts, AddressNamed t.events a := by
  induction ts with
  | nil => simp [eventsOf, AddressNamed]
  | cons t ts ih =>
    have : eventsOf (t :: ts) = t.events ++ eventsOf ts := rfl
    rw [this, addressNamed_append, ih]
    simp

/-- An access list has the slot of the address. -/
def Lists (r : List (Address × List U256)) (a : Address) (k : U256) : Prop :=
  ∃ ks, (a, ks) ∈ r ∧ k ∈ ks

theorem lists_iff {P X es r} (h : IsAccessList P X es r) (a : Address) (k : U256) :
    Lists r a k ↔ (∃ ks, (a, ks) ∈ P ∧ k ∈ ks) ∨ SlotTouched es a k := by
  constructor
  · rintro ⟨ks, hm, hk⟩
    exact (h.slots a ks hm k).1 hk
  · intro hk
    have ha : a ∈ r.map Prod.fst := by
      rw [h.addresses a]
      rcases hk with ⟨ks, hm, _⟩ | hk
      · exact .inl (List.mem_map_of_mem (f := Prod.fst) hm)
      · exact .inr (.inl ⟨k, hk⟩)
    obtain ⟨⟨a', ks⟩, hm, rfl⟩ := List.mem_map.1 ha
    exact ⟨ks, hm, (h.slots _ ks hm k).2 hk⟩

/-- **C108, access list.** Used for several transactions (at least one), the inspector lists the addresses
and slots that separate inspectors list, and no others. -/
theorem C108_access (provided : List (Address × List U256)) (frm to : Address)
    (precompiles : List Address) (ts : List Tx) (hne : ts ≠ []) :
    ∃ (r : Tx → AccessList) (s : AccessList),
      (∀ t ∈ ts, runHooks AccessList.hook (AccessList.new provided frm to precompiles) t.events = .ok (r t)) ∧
      runHooks AccessList.hook (AccessList.new provided frm to precompiles) (eventsOf ts) = .ok s ∧
      (s.result.map Prod.fst).Nodup ∧
      (∀ a, a ∈ s.result.map Prod.fst ↔ ∃ t ∈ ts, a ∈ (r t).result.map Prod.fst) ∧
      ∀ a k, Lists s.result a k ↔ ∃ t ∈ ts, Lists (r t).result a k := by
  have hone := fun t : Tx => C38_exact provided frm to precompiles t.events
  obtain ⟨s, hs, hacc⟩ := C38_exact provided frm to precompiles (eventsOf ts)
  obtain ⟨t0, ht0⟩ := List.exists_mem_of_ne_nil ts hne
  refine ⟨fun t => Classical.choose (hone t), s, fun t _ => (Classical.choose_spec (hone t)).1, hs,
    hacc.once, ?_, ?_⟩
  · intro a
    have hr := fun t => (Classical.choose_spec (hone t)).2.addresses a
    rw [hacc.addresses a, addressNamed_eventsOf]
    simp only [slotTouched_eventsOf]
    constructor
    · rintro (h | ⟨k, t, ht, h⟩ | ⟨⟨t, ht, h⟩, hx⟩)
      · exact ⟨t0, ht0, (hr t0).2 (.inl h)⟩
      · exact ⟨t, ht, (hr t).2 (.inr (.inl ⟨k, h⟩))⟩
      · exact ⟨t, ht, (hr t).2 (.inr (.inr ⟨h, hx⟩))⟩
    · rintro ⟨t, ht, h⟩
      rcases (hr t).1 h with h | ⟨k, h⟩ | ⟨h, hx⟩
      · exact .inl h
      · exact .inr (.inl ⟨k, t, ht, h⟩)
      · exact .inr (.inr ⟨⟨t, ht, h⟩, hx⟩)
  · intro a k
    have hr := fun t => lists_iff (Classical.choose_spec (hone t)).2 a k
    rw [lists_iff hacc, slotTouched_eventsOf]
    constructor
    · rintro (h | ⟨t, ht, h⟩)
      · exact ⟨t0, ht0, (hr t0).2 (.inl h)⟩
      · exact ⟨t, ht, (hr t).2 (.inr h)⟩
    · rintro ⟨t, ht, h⟩
      rcases (hr t).1 h with h | h
      · exact .inl h
      · exact .inr ⟨t, ht, h⟩

/-! ### Opcode gas -/

/-- The instruction that is still waiting for its end after a history: the last one revm knows, if no
instruction ended since (`last` before the history). -/
def unendedAfter (known : OpCode → Bool) : Option (OpCode × Nat) → List Event → Option (OpCode × Nat)
  | last, [] => last
  | last, .step i _ :: es => unendedAfter known (if known i.op then some (i.op, i.gas.remaining) else last) es
  | _, .stepEnd _ _ :: es => unendedAfter known none es
  | last, _ :: es => unendedAfter known last es

theorem charges_append (known : OpCode → Bool) (op : OpCode) (es es' : List Event) : ∀ last,
    chargedTo op (pending known last (es ++ es') ++ charges known (es ++ es')) =
      chargedTo op (pending known last es ++ charges known es) +
      chargedTo op (pending known (unendedAfter known last es) es' ++ charges known es') := by
  induction es with
  | nil =>
    intro last
    have : pending known last [] = [] := by cases last <;> rfl
    simp only [List.nil_append, unendedAfter, this, charges, chargedTo]
    omega
  | cons e es ih =>
    intro last
    cases e with
    | step i c =>
      by_cases hk : known i.op = true
      · have h := ih (some (i.op, i.gas.remaining))
        have hp : ∀ l, pending known last (Event.step i c :: l) = [] := by
          intro l
          cases last with
          | none => rfl
          | some x => simp [pending, endOf, hk]
        have hc : ∀ l, charges known (Event.step i c :: l) =
            pending known (some (i.op, i.gas.remaining)) l ++ charges known l := by
          intro l
          simp only [charges, hk, if_true, pending]
          cases endOf known l <;> rfl
        simp only [List.cons_append, hp, hc, unendedAfter, hk, if_true, List.nil_append]
        exact h
      · have hp : ∀ l, pending known last (Event.step i c :: l) = pending known last l := by
          intro l
          cases last with
          | none => rfl
          | some x => simp [pending, endOf, hk]
        have hc : ∀ l, charges known (Event.step i c :: l) = charges known l := by
          intro l
          simp [charges, hk]
        simp only [List.cons_append, hp, hc, unendedAfter, hk]
        exact ih last
    | stepEnd i c =>
      have h := ih none
      have hn : ∀ l, pending known none l = [] := fun l => rfl
      have hp : ∀ l, pending known last (Event.stepEnd i c :: l) =
          pending known last [Event.stepEnd i c] := by
        intro l
        cases last <;> rfl
      have hc : ∀ l, charges known (Event.stepEnd i c :: l) = charges known l := fun l => rfl
      simp only [List.cons_append, unendedAfter, hc]
      rw [hp (es ++ es'), hp es]
      simp only [hn, List.nil_append] at h
      simp only [chargedTo_append] at h ⊢
      omega
    | log c l => exact ih last
    | call c inp => exact ih last
    | callEnd c inp r => exact ih last
    | create c inp => exact ih last
    | createEnd c inp r a => exact ih last
    | selfdestruct a t v => exact ih last

/-- The gas charged in one history after another: that of both, and, if an instruction of the first is
still waiting for its end, what it is charged when in the second an instruction ends before one revm knows
starts. -/
theorem charges_two (known : OpCode → Bool) (op : OpCode) (es es' : List Event) :
    chargedTo op (charges known (es ++ es')) = chargedTo op (charges known es) +
      chargedTo op (pending known (unendedAfter known none es) es') + chargedTo op (charges known es') := by
  have h := charges_append known op es es' none
  have hn : ∀ l, pending known none l = [] := fun l => rfl
  simp only [hn, List.nil_append, chargedTo_append] at h
  omega

theorem unendedAfter_append (known : OpCode → Bool) (es es' : List Event) : ∀ last,
    unendedAfter known last (es ++ es') = unendedAfter known (unendedAfter known last es) es' := by
  induction es with
  | nil => intro last; rfl
  | cons e es ih => intro last; cases e <;> exact ih _

theorem unendedAfter_body (known : OpCode → Bool) (b : Body) (h : NoAborts b) : ∀ d,
    unendedAfter known none (b.events d) = none := by
  induction b with
  | nil => intro d; rfl
  | act a rest ih =>
    intro d
    cases a with
    | step i c i' c' =>
      simp only [Body.events, Act.events, List.cons_append, List.nil_append, unendedAfter]
      exact ih h d
    | aborted i c => exact absurd h (by simp [NoAborts])
    | log c l => exact ih h d
    | selfdestruct x y z => exact ih h d
  | sub hd b o rest ihb ih =>
    intro d
    have e1 : ∀ last l, unendedAfter known last (hd.enter d :: l) = unendedAfter known last l := by
      intro last l; cases hd <;> rfl
    have e2 : ∀ last l, unendedAfter known last (hd.leave d o :: l) = unendedAfter known last l := by
      intro last l; cases hd <;> rfl
    simp only [Body.events, e1, unendedAfter_append, ihb h.1, e2]
    exact ih h.2 d

theorem unendedAfter_tx (known : OpCode → Bool) (t : Tx) (h : NoAborts t.body) :
    unendedAfter known none t.events = none := by
  have e1 : ∀ last l, unendedAfter known last (t.hdr.enter 0 :: l) = unendedAfter known last l := by
    intro last l; cases t.hdr <;> rfl
  have e2 : ∀ last l, unendedAfter known last (t.hdr.leave 0 t.out :: l) = unendedAfter known last l := by
    intro last l; cases t.hdr <;> rfl
  simp only [Tx.events, e1, unendedAfter_append, unendedAfter_body known _ h, e2]
  rfl

/-- No instruction ends before one starts. -/
theorem ownEnd_body (b : Body) (l : List Event) (hl : ownEnd l = none) : ∀ d,
    ownEnd (b.events d ++ l) = none := by
  induction b generalizing l with
  | nil => intro d; exact hl
  | act a rest ih =>
    intro d
    cases a with
    | step i c i' c' => rfl
    | aborted i c => rfl
    | log c l' => exact ih l hl d
    | selfdestruct x y z => exact ih l hl d
  | sub hd b o rest ihb ih =>
    intro d
    have e1 : ∀ l, ownEnd (hd.enter d :: l) = ownEnd l := by intro l; cases hd <;> rfl
    have e2 : ∀ l, ownEnd (hd.leave d o :: l) = ownEnd l := by intro l; cases hd <;> rfl
    simp only [Body.events, List.cons_append, List.append_assoc, e1]
    exact ihb _ (by rw [e2]; exact ih l hl d) (d + 1)

theorem ownEnd_eventsOf (ts : List Tx) : ownEnd (eventsOf ts) = none := by
  induction ts with
  | nil => rfl
  | cons t ts ih =>
    have e1 : ∀ l, ownEnd (t.hdr.enter 0 :: l) = ownEnd l := by intro l; cases t.hdr <;> rfl
    have e2 : ∀ l, ownEnd (t.hdr.leave 0 t.out :: l) = ownEnd l := by intro l; cases t.hdr <;> rfl
    have : eventsOf (t :: ts) =
        t.hdr.enter 0 :: (t.body.events 1 ++ (t.hdr.leave 0 t.out :: eventsOf ts)) := by
      simp [eventsOf, Tx.events]
    rw [this, e1]
    exact ownEnd_body _ _ (by rw [e2]; exact ih) 1

theorem charges_eventsOf (known : OpCode → Bool) (op : OpCode) (ts : List Tx)
    (h : (∀ t ∈ ts, NoAborts t.body) ∨
      ∀ t ∈ ts, ∀ i c, Event.step i c ∈ t.events → known i.op = true) :
    chargedTo op (charges known (eventsOf ts)) =
      (ts.map (fun t => chargedTo op (charges known t.events))).sum := by
  induction ts with
  | nil => rfl
  | cons t ts ih =>
    have : eventsOf (t :: ts) = t.events ++ eventsOf ts := rfl
    rw [this, charges_two, List.map_cons, List.sum_cons, ih]
    · have hz : pending known (unendedAfter known none t.events) (eventsOf ts) = [] := by
        rcases h with h | h
        · rw [unendedAfter_tx known t (h t (List.mem_cons_self ..))]
          rfl
        · have he : endOf known (eventsOf ts) = none := by
            rw [endOf_own, ownEnd_eventsOf]
            intro i c hm
            obtain ⟨u, hu, hm⟩ := List.mem_flatMap.1 hm
            exact h u (List.mem_cons_of_mem _ hu) i c hm
          simp only [pending, he]
          cases unendedAfter known none t.events <;> rfl
      rw [hz]
      rfl
    · rcases h with h | h
      · exact .inl (fun u hu => h u (List.mem_cons_of_mem _ hu))
      · exact .inr (fun u hu => h u (List.mem_cons_of_mem _ hu))

/-- **C108, opcode gas** (partial: every instruction that starts also ends, or revm knows all opcodes; see
`C108_refuted`). Used for several transactions, the inspector has for each opcode revm knows the sum of the
counts and the sum of the gas that separate inspectors have (if they fit in 64 bits). -/
theorem C108_opcode_gas_partial (known : OpCode → Bool) (ts : List Tx)
    (h : (∀ t ∈ ts, NoAborts t.body) ∨
      ∀ t ∈ ts, ∀ i c, Event.step i c ∈ t.events → known i.op = true)
    (hc : ∀ op, (ts.map (fun t => startsOf op t.events)).sum < 2 ^ 64)
    (hg : ∀ op, (ts.map (fun t => chargedTo op (charges known t.events))).sum < 2 ^ 64) :
    ∃ (r : Tx → OpcodeGas) (s : OpcodeGas),
      (∀ t ∈ ts, runHooks (OpcodeGas.hook known) {} t.events = .ok (r t)) ∧
      runHooks (OpcodeGas.hook known) {} (eventsOf ts) = .ok s ∧
      ∀ op,
        (AMap.get? s.counts op).getD 0 = (ts.map (fun t => (AMap.get? (r t).counts op).getD 0)).sum ∧
        (AMap.get? s.gas op).getD 0 = (ts.map (fun t => (AMap.get? (r t).gas op).getD 0)).sum := by
  have hrun : ∀ es, (∀ op, startsOf op es < 2 ^ 64) → (∀ op, chargedTo op (charges known es) < 2 ^ 64) →
      ∃ s, runHooks (OpcodeGas.hook known) {} es = .ok s ∧ ∀ op,
        (AMap.get? s.counts op).getD 0 = (if known op then startsOf op es else 0) ∧
        (AMap.get? s.gas op).getD 0 = chargedTo op (charges known es) := by
    intro es h1 h2
    obtain ⟨k1, k2⟩ := opcodeGas_any known es {} (by simp [AMap.Nodup]) (by simp [AMap.get?])
      (by simp [AMap.get?])
    have hp : pending known none es = [] := rfl
    simp only [Fits, Reports, hp, List.nil_append, AMap.get?, Option.getD_none, Nat.zero_add] at k1 k2
    obtain ⟨s, hs⟩ := k2 (fun op => ⟨fun _ => h1 op, h2 op⟩)
    refine ⟨s, hs, fun op => ?_⟩
    obtain ⟨_, hrep, _⟩ := k1 s hs
    refine ⟨?_, ?_⟩
    · rw [(hrep op).1]
      by_cases hk : known op = true
      · by_cases h0 : startsOf op es = 0 <;> simp [hk, h0]
      · simp [hk]
    · rw [(hrep op).2]
      split
      · rfl
      · rename_i h; rw [chargedTo_absent _ _ h]; rfl
  have hone := fun (t : Tx) (ht : t ∈ ts) => hrun t.events
    (fun op => Nat.lt_of_le_of_lt (le_sum (fun t => startsOf op t.events) ht) (hc op))
    (fun op => Nat.lt_of_le_of_lt (le_sum (fun t => chargedTo op (charges known t.events)) ht) (hg op))
  have hsc := fun op => sum_events (startsOf op) rfl (startsOf_append op) ts
  have hsg := fun op => charges_eventsOf known op ts h
  obtain ⟨s, hs, hrep⟩ := hrun (eventsOf ts) (fun op => by rw [hsc op]; exact hc op)
    (fun op => by rw [hsg op]; exact hg op)
  refine ⟨fun t => (runHooks (OpcodeGas.hook known) {} t.events).toOption.getD {}, s, ?_, hs, ?_⟩
  · intro t ht
    obtain ⟨s', hs', _⟩ := hone t ht
    simp only [hs']
    rfl
  · intro op
    refine ⟨?_, ?_⟩
    · rw [(hrep op).1, hsc op]
      by_cases hk : known op = true
      · rw [if_pos hk]
        apply sum_congr'
        intro t ht
        obtain ⟨s', hs', he⟩ := hone t ht
        simp only [hs']
        have := (he op).1
        rw [if_pos hk] at this
        exact this.symm
      · rw [if_neg hk]
        have : ∀ t ∈ ts, (AMap.get? ((runHooks (OpcodeGas.hook known) {} t.events).toOption.getD
            {}).counts op).getD 0 = 0 := by
          intro t ht
          obtain ⟨s', hs', he⟩ := hone t ht
          rw [hs']
          have := (he op).1
          rw [if_neg hk] at this
          exact this
        rw [sum_congr' _ (fun _ => 0) ts this]
        clear this hs hsc hsg hone hc hg h hrep
        induction ts with
        | nil => rfl
        | cons t ts ih => simpa using ih
    · rw [(hrep op).2, hsg op]
      apply sum_congr'
      intro t ht
      obtain ⟨s', hs', he⟩ := hone t ht
      simp only [hs']
      exact ((he op).2).symm

/-- **C108, opcode gas, exactly.** For any two histories: the gas charged to an opcode over both is that of
the first, that of the second, and that of an instruction of the first that is still waiting for its end if in
the second an instruction ends before one revm knows starts. -/
theorem C108_opcode_gas_exact (known : OpCode → Bool) (es es' : List Event) (s s1 s2 : OpcodeGas)
    (h : runHooks (OpcodeGas.hook known) {} (es ++ es') = .ok s)
    (h1 : runHooks (OpcodeGas.hook known) {} es = .ok s1)
    (h2 : runHooks (OpcodeGas.hook known) {} es' = .ok s2) (op : OpCode) :
    (AMap.get? s.gas op).getD 0 = (AMap.get? s1.gas op).getD 0 + (AMap.get? s2.gas op).getD 0 +
      (match unendedAfter known none es, endOf known es' with
        | some (o, g), some i' => if o = op then g - i'.gas.remaining else 0
        | _, _ => 0) := by
  have key : ∀ es s, runHooks (OpcodeGas.hook known) {} es = .ok s →
      (AMap.get? s.gas op).getD 0 = chargedTo op (charges known es) := by
    intro es s hs
    obtain ⟨k1, _⟩ := opcodeGas_any known es {} (by simp [AMap.Nodup]) (by simp [AMap.get?])
      (by simp [AMap.get?])
    have hp : pending known none es = [] := rfl
    simp only [Fits, Reports, hp, List.nil_append, AMap.get?, Option.getD_none, Nat.zero_add] at k1
    rw [((k1 s hs).2.1 op).2]
    split
    · rfl
    · rename_i h; rw [chargedTo_absent _ _ h]; rfl
  rw [key _ s h, key _ s1 h1, key _ s2 h2, charges_two]
  have : chargedTo op (pending known (unendedAfter known none es) es') =
      (match unendedAfter known none es, endOf known es' with
        | some (o, g), some i' => if o = op then g - i'.gas.remaining else 0
        | _, _ => 0) := by
    unfold pending
    cases unendedAfter known none es with
    | none => rfl
    | some x =>
      cases endOf known es' with
      | none => rfl
      | some i' => simp [chargedTo]
  omega

open SeveralExample in
/-- **C108, refuted.** Another inspector stops the only instruction of a first transaction, an ADD; the only
instruction of a second one has an opcode revm does not know. Separate inspectors report no gas; one inspector
used for both reports 800 gas for ADD. -/
theorem C108_refuted :
    (runHooks (OpcodeGas.hook known) {} first.events).toOption.map (·.opcodeIter) = some [(0x01, 1, 0)] ∧
    (runHooks (OpcodeGas.hook known) {} second.events).toOption.map (·.opcodeIter) = some [] ∧
    (runHooks (OpcodeGas.hook known) {} (eventsOf [first, second])).toOption.map (·.opcodeIter) =
      some [(0x01, 1, 800)] := by
  decide +kernel

open StandaloneExample in
/-- The hypotheses are met by a transaction executed twice, and the sums are not zero. -/
example : (∀ t ∈ [tx, tx], NoAborts t.body) ∧
    ([tx, tx].map (fun t => starts t.events)).sum = 10 ∧
    ([tx, tx].map (fun t => startsOf 0x54 t.events)).sum = 4 ∧
    ([tx, tx].map (fun t => chargedTo 0x54 (charges (fun _ => true) t.events))).sum = 400 ∧
    ([tx, tx].map (fun t => callsWith [1, 2, 3, 4] 1 t.events)).sum = 4 := by
  refine ⟨?_, by decide +kernel, by decide +kernel, by decide +kernel, by decide +kernel⟩
  intro t ht
  simp only [List.mem_cons, List.not_mem_nil, or_false, or_self] at ht
  rw [ht]
  exact tx_noAborts

end Verif.Props
