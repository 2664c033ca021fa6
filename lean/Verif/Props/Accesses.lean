import Verif.Props.StandaloneExact
import Verif.Spec.Accesses
import Verif.Spec.Example
/-!
# C112: the access list is complete
-/
namespace Verif.Props
open Spec

theorem addressIn_eq (w : U256) (a : Address) : addressIn w = a ↔ w.toNat % 2 ^ 160 = a.toNat := by
  unfold addressIn
  constructor
  · rintro rfl; simp
  · intro h
    apply BitVec.eq_of_toNat_eq
    simpa using h

/-- **C112, exactly.** For every history, provided list and exclusions: the list is complete exactly if each
account that an EXTCALL, EXTDELEGATECALL or EXTSTATICCALL calls, and each to which a called account delegates,
is free of charge anyway or in the list for another reason: it was provided, one of its slots was touched,
or another instruction names it. -/
theorem C112_exact (delegate : Address → Option Address) (provided : List (Address × List U256))
    (frm to : Address) (precompiles : List Address) (es : List Event) :
    ∃ s, runHooks AccessList.hook (AccessList.new provided frm to precompiles) es = .ok s ∧
      (Complete delegate ([frm, to] ++ precompiles) es s.result ↔
        ∀ i c, Event.step i c ∈ es → ∀ a ∈ hiddenAccounts delegate i, a ∈ [frm, to] ++ precompiles ∨
          a ∈ provided.map Prod.fst ∨ (∃ k, SlotTouched es a k) ∨ AddressNamed es a) := by
  obtain ⟨s, hs, hl⟩ := C38_exact provided frm to precompiles es
  refine ⟨s, hs, ?_⟩
  have hin : ∀ a, a ∈ [frm, to] ++ precompiles ∨ a ∈ s.result.map Prod.fst ↔
      a ∈ [frm, to] ++ precompiles ∨ a ∈ provided.map Prod.fst ∨ (∃ k, SlotTouched es a k) ∨
        AddressNamed es a := by
    intro a
    rw [hl.addresses, lastWins_keys]
    by_cases he : a ∈ [frm, to] ++ precompiles
    · simp only [he, true_or]
    · simp only [he, false_or, not_false_eq_true, and_true]
  have hslot : ∀ i c, Event.step i c ∈ es → i.op = 0x54 ∨ i.op = 0x55 → ∀ k, i.stack.getLast? = some k →
      ∃ ks, (i.contract, ks) ∈ s.result ∧ k ∈ ks := by
    intro i c hm hop k hk
    have ht : SlotTouched es i.contract k := ⟨i, c, hm, hop, rfl, hk⟩
    have ha := (hl.addresses i.contract).2 (Or.inr (Or.inl ⟨k, ht⟩))
    obtain ⟨⟨a, ks⟩, hr, rfl⟩ := List.mem_map.1 ha
    exact ⟨ks, hr, (hl.slots _ ks hr k).2 (Or.inr ht)⟩
  constructor
  · intro hc i c hm a ha
    refine (hin a).1 ((hc i c hm).1 a ?_)
    unfold hiddenAccounts at ha
    unfold accounts
    have hx : i.op ∉ ([0x31, 0x3b, 0x3c, 0x3f, 0xff] : List OpCode) ∨ a ∈ ([] : List Address) := by
      split at ha
      · rename_i h
        left
        simp only [List.mem_cons, List.not_mem_nil, or_false] at h
        rcases h with h | h | h | h <;> rw [h] <;> decide
      · split at ha
        · rename_i h
          left
          simp only [isExtCall, Bool.or_eq_true, beq_iff_eq] at h
          rcases h with (h | h) | h <;> rw [h] <;> decide
        · right; exact ha
    rcases hx with hx | hx
    · rw [if_neg hx]
      split at ha
      · rename_i h
        rw [if_pos h]
        obtain ⟨w, hw, ha⟩ := List.mem_flatMap.1 ha
        exact List.mem_flatMap.2 ⟨w, hw, List.mem_cons_of_mem _ ha⟩
      · rename_i h
        rw [if_neg h]
        exact ha
    · nomatch hx
  · intro hc i c hm
    refine ⟨fun a ha => (hin a).2 ?_, hslot i c hm⟩
    have hidden := hc i c hm a
    unfold hiddenAccounts at hidden
    unfold accounts at ha
    split at ha
    · rename_i h
      obtain ⟨w, hw, rfl⟩ := List.mem_map.1 ha
      refine Or.inr (Or.inr (Or.inr ⟨i, c, w, hm, (addressIn_eq _ _).1 rfl, Or.inl ⟨h, ?_⟩⟩))
      exact Option.mem_toList.1 hw
    · split at ha
      · rename_i h
        rw [if_pos h] at hidden
        obtain ⟨w, hw, ha⟩ := List.mem_flatMap.1 ha
        rcases List.mem_cons.1 ha with rfl | ha
        · refine Or.inr (Or.inr (Or.inr ⟨i, c, w, hm, (addressIn_eq _ _).1 rfl, Or.inr ⟨h, ?_⟩⟩))
          exact Option.mem_toList.1 hw
        · exact hidden (List.mem_flatMap.2 ⟨w, hw, ha⟩)
      · rename_i h
        rw [if_neg h] at hidden
        exact hidden ha

/-- **C112** (partial: missing are executions with EXTCALL, EXTDELEGATECALL or EXTSTATICCALL and calls of
accounts that delegate to others, see the refutations). The list has every account and slot that the
instructions access, except the sender, the recipient and the precompiles, so that with it none of these
accesses is charged as the first one. -/
theorem C112_complete_partial (delegate : Address → Option Address)
    (provided : List (Address × List U256)) (frm to : Address) (precompiles : List Address)
    (es : List Event) (hext : ∀ i c, Event.step i c ∈ es → isExtCall i.op = false)
    (hdel : ∀ i c w, Event.step i c ∈ es → i.op ∈ ([0xf1, 0xf2, 0xf4, 0xfa] : List OpCode) →
      i.stack.reverse[1]? = some w → delegate (addressIn w) = none) :
    ∃ s, runHooks AccessList.hook (AccessList.new provided frm to precompiles) es = .ok s ∧
      Complete delegate ([frm, to] ++ precompiles) es s.result := by
  obtain ⟨s, hs, hiff⟩ := C112_exact delegate provided frm to precompiles es
  refine ⟨s, hs, hiff.2 ?_⟩
  intro i c hm a ha
  unfold hiddenAccounts at ha
  split at ha
  · rename_i h
    obtain ⟨w, hw, ha⟩ := List.mem_flatMap.1 ha
    rw [hdel i c w hm h (Option.mem_toList.1 hw)] at ha
    nomatch ha
  · rw [hext i c hm] at ha
    nomatch ha

/-- One instruction with the address 0xb on top of the stack, and below it. -/
def accessOf (op : OpCode) : List Event :=
  [.step { Example.interp op 0 100 .Continue with stack := [0xb, 0xb] } Example.ctx]

/-- A CALL of an account that delegates to none meets the hypotheses, and accesses an account. -/
example : (∀ i c, Event.step i c ∈ accessOf 0xf1 → isExtCall i.op = false) ∧
    (∀ i c w, Event.step i c ∈ accessOf 0xf1 → i.op ∈ ([0xf1, 0xf2, 0xf4, 0xfa] : List OpCode) →
      i.stack.reverse[1]? = some w → (fun _ : Address => (none : Option Address)) (addressIn w) = none) ∧
    (accessOf 0xf1).map (fun e => match e with | .step i _ => accounts (fun _ => none) i | _ => []) = [[0xb]] := by
  refine ⟨?_, fun _ _ _ _ _ _ => rfl, by decide⟩
  intro i c h
  simp only [accessOf, List.mem_singleton, Event.step.injEq] at h
  rw [h.1]
  decide

/-- **C112, refuted**, for code in the object format: the account that EXTCALL calls is missing, and the
same for EXTDELEGATECALL and EXTSTATICCALL. -/
theorem C112_refuted (op : OpCode) (hop : isExtCall op = true) :
    ∃ s, runHooks AccessList.hook (AccessList.new [] 1 2 []) (accessOf op) = .ok s ∧ s.result = [] ∧
      ¬ Complete (fun _ => none) [1, 2] (accessOf op) s.result := by
  simp only [isExtCall, Bool.or_eq_true, beq_iff_eq] at hop
  rcases hop with (rfl | rfl) | rfl <;>
  · refine ⟨_, rfl, rfl, fun h => ?_⟩
    have := (h _ _ (List.mem_singleton.2 rfl)).1 0xb (by decide)
    revert this
    decide

/-- **C112, refuted**, for accounts that delegate: a call of 0xb, which delegates to 0xc, accesses 0xc, but
the list has 0xb only. -/
theorem C112_refuted_delegate :
    ∃ s, runHooks AccessList.hook (AccessList.new [] 1 2 []) (accessOf 0xf1) = .ok s ∧
      s.result = [(0xb, [])] ∧
      ¬ Complete (fun a => if a = 0xb then some 0xc else none) [1, 2] (accessOf 0xf1) s.result := by
  refine ⟨_, rfl, rfl, fun h => ?_⟩
  have := (h _ _ (List.mem_singleton.2 rfl)).1 0xc (by decide)
  revert this
  decide

end Verif.Props
