import Verif.Spec.Moved
import Verif.Props.Ledger
/-! C119: the order of the transfers. -/
namespace Verif.Props
open Spec

theorem createTransfer_cases (inp : CreateInputs) (a : Option Address) :
    (a.isSome = false ∧ createTransfer inp a = []) ∨
      (a.isSome = true ∧ ∃ c, createTransfer inp a = [c]) := by
  cases a with
  | none => exact Or.inl ⟨rfl, rfl⟩
  | some a =>
    refine Or.inr ⟨rfl, ?_⟩
    cases hs : inp.scheme <;> exact ⟨_, by simp only [createTransfer, hs]; rfl⟩

/-- The transfers listed of a body are those of its order, in another order. -/
theorem transfers_perm (b : Body) : (transfers b).Perm (moved b) := by
  induction b with
  | nil => exact List.Perm.refl _
  | act a rest ih => cases a <;> first | exact ih | exact ih.cons _
  | sub h b o rest ihb ihr =>
    cases h with
    | call c inp => exact ((List.Perm.refl _).append ihb).append ihr
    | create c inp =>
      refine List.Perm.append ?_ ihr
      exact List.perm_append_comm.trans ((List.Perm.refl _).append ihb)

theorem append_split {α : Type} {a b c d : List α} (hl : a.length = b.length) (h : a ++ c = b ++ d) :
    a = b ∧ c = d := List.append_inj h hl

/-- The listed order is right if no value moves during creations, and only then if the transfers differ. -/
theorem transfers_moved (b : Body) :
    (QuietCreations b → transfers b = moved b) ∧
    ((moved b).Nodup → transfers b = moved b → QuietCreations b) := by
  induction b with
  | nil => exact ⟨fun _ => rfl, fun _ _ => trivial⟩
  | act a rest ih =>
    cases a with
    | selfdestruct f t v =>
      refine ⟨fun h => by rw [transfers, moved, ih.1 h], fun hn h => ih.2 (List.nodup_cons.1 hn).2 ?_⟩
      exact (List.cons.inj h).2
    | step i c i' c' => exact ih
    | aborted i c => exact ih
    | log c l => exact ih
  | sub h b o rest ihb ihr =>
    have hlb : (transfers b).length = (moved b).length := (transfers_perm b).length_eq
    cases h with
    | call c inp =>
      refine ⟨fun hq => ?_, fun hn he => ?_⟩
      · rw [transfers, moved, onEntry, ihb.1 hq.2.1, ihr.1 hq.2.2]
      · simp only [transfers, moved, onEntry] at he hn
        obtain ⟨h1, h2⟩ := append_split (by simp [hlb]) he
        have h3 := List.append_cancel_left h1
        rw [List.append_assoc] at hn
        have hn' := (List.nodup_append.1 hn).2.1
        exact ⟨trivial, ihb.2 (List.nodup_append.1 hn').1 h3, ihr.2 (List.nodup_append.1 hn').2.1 h2⟩
    | create c inp =>
      refine ⟨fun hq => ?_, fun hn he => ?_⟩
      · rw [transfers, moved, onEntry, ihb.1 hq.2.1, ihr.1 hq.2.2]
        rcases createTransfer_cases inp o.address with ⟨_, h2⟩ | ⟨h1, c, h2⟩
        · rw [h2]; simp
        · rw [hq.1 h1]; simp
      · simp only [transfers, moved, onEntry] at he hn
        obtain ⟨h1, h2⟩ := append_split (by simp [hlb]; omega) he
        have hnr := (List.nodup_append.1 hn).2.1
        have hnb := (List.nodup_append.1 hn).1
        rcases createTransfer_cases inp o.address with ⟨h3, h4⟩ | ⟨h3, c, h4⟩
        · rw [h4] at h1 hnb
          simp only [List.append_nil, List.nil_append] at h1 hnb
          refine ⟨fun ha => ?_, ihb.2 hnb h1, ihr.2 hnr h2⟩
          rw [h3] at ha
          exact absurd ha (by decide)
        · rw [h4] at h1 hnb
          have hm : moved b = [] := by
            cases ht : transfers b with
            | nil => exact List.eq_nil_of_length_eq_zero (by rw [← hlb, ht]; rfl)
            | cons x xs =>
              exfalso
              rw [ht] at h1
              have hx : x = c := (List.cons.inj h1).1
              have hmem : c ∈ moved b := (transfers_perm b).subset (by rw [ht, hx]; exact List.mem_cons_self)
              exact (List.nodup_cons.1 hnb).1 hmem
          refine ⟨fun _ => hm, ihb.2 ?_ ?_, ihr.2 hnr h2⟩
          · rw [hm]; exact List.nodup_nil
          · rw [hm]; exact List.eq_nil_of_length_eq_zero (by rw [hlb, hm]; rfl)

/-- **C119** (partial: executions in which no value moves while a creation is running): the transfers are
listed in the order in which value moved, with `internal_only` those of all frames but the root. -/
theorem C119_order_partial (t : Tx) (hroot : QuietFrame t.hdr t.body t.out) (hq : QuietCreations t.body) :
    runHooks (transferHook false) [] t.events = .ok (txMoved t) ∧
    runHooks (transferHook true) [] t.events = .ok (moved t.body) := by
  obtain ⟨h1, h2⟩ := C39_transfers t
  have he := (transfers_moved t.body).1 hq
  rw [h1, h2, ← he]
  refine ⟨?_, rfl⟩
  congr 1
  unfold txTransfers txMoved
  rw [← he]
  generalize hh : t.hdr = h at hroot
  cases h with
  | call c inp => rfl
  | create c inp =>
    simp only [onEntry]
    rcases createTransfer_cases inp t.out.address with ⟨_, h4⟩ | ⟨h3, c, h4⟩
    · rw [h4]; simp
    · rw [he, hroot h3]; simp

/-- **C119, exactly.** Every transfer is listed, each as often as it was made. If no two transfers are the
same, they are in the order in which value moved if and only if no value moved while a creation was
running: a creation is listed after all that moved during it. -/
theorem C119_exact (t : Tx) :
    ∃ all internal, runHooks (transferHook false) [] t.events = .ok all ∧
      runHooks (transferHook true) [] t.events = .ok internal ∧
      all.Perm (txMoved t) ∧ internal.Perm (moved t.body) ∧
      ((moved t.body).Nodup → (internal = moved t.body ↔ QuietCreations t.body)) ∧
      ((txMoved t).Nodup → (all = txMoved t ↔ QuietFrame t.hdr t.body t.out ∧ QuietCreations t.body)) := by
  obtain ⟨h1, h2⟩ := C39_transfers t
  refine ⟨_, _, h1, h2, ?_, transfers_perm _, ?_, ?_⟩
  · unfold txTransfers txMoved
    cases t.hdr with
    | call c inp => exact (List.Perm.refl _).append (transfers_perm _)
    | create c inp => exact List.perm_append_comm.trans ((List.Perm.refl _).append (transfers_perm _))
  · exact fun hn => ⟨(transfers_moved _).2 hn, (transfers_moved _).1⟩
  · intro hn
    constructor
    · intro he
      have key := (transfers_moved (.sub t.hdr t.body t.out .nil)).2
      have e1 : moved (.sub t.hdr t.body t.out .nil) = txMoved t := by simp [moved, txMoved]
      have e2 : transfers (.sub t.hdr t.body t.out .nil) = txTransfers t := by
        unfold txTransfers
        cases t.hdr <;> simp [transfers]
      rw [e1, e2] at key
      have := key hn he
      exact ⟨this.1, this.2.1⟩
    · rintro ⟨hr, hq⟩
      exact Except.ok.inj (h1.symm.trans (C119_order_partial t hr hq).1)

namespace MovedExample
open LedgerExample

/-- Account 1 creates the contract 4 with 6, which pays 5 to account 9 while it is being created. -/
def tx : Tx where
  hdr := creation 1 6
  body := .sub (frame 4 9 5) .nil (ending .Stop none) .nil
  out := ending .Return (some 4)

/-- The balances before: account 1 has 6. -/
def before : Ledger := fun a => if a = 1 then 6 else 0

/-- Account 1 calls 2 with 3, which creates the contract 4 with 2 of it and then pays 1 to account 9. -/
def quiet : Tx where
  hdr := frame 1 2 3
  body := .sub (creation 2 2) .nil (ending .Return (some 4)) (.sub (frame 2 9 1) .nil (ending .Stop none) .nil)
  out := ending .Stop none

end MovedExample

open MovedExample in
/-- **C119 is violated**: the payment that a contract makes while it is being created is listed before the
endowment it is made from: read in order, the contract pays what it does not have. -/
theorem C119_refuted : ∃ ts, runHooks (transferHook false) [] MovedExample.tx.events = .ok ts ∧
    ts = [⟨.call, 4, 9, 5⟩, ⟨.create, 1, 4, 6⟩] ∧ txMoved MovedExample.tx = [⟨.create, 1, 4, 6⟩, ⟨.call, 4, 9, 5⟩] ∧
    Solvent (txMoved MovedExample.tx) before ∧ ¬ Solvent ts before := by
  refine ⟨_, (C39_transfers _).1, rfl, rfl, ?_, ?_⟩
  · intro k a
    match k with
    | 0 => simp only [List.take_zero, settle, List.foldl_nil, before]; split <;> omega
    | 1 =>
      simp only [txMoved, MovedExample.tx, onEntry, moved]
      show 0 ≤ settle [⟨.create, 1, 4, 6⟩] before a
      simp only [settle, List.foldl_cons, List.foldl_nil, move, before]
      have : ((6 : U256).toNat : Int) = 6 := rfl
      rw [this]
      split <;> split <;> omega
    | k + 2 =>
      have e : List.take (k + 2) (txMoved MovedExample.tx) = [⟨.create, 1, 4, 6⟩, ⟨.call, 4, 9, 5⟩] :=
        List.take_of_length_le (by show 2 ≤ k + 2; omega)
      rw [e]
      simp only [settle, List.foldl_cons, List.foldl_nil, move, before]
      have e6 : ((6 : U256).toNat : Int) = 6 := rfl
      have e5 : ((5 : U256).toNat : Int) = 5 := rfl
      rw [e6, e5]
      by_cases h1 : a = 1
      · subst h1; decide
      · by_cases h4 : a = 4
        · subst h4; decide
        · by_cases h9 : a = 9
          · subst h9; decide
          · rw [if_neg h1, if_neg h4, if_neg h4, if_neg h9]; decide
  · intro h
    have := h 1 4
    revert this
    decide

/-- The hypotheses are met by an execution that calls, creates and pays, with three different transfers. -/
example : QuietFrame MovedExample.quiet.hdr MovedExample.quiet.body MovedExample.quiet.out ∧
    QuietCreations MovedExample.quiet.body ∧ (txMoved MovedExample.quiet).Nodup ∧
    txMoved MovedExample.quiet = [⟨.call, 1, 2, 3⟩, ⟨.create, 2, 4, 2⟩, ⟨.call, 2, 9, 1⟩] :=
  ⟨trivial, ⟨fun _ => rfl, trivial, trivial, trivial, trivial⟩, by decide, rfl⟩

end Verif.Props
