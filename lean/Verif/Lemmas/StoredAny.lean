import Verif.Lemmas.Stored
/-! Lemmas about reading arbitrary texts as recordings. -/
namespace Verif.Stored
open Spec

theorem bind_ok {α β : Type} {x : Except ReadErr α} {f : α → Except ReadErr β} {b : β}
    (h : (x >>= f) = .ok b) : ∃ a, x = .ok a ∧ f a = .ok b := by
  cases x with
  | error e => cases h
  | ok a => exact ⟨a, rfl, h⟩

theorem req_ok {α : Type} {j : Json} {k : String} {f : Json → Except ReadErr α} {a : α}
    (h : req j k f = .ok a) : ∃ v, f v = .ok a := by
  unfold req at h
  split at h
  · exact ⟨_, h⟩
  · cases h

theorem opt_ok {α : Type} {j : Json} {k : String} {f : Json → Except ReadErr α} {o : Option α}
    (h : opt j k f = .ok o) (a : α) (ha : o = some a) : ∃ v, f v = .ok a := by
  subst ha
  unfold opt at h
  split at h
  · cases h
  · cases h
  · obtain ⟨b, hb, h⟩ := bind_ok h
    cases h
    exact ⟨_, hb⟩

theorem decItems_ok {α : Type} {f : Json → Except ReadErr α} : ∀ {xs : List Json} {as : List α},
    decItems f xs = .ok as → ∀ a ∈ as, ∃ v, f v = .ok a
  | [], as, h, a, ha => by cases h; cases ha
  | x :: xs, as, h, a, ha => by
    obtain ⟨b, hb, h⟩ := bind_ok h
    obtain ⟨bs, hbs, h⟩ := bind_ok h
    cases h
    rcases List.mem_cons.1 ha with rfl | ha
    · exact ⟨x, hb⟩
    · exact decItems_ok hbs a ha

theorem decList_ok {α : Type} {f : Json → Except ReadErr α} {j : Json} {as : List α} (h : decList f j = .ok as) :
    ∀ a ∈ as, ∃ v, f v = .ok a := by
  unfold decList at h
  split at h
  · exact decItems_ok h
  · cases h

theorem decNat_ok {bound n : Nat} {j : Json} (h : decNat bound j = .ok n) : n < bound := by
  unfold decNat at h
  split at h
  · split at h
    · cases h; assumption
    · cases h
  · cases h

theorem reqNat_ok {j : Json} {k : String} {n : Nat} (h : req j k decU64 = .ok n) : n < 2 ^ 64 := by
  obtain ⟨v, hv⟩ := req_ok h
  exact decNat_ok hv

theorem decOp_ok {known : UInt8 → Bool} {j : Json} {op : OpCode} (h : decOp known j = .ok op) : known op = true := by
  obtain ⟨n, _, h⟩ := bind_ok h
  unfold deserializeOp at h
  cases hn : known (UInt8.ofNat n) with
  | true => simp only [hn, if_true] at h; cases h; exact hn
  | false =>
    cases hi : known Op.INVALID with
    | true => simp only [hn, hi, Bool.false_eq_true, if_false, if_true] at h; cases h; exact hi
    | false => simp only [hn, hi, Bool.false_eq_true, if_false] at h; cases h

theorem decDecodedStep_ok {j : Json} {d : DecodedTraceStep} (h : decDecodedStep j = .ok d)
    (c : DecodedInternalCall) (i : Nat) (hd : d = .internalCall c i) : i < 2 ^ 64 := by
  unfold decDecodedStep at h
  split at h
  · split at h
    · split at h
      · obtain ⟨c', _, h⟩ := bind_ok h
        obtain ⟨i', hi, h⟩ := bind_ok h
        cases h
        cases hd
        exact decNat_ok hi
      · cases h
    · split at h
      · obtain ⟨s, _, h⟩ := bind_ok h
        cases h
        cases hd
      · cases h
  · cases h

theorem decStep_ok {known : UInt8 → Bool} {j : Json} {s : CallTraceStep} (h : decStep known j = .ok s) :
    StepFits s ∧ known s.op = true := by
  obtain ⟨depth, h1, h⟩ := bind_ok h
  obtain ⟨pc, h2, h⟩ := bind_ok h
  obtain ⟨op, h3, h⟩ := bind_ok h
  obtain ⟨_, _, h⟩ := bind_ok h
  obtain ⟨_, _, h⟩ := bind_ok h
  obtain ⟨_, _, h⟩ := bind_ok h
  obtain ⟨_, _, h⟩ := bind_ok h
  obtain ⟨_, _, h⟩ := bind_ok h
  obtain ⟨_, h4, h⟩ := bind_ok h
  obtain ⟨_, h5, h⟩ := bind_ok h
  obtain ⟨_, h6, h⟩ := bind_ok h
  obtain ⟨_, h7, h⟩ := bind_ok h
  obtain ⟨_, _, h⟩ := bind_ok h
  obtain ⟨_, _, h⟩ := bind_ok h
  obtain ⟨d, h8, h⟩ := bind_ok h
  cases h
  refine ⟨⟨reqNat_ok h1, reqNat_ok h2, reqNat_ok h4, reqNat_ok h5, reqNat_ok h6, reqNat_ok h7,
    fun c i hd => ?_⟩, ?_⟩
  · obtain ⟨v, hv⟩ := opt_ok h8 _ hd
    exact decDecodedStep_ok hv c i rfl
  · obtain ⟨v, hv⟩ := req_ok h3
    exact decOp_ok hv

theorem decTrace_ok {known : UInt8 → Bool} {j : Json} {t : CallTrace} (h : decTrace known j = .ok t) :
    t.depth < 2 ^ 64 ∧ t.gasUsed < 2 ^ 64 ∧ t.gasLimit < 2 ^ 64 ∧
      ∀ s ∈ t.steps, StepFits s ∧ known s.op = true := by
  obtain ⟨_, h1, h⟩ := bind_ok h
  obtain ⟨_, _, h⟩ := bind_ok h
  obtain ⟨_, _, h⟩ := bind_ok h
  obtain ⟨_, _, h⟩ := bind_ok h
  obtain ⟨_, _, h⟩ := bind_ok h
  obtain ⟨_, _, h⟩ := bind_ok h
  obtain ⟨_, _, h⟩ := bind_ok h
  obtain ⟨_, _, h⟩ := bind_ok h
  obtain ⟨_, _, h⟩ := bind_ok h
  obtain ⟨_, _, h⟩ := bind_ok h
  obtain ⟨_, _, h⟩ := bind_ok h
  obtain ⟨_, h2, h⟩ := bind_ok h
  obtain ⟨_, h3, h⟩ := bind_ok h
  obtain ⟨_, _, h⟩ := bind_ok h
  obtain ⟨_, h4, h⟩ := bind_ok h
  obtain ⟨_, _, h⟩ := bind_ok h
  cases h
  refine ⟨reqNat_ok h1, reqNat_ok h2, reqNat_ok h3, fun s hs => ?_⟩
  obtain ⟨v, hv⟩ := req_ok h4
  obtain ⟨u, hu⟩ := decList_ok hv s hs
  exact decStep_ok hu

theorem decOrder_ok {j : Json} {o : TraceMemberOrder} (h : decOrder j = .ok o) : orderIndex o < 2 ^ 64 := by
  unfold decOrder at h
  split at h
  · obtain ⟨i, hi, h⟩ := bind_ok h
    have hi := decNat_ok hi
    split at h
    · cases h; exact hi
    · split at h
      · cases h; exact hi
      · split at h
        · cases h; exact hi
        · cases h
  · cases h

theorem decNode_ok {known : UInt8 → Bool} {j : Json} {n : Node} (h : decNode known j = .ok n) :
    NodeFits n ∧ ∀ s ∈ n.trace.steps, known s.op = true := by
  obtain ⟨_, h1, h⟩ := bind_ok h
  obtain ⟨_, h2, h⟩ := bind_ok h
  obtain ⟨_, h3, h⟩ := bind_ok h
  obtain ⟨_, h4, h⟩ := bind_ok h
  obtain ⟨_, _, h⟩ := bind_ok h
  obtain ⟨_, h5, h⟩ := bind_ok h
  cases h
  obtain ⟨v, hv⟩ := req_ok h4
  obtain ⟨t1, t2, t3, t4⟩ := decTrace_ok hv
  refine ⟨⟨fun i hi => ?_, fun i hi => ?_, reqNat_ok h3, t1, t2, t3, fun s hs => (t4 s hs).1, fun o ho => ?_⟩,
    fun s hs => (t4 s hs).2⟩
  · obtain ⟨v, hv⟩ := opt_ok h1 i hi
    exact decNat_ok hv
  · obtain ⟨v, hv⟩ := req_ok h2
    obtain ⟨u, hu⟩ := decList_ok hv i hi
    exact decNat_ok hu
  · obtain ⟨v, hv⟩ := req_ok h5
    obtain ⟨u, hu⟩ := decList_ok hv o ho
    exact decOrder_ok hu

theorem read_ok {known : UInt8 → Bool} {s : List Char} {ns : List Node} (h : read known s = .ok ns) :
    Fits ns ∧ OpsKnown known ns := by
  unfold read at h
  split at h
  · obtain ⟨v, hv⟩ := req_ok h
    exact ⟨fun n hn => have ⟨_, hu⟩ := decList_ok hv n hn; (decNode_ok hu).1,
      fun n hn => have ⟨_, hu⟩ := decList_ok hv n hn; (decNode_ok hu).2⟩
  · cases h

end Verif.Stored
