import Verif.Model.RevertReason
import Verif.Spec.RevertReason
import Verif.Props.Cross
import Verif.Props.Gas
/-!
# C94: the revert reason of a call frame is the one the contract gave

The decoder is the one of the library the crate calls (Verif/Model/RevertReason.lean, written from its
documentation). `lossy` is `String::from_utf8_lossy`, of which only is used that it returns the text of
valid UTF-8.
-/
namespace Verif.Props
open Spec Sol
open Verif.Rec (run_frames nodeOf)

theorem foldl_be (l : Bytes) (a : Nat) :
    l.foldl (fun n b => n * 256 + b.toNat) a = a * 256 ^ l.length + beNat l := by
  induction l generalizing a with
  | nil => simp [beNat]
  | cons x l ih =>
    rw [List.foldl_cons, ih, beNat, List.length_cons, Nat.pow_succ, Nat.add_mul, Nat.mul_assoc,
      Nat.mul_comm 256, Nat.add_assoc]

theorem be_append (a b : Bytes) : beNat (a ++ b) = beNat a * 256 ^ b.length + beNat b := by
  induction a with
  | nil => simp [beNat]
  | cons x a ih =>
    rw [List.cons_append, beNat, ih, beNat, List.length_append, Nat.pow_add, Nat.add_mul, Nat.mul_assoc,
      Nat.add_assoc]

theorem asOffset_word {w : Bytes} {n : Nat} (h : IsWord w n) (hn : n < 2 ^ 64) : asOffset w = n := by
  obtain ⟨hl, hw⟩ := h
  unfold asOffset
  rw [foldl_be, Nat.zero_mul, Nat.zero_add]
  have h1 := be_append (w.take (w.length - 8)) (w.drop (w.length - 8))
  rw [List.take_append_drop, hw] at h1
  have h2 : (w.drop (w.length - 8)).length = 8 := by rw [List.length_drop]; omega
  rw [h2] at h1
  have : (256 : Nat) ^ 8 = 2 ^ 64 := by decide
  rw [this] at h1
  have : beNat (w.take (w.length - 8)) = 0 := by
    rcases Nat.eq_zero_or_pos (beNat (w.take (w.length - 8))) with h | h
    · exact h
    · have := Nat.mul_le_mul_right (2 ^ 64) h
      omega
  rw [this, Nat.zero_mul, Nat.zero_add] at h1
  exact h1.symm

theorem wordU256_word {w : Bytes} {c : U256} (h : IsWord w c.toNat) : wordU256 w = c := by
  unfold wordU256
  rw [foldl_be, Nat.zero_mul, Nat.zero_add, h.2]
  exact BitVec.eq_of_toNat_eq (by rw [BitVec.toNat_ofNat]; exact Nat.mod_eq_of_lt c.isLt)

theorem fromUTF8_iff (out : Bytes) (r : String) :
    String.fromUTF8? ⟨out.toArray⟩ = some r ↔ utf8 r = out := by
  unfold String.fromUTF8? utf8
  constructor
  · intro h
    split at h
    · rw [← Option.some.inj h]
      simp [String.fromUTF8]
    · cases h
  · intro h
    have : r.toByteArray = ⟨out.toArray⟩ := by rw [← h]
    rw [← this, dif_pos r.isValidUTF8]
    rfl

theorem asOffset_low {w : Bytes} {n : Nat} (hl : w.length = 32) : IsLow w n ↔ asOffset w = n := by
  unfold asOffset IsLow
  rw [foldl_be, Nat.zero_mul, Nat.zero_add, hl]
  exact ⟨fun h => h.2, fun h => ⟨rfl, h⟩⟩

theorem takeWord_iff {buf w : Bytes} : takeWord buf = some w ↔ w.length = 32 ∧ w <+: buf := by
  unfold takeWord
  constructor
  · intro h
    split at h
    · next hl =>
      cases h
      exact ⟨by rw [List.length_take]; omega, List.take_prefix _ _⟩
    · cases h
  · rintro ⟨hl, r, rfl⟩
    rw [if_pos (by simp; omega), ← hl, List.take_left]

theorem decodeString_iff {buf text : Bytes} : decodeString buf = some text ↔ Holds IsLow buf text := by
  unfold decodeString Holds
  simp only [Option.bind_eq_bind, Option.bind_eq_some_iff, takeWord_iff]
  constructor
  · rintro ⟨w, ⟨hw, hwp⟩, hc⟩
    split at hc
    · simp only [Option.bind_some, Option.bind_eq_some_iff, takeWord_iff] at hc
      obtain ⟨l, ⟨hl, r, hr⟩, ht⟩ := hc
      split at ht
      · next hlen =>
        cases ht
        rw [← hr]
        rw [← hr] at hlen
        refine ⟨w, l, r.drop (asOffset l), asOffset w, hwp, (asOffset_low hw).2 rfl, ?_,
          (asOffset_low hl).2 ?_⟩
        · rw [← hr, ← hl, List.drop_left, List.append_assoc, List.take_append_drop]
        · rw [← hl, List.drop_left, List.length_take]
          simp only [List.length_append] at hlen
          omega
      · cases ht
    · cases hc
  · rintro ⟨w, l, rest, o, hwp, hw, hd, hl⟩
    have hw' := (asOffset_low hw.1).1 hw
    have hl' := (asOffset_low hl.1).1 hl
    have hll := hl.1
    have hlen := congrArg List.length hd
    simp only [List.length_drop, List.length_append] at hlen
    refine ⟨w, ⟨hw.1, hwp⟩, ?_⟩
    rw [hw', if_pos (by omega), Option.bind_some, Option.bind_eq_some_iff]
    refine ⟨l, takeWord_iff.2 ⟨hll, text ++ rest, by rw [hd, List.append_assoc]⟩, ?_⟩
    rw [hl', hd, if_pos (by simp only [List.length_append]; omega), ← hll, List.append_assoc, List.drop_left,
      List.take_left]

theorem isLow_of_isWord {w : Bytes} {n : Nat} (h : IsWord w n) (hn : n < 2 ^ 64) : IsLow w n :=
  (asOffset_low h.1).2 (asOffset_word h hn)

theorem holds_low {params text : Bytes} (hlen : params.length < 2 ^ 64) (h : Holds IsWord params text) :
    Holds IsLow params text := by
  obtain ⟨w, l, rest, o, hwp, hw, hd, hl⟩ := h
  have hlen' := congrArg List.length hd
  have := hl.1
  simp only [List.length_drop, List.length_append] at hlen'
  exact ⟨w, l, rest, o, hwp, isLow_of_isWord hw (by omega), hd, isLow_of_isWord hl (by omega)⟩

theorem holds_unique {params a b : Bytes} (ha : Holds IsLow params a) (hb : Holds IsLow params b) : a = b := by
  rw [← decodeString_iff] at ha hb
  rw [ha] at hb
  exact Option.some.inj hb

theorem abiDecode_error {lossy : Bytes → String} (params : Bytes) :
    abiDecode lossy (errorSelector ++ params) = (decodeString params).map (.revert <| lossy ·) := by
  rw [abiDecode, if_neg (by simp [errorSelector]), if_pos (by simp [errorSelector])]
  rfl

theorem shown_low {lossy : Bytes → String} {display : ContractError → String} {params text : Bytes}
    (h : Holds IsLow params text) : reasonShown (decoder lossy display) (errorSelector ++ params) =
      if lossy text = "" then none else some (lossy text) := by
  have : abiDecode lossy (errorSelector ++ params) = some (.revert (lossy text)) := by
    rw [abiDecode_error, decodeString_iff.2 h]; rfl
  simp only [reasonShown, decoder, decode, this, Option.map_some, told]
  by_cases h0 : lossy text = ""
  · simp [Option.filter, h0]
  · simp [Option.filter, h0]

theorem shown_text {lossy : Bytes → String} {display : ContractError → String}
    (hlossy : ∀ s, lossy (utf8 s) = s) {s : String} {out : Bytes} (hs : out.length < 2 ^ 64)
    (h : RevertsWith s out) :
    reasonShown (decoder lossy display) out = if s = "" then none else some s := by
  obtain ⟨params, rfl, h⟩ := h
  rw [List.length_append] at hs
  rw [shown_low (holds_low (by omega) h), hlossy]

/-- The bytes of a character: one below 128, or several from 128 on. -/
theorem encodeChar_cases (c : Char) : (∃ b, String.utf8EncodeChar c = [b] ∧ b.toNat < 128) ∨
    ∃ b b' r, String.utf8EncodeChar c = b :: b' :: r ∧ 128 ≤ b.toNat ∧ 128 ≤ b'.toNat := by
  unfold String.utf8EncodeChar
  simp only
  split
  · refine .inl ⟨_, rfl, ?_⟩
    rw [UInt8.toNat_ofNat']
    omega
  · split
    · refine .inr ⟨_, _, _, rfl, ?_, ?_⟩ <;> rw [UInt8.toNat_ofNat'] <;> omega
    · split
      · refine .inr ⟨_, _, _, rfl, ?_, ?_⟩ <;> rw [UInt8.toNat_ofNat'] <;> omega
      · refine .inr ⟨_, _, _, rfl, ?_, ?_⟩ <;> rw [UInt8.toNat_ofNat'] <;> omega

theorem utf8_chars (x : String) : ∃ cs : List Char, utf8 x = cs.flatMap String.utf8EncodeChar := by
  obtain ⟨cs, h⟩ := x.isValidUTF8
  exact ⟨cs, by unfold utf8; rw [h]; simp [List.utf8Encode]⟩

/-- No text begins with the selector of `Error(string)`. -/
theorem no_text_of_error (x : String) (params : Bytes) : utf8 x ≠ errorSelector ++ params := by
  intro h
  obtain ⟨cs, hc⟩ := utf8_chars x
  rw [hc] at h
  cases cs with
  | nil => simp [errorSelector] at h
  | cons c cs =>
    rw [List.flatMap_cons] at h
    rcases encodeChar_cases c with ⟨b, hb, hlt⟩ | ⟨b, b', r, hb, hge, hge'⟩
    · rw [hb] at h
      simp only [errorSelector, List.cons_append, List.nil_append, List.cons.injEq] at h
      obtain ⟨-, h⟩ := h
      cases cs with
      | nil => simp at h
      | cons c cs =>
        rw [List.flatMap_cons] at h
        rcases encodeChar_cases c with ⟨b, hb, hlt⟩ | ⟨b, b', r, hb, hge, hge'⟩
        · rw [hb] at h
          simp only [List.cons_append, List.nil_append, List.cons.injEq] at h
          rw [h.1] at hlt
          exact absurd hlt (by decide)
        · rw [hb] at h
          simp only [List.cons_append, List.cons.injEq] at h
          rw [h.2.1] at hge'
          exact absurd hge' (by decide)
    · rw [hb] at h
      simp only [errorSelector, List.cons_append, List.cons.injEq] at h
      rw [h.1] at hge
      exact absurd hge (by decide)

theorem shown_panic {lossy : Bytes → String} {display : ContractError → String} {c : U256} {out : Bytes}
    (h : PanicsWith c out) : reasonShown (decoder lossy display) out =
      if display (.panic c) = "" then none else some (display (.panic c)) := by
  obtain ⟨w, rest, hw, rfl⟩ := h
  have hw' := hw.1
  have e1 : (panicSelector ++ w ++ rest).drop 4 = w ++ rest := by simp [panicSelector]
  have t1 : takeWord (w ++ rest) = some w := by
    rw [takeWord, if_pos (by simp; omega), List.take_append_of_le_length (by omega),
      List.take_of_length_le (by omega)]
  have : abiDecode lossy (panicSelector ++ w ++ rest) = some (.panic c) := by
    rw [abiDecode, if_neg (by simp [panicSelector]), if_neg (by simp [panicSelector]),
      if_pos (by simp [panicSelector]), e1, t1]
    simp [wordU256_word hw]
  simp only [reasonShown, decoder, decode, this, Option.map_some, told]
  by_cases h0 : display (.panic c) = ""
  · simp [Option.filter, h0]
  · simp [Option.filter, h0]

theorem take_prefix {p out : Bytes} (h : out.take p.length = p) : p <+: out :=
  h ▸ List.take_prefix p.length out

/-- Where no error can be decoded, the data itself is shown if it is text. -/
theorem shown_raw {lossy : Bytes → String} {display : ContractError → String} {out : Bytes}
    (h : abiDecode lossy out = none) (x : String) :
    reasonShown (decoder lossy display) out = some x ↔ x ≠ "" ∧ utf8 x = out := by
  simp only [reasonShown, decoder, decode, h]
  rw [Option.filter_eq_some_iff, ← fromUTF8_iff]
  cases String.fromUTF8? ⟨out.toArray⟩ with
  | none => simp
  | some y =>
    simp only [Option.map_some, told, Option.some.injEq]
    constructor
    · rintro ⟨rfl, h⟩; exact ⟨by simpa using h, rfl⟩
    · rintro ⟨h, rfl⟩; exact ⟨rfl, by simpa using h⟩

theorem panicsWith_of_len {params : Bytes} (h : 32 ≤ params.length) :
    ∃ code, PanicsWith code (panicSelector ++ params) := by
  refine ⟨BitVec.ofNat 256 (beNat (params.take 32)), params.take 32, params.drop 32, ⟨by
    rw [List.length_take]; omega, ?_⟩, by rw [List.append_assoc, List.take_append_drop]⟩
  have hb : ∀ l : Bytes, beNat l < 256 ^ l.length := by
    intro l
    induction l with
    | nil => simp [beNat]
    | cons y l ih =>
      rw [beNat, List.length_cons, Nat.pow_succ]
      have := y.toNat_lt
      have h2 : y.toNat * 256 ^ l.length ≤ 255 * 256 ^ l.length := Nat.mul_le_mul_right _ (by omega)
      omega
  have := hb (params.take 32)
  rw [List.length_take, Nat.min_eq_left h] at this
  rw [BitVec.toNat_ofNat, Nat.mod_eq_of_lt]
  rw [show (2 : Nat) ^ 256 = 256 ^ 32 by decide]
  exact this

/-- What is shown for data that are neither error. -/
theorem shown_other {lossy : Bytes → String} {display : ContractError → String} {out : Bytes}
    (h : NoReason out) (x : String) :
    reasonShown (decoder lossy display) out = some x ↔ x ≠ "" ∧ (utf8 x = out ∨
      ∃ params text, out = errorSelector ++ params ∧ Holds IsLow params text ∧ lossy text = x) := by
  by_cases h1 : errorSelector <+: out
  · obtain ⟨params, rfl⟩ := h1
    have hno := no_text_of_error x params
    by_cases hh : ∃ text, Holds IsLow params text
    · obtain ⟨text, ht⟩ := hh
      rw [shown_low ht]
      constructor
      · intro hs
        split at hs
        · cases hs
        · next hne => cases hs; exact ⟨hne, .inr ⟨params, text, rfl, ht, rfl⟩⟩
      · rintro ⟨hne, h | ⟨params', text', he, ht', rfl⟩⟩
        · exact absurd h hno
        · rw [List.append_cancel_left_eq] at he
          subst he
          rw [holds_unique ht' ht] at hne ⊢
          rw [if_neg hne]
    · have hd : decodeString params = none := by
        cases hd : decodeString params with
        | none => rfl
        | some text => exact absurd ⟨text, decodeString_iff.1 hd⟩ hh
      rw [shown_raw (by rw [abiDecode_error, hd]; rfl)]
      constructor
      · rintro ⟨_, h⟩; exact absurd h hno
      · rintro ⟨hne, h | ⟨params', text', he, ht', -⟩⟩
        · exact absurd h hno
        · rw [List.append_cancel_left_eq] at he
          subst he
          exact absurd ⟨_, ht'⟩ hh
  · have habi : abiDecode lossy out = none := by
      rw [abiDecode]
      split
      · rfl
      · have h1' : ¬ out.take 4 = [0x08, 0xc3, 0x79, 0xa0] := fun h' => h1 (take_prefix (p := errorSelector) h')
        rw [if_neg h1']
        split
        · next h2 =>
          obtain ⟨params, rfl⟩ := take_prefix (p := panicSelector) h2
          have : (panicSelector ++ params).drop 4 = params := by simp [panicSelector]
          rw [this, takeWord]
          split
          · next hl =>
            obtain ⟨code, hc⟩ := panicsWith_of_len hl
            exact absurd hc (h.2 code)
          · rfl
        · rfl
    rw [shown_raw habi]
    constructor
    · rintro ⟨a, b⟩; exact ⟨a, .inl b⟩
    · rintro ⟨a, b | ⟨params, _, rfl, -⟩⟩
      · exact ⟨a, b⟩
      · exact absurd (List.prefix_append _ _) h1

/-- What the frame of the tree shows for a frame of the execution, in full. -/
def ReasonShown (lossy : Bytes → String) (display : ContractError → String) (f : FrameCtx)
    (r : Option String) : Prop :=
  (f.out.result.result.isOk = true → r = none) ∧
  (f.out.result.result.isOk = false →
    (∀ s, RevertsWith s f.out.result.output → r = if s = "" then none else some s) ∧
    (∀ code, PanicsWith code f.out.result.output →
      r = if display (.panic code) = "" then none else some (display (.panic code))) ∧
    (∀ text, ErrorWith text f.out.result.output → r = if lossy text = "" then none else some (lossy text)) ∧
    (NoReason f.out.result.output → ∀ x, r = some x ↔ x ≠ "" ∧ (utf8 x = f.out.result.output ∨
      ∃ params text, f.out.result.output = errorSelector ++ params ∧ Holds IsLow params text ∧
        lossy text = x)))

theorem leaf_reason {lossy : Bytes → String} {display : ContractError → String}
    (hlossy : ∀ s, lossy (utf8 s) = s) (cfg : Config) (b : Bool) (f : FrameCtx)
    (hlen : f.out.result.output.length < 2 ^ 64) :
    ReasonShown lossy display f (leaf (decoder lossy display) cfg b f).revertReason := by
  refine ⟨fun h => by simp only [leaf, h, if_true], fun h => ?_⟩
  have e : (leaf (decoder lossy display) cfg b f).revertReason =
      reasonShown (decoder lossy display) f.out.result.output := by simp [leaf, h]
  rw [e]
  refine ⟨fun s hs => shown_text hlossy hlen hs, fun c hc => shown_panic hc, fun text ht => ?_,
    fun hn x => shown_other hn x⟩
  obtain ⟨params, ho, ht⟩ := ht
  rw [ho, List.length_append] at hlen
  rw [ho, shown_low (holds_low (by omega) ht)]

theorem reason_iff {lossy : Bytes → String} {display : ContractError → String} {f : FrameCtx} {r : Option String}
    (h : ReasonShown lossy display f r) : ReasonGiven display f r ↔ ¬ AccidentalText lossy f := by
  constructor
  · rintro ⟨_, h2⟩ ⟨a1, a2, hx⟩
    obtain ⟨x, hx⟩ : ∃ x, r = some x := by
      rcases hx with ⟨x, hx, hx'⟩ | ⟨params, text, ho, ht, hne⟩
      · exact ⟨x, ((h.2 a1).2.2.2 a2 x).2 ⟨hx, .inl hx'⟩⟩
      · exact ⟨_, ((h.2 a1).2.2.2 a2 _).2 ⟨hne, .inr ⟨params, text, ho, ht, rfl⟩⟩⟩
    rw [(h2 a1).2.2 a2] at hx
    cases hx
  · intro ha
    refine ⟨h.1, fun hf => ⟨(h.2 hf).1, (h.2 hf).2.1, fun hn => ?_⟩⟩
    cases hr : r with
    | none => rfl
    | some x =>
      obtain ⟨hne, hx | ⟨params, text, ho, ht, rfl⟩⟩ := ((h.2 hf).2.2.2 hn x).1 hr
      · exact absurd ⟨hf, hn, .inl ⟨x, hne, hx⟩⟩ ha
      · exact absurd ⟨hf, hn, .inr ⟨params, text, ho, ht, hne⟩⟩ ha

theorem tree_reasons {lossy : Bytes → String} {display : ContractError → String}
    (hlossy : ∀ s, lossy (utf8 s) = s) (cfg : Config) (t : Tx) (hwf : t.WF) (hsafe : Safe cfg t.body)
    (hlen : ∀ f ∈ frames t, f.out.result.output.length < 2 ^ 64)
    (opts : CallConfig) (honly : opts.onlyTopCall.getD false = false) (gas : Nat) :
    ∃ s g, TI.run cfg TI.new t.events = .ok s ∧
      gethCallTraces (decoder lossy display) s.arena opts gas = .ok g ∧
      InStep (fun (e : Nat × CallFrame) (f : FrameCtx) => ReasonShown lossy display f e.2.revertReason)
        (walk 0 g) (frames t) := by
  obtain ⟨s, root, hr, _, har, htr⟩ := run_traces cfg t hwf hsafe
  have hg := gethCallTraces_run (decoder lossy display) cfg t opts gas honly
  rw [← har] at hg
  refine ⟨s, _, hr, hg, ?_⟩
  have hwalk : InStep (fun (e : Nat × CallFrame) (f : FrameCtx) => e.1 = f.depth ∧
      Shows (decoder lossy display) e.2 f)
      (walk 0 (callFrameTree (decoder lossy display) cfg (opts.withLog.getD false)
        (opts.withLog.getD false) (sdUnder t) gas t)) (frames t) := by
    rw [callFrameTree, walk_cons (kindText_sd _), frames]
    refine .cons ⟨rfl, cfg, _, _, fun h => absurd rfl h, rfl⟩ ?_
    rw [walkAll_append, walkAll_sd _ _ (sdUnder_typ t 0), List.append_nil]
    exact walk_callTree _ cfg _ _ (sdUnder_typ t) t.body _ _ _ _ _ (by omega)
  have := hwalk.map_right (f := id) (r' := fun (e : Nat × CallFrame) (f : FrameCtx) =>
    ReasonShown lossy display f e.2.revertReason) (by
      rintro e f hf ⟨_, cfg', b, gas', _, hc⟩
      rw [hc]
      exact leaf_reason hlossy cfg' b f (hlen f hf))
  rwa [List.map_id] at this

theorem _root_.Verif.Spec.InStep.forall_iff {α β : Type} {r q : α → β → Prop} {p : β → Prop} {as : List α}
    {bs : List β} (h : InStep r as bs) (hq : ∀ a b, r a b → (q a b ↔ p b)) :
    InStep q as bs ↔ ∀ b ∈ bs, p b := by
  induction h with
  | nil => exact ⟨fun _ b hb => absurd hb (by simp), fun _ => InStep.nil⟩
  | @cons a b as bs h1 _ ih =>
    constructor
    · intro h
      cases h with
      | cons g1 g2 =>
        intro c hc
        rcases List.mem_cons.mp hc with rfl | hc
        · exact (hq _ _ h1).1 g1
        · exact ih.1 g2 c hc
    · intro h
      exact .cons ((hq _ _ h1).2 (h _ (by simp))) (ih.2 (fun c hc => h c (List.mem_cons_of_mem _ hc)))

/-- **C94, exactly.** For every execution, recording configuration and call configuration (without
`onlyTopCall`): the reasons shown by the call frames are all the ones the contracts gave if and only if no
frame failed with data that are neither error but happen to be text or to be read as an error. -/
theorem C94_exact {lossy : Bytes → String} {display : ContractError → String}
    (hlossy : ∀ s, lossy (utf8 s) = s) (cfg : Config) (t : Tx) (hwf : t.WF) (hsafe : Safe cfg t.body)
    (hlen : ∀ f ∈ frames t, f.out.result.output.length < 2 ^ 64)
    (opts : CallConfig) (honly : opts.onlyTopCall.getD false = false) (gas : Nat) :
    ∃ s g, TI.run cfg TI.new t.events = .ok s ∧
      gethCallTraces (decoder lossy display) s.arena opts gas = .ok g ∧
      (InStep (fun (e : Nat × CallFrame) (f : FrameCtx) => ReasonGiven display f e.2.revertReason)
        (walk 0 g) (frames t) ↔ ∀ f ∈ frames t, ¬ AccidentalText lossy f) := by
  obtain ⟨s, g, h1, h2, h3⟩ := tree_reasons (display := display) hlossy cfg t hwf hsafe hlen opts honly gas
  exact ⟨s, g, h1, h2, h3.forall_iff (fun a b h => reason_iff h)⟩

/-- **C94, the part that holds for all executions.** Frame by frame: a frame that did not fail shows no
reason; one that failed with `revert(s)` shows `s`, for every text `s` but the empty one (bytes that are no
text are shown as `lossy` makes them one); one that panicked shows the presentation of its code; one that
failed with any other data (a custom error, an error or a panic that is cut short) shows a reason exactly if
the data is text, and then the data itself, or if a text is found where the last eight bytes of offset and
length say. Missing: in the last case no reason was given. -/
theorem C94_reasons_partial {lossy : Bytes → String} {display : ContractError → String}
    (hlossy : ∀ s, lossy (utf8 s) = s) (cfg : Config) (t : Tx) (hwf : t.WF) (hsafe : Safe cfg t.body)
    (hlen : ∀ f ∈ frames t, f.out.result.output.length < 2 ^ 64)
    (opts : CallConfig) (honly : opts.onlyTopCall.getD false = false) (gas : Nat) :
    ∃ s g, TI.run cfg TI.new t.events = .ok s ∧
      gethCallTraces (decoder lossy display) s.arena opts gas = .ok g ∧
      InStep (fun (e : Nat × CallFrame) (f : FrameCtx) => ReasonShown lossy display f e.2.revertReason)
        (walk 0 g) (frames t) :=
  tree_reasons hlossy cfg t hwf hsafe hlen opts honly gas

/-- **C94 does not hold.** For every text `x` that encodes neither error and every transaction that fails with the
bytes of `x` as its data: the call frame of the transaction shows `x` as the revert reason, although the
contract gave none. The four bytes of a custom error without parameters can be such a text, and those of
`Panic(uint256)` without its parameter are one. -/
theorem C94_refuted {lossy : Bytes → String} {display : ContractError → String}
    (hlossy : ∀ s, lossy (utf8 s) = s) (cfg : Config) (t : Tx) (hwf : t.WF) (hsafe : Safe cfg t.body)
    (hlen : ∀ f ∈ frames t, f.out.result.output.length < 2 ^ 64)
    (x : String) (hx : x ≠ "") (hn : NoReason (utf8 x)) (hfail : t.out.result.result.isOk = false)
    (hout : t.out.result.output = utf8 x)
    (opts : CallConfig) (honly : opts.onlyTopCall.getD false = false) (gas : Nat) :
    ∃ s g, TI.run cfg TI.new t.events = .ok s ∧
      gethCallTraces (decoder lossy display) s.arena opts gas = .ok g ∧ g.revertReason = some x ∧
      ¬ ReasonGiven display (rootOf t) g.revertReason := by
  obtain ⟨s, root, hr, _, har, htr⟩ := run_traces cfg t hwf hsafe
  have hg := gethCallTraces_run (decoder lossy display) cfg t opts gas honly
  rw [← har] at hg
  have hrs := leaf_reason (display := display) hlossy cfg (opts.withLog.getD false) (rootOf t)
    (hlen _ (by simp [frames, rootOf]))
  have hno : NoReason (rootOf t).out.result.output := by show NoReason t.out.result.output; rwa [hout]
  refine ⟨s, _, hr, hg, ((hrs.2 hfail).2.2.2 hno x).2 ⟨hx, .inl hout.symm⟩, fun h => ?_⟩
  exact (reason_iff hrs).1 h ⟨hfail, hno, .inl ⟨x, hx, hout.symm⟩⟩

/-- A transaction that reverts with the given data. -/
def revertTx (out : Bytes) : Tx where
  hdr := gasHdr 100000
  body := .nil
  out := { gasOut .Revert 100000 40000 with
    result := { (gasOut .Revert 100000 40000).result with output := out } }

/-- A word, for the examples. -/
def wordOf (n : UInt8) : Bytes := List.replicate 31 0 ++ [n]

theorem noReason_of {out : Bytes} (h1 : ¬ errorSelector <+: out) (h2 : ¬ (panicSelector <+: out ∧ 36 ≤ out.length)) :
    NoReason out := by
  refine ⟨?_, ?_⟩
  · rintro text ⟨params, rfl, -⟩
    exact h1 (List.prefix_append _ _)
  · rintro code ⟨w, rest, hw, rfl⟩
    refine h2 ⟨⟨w ++ rest, by simp⟩, ?_⟩
    have := hw.1
    simp only [List.length_append, panicSelector, List.length_cons, List.length_nil]
    omega

/-- A text in the encoding that compilers make. -/
theorem revertsWith_std {s : String} {w l rest : Bytes} (hw : IsWord w 32) (hl : IsWord l (utf8 s).length) :
    RevertsWith s (errorSelector ++ w ++ l ++ utf8 s ++ rest) := by
  refine ⟨w ++ (l ++ utf8 s ++ rest), by simp, w, l, rest, 32, List.prefix_append _ _, hw, ?_, hl⟩
  rw [← hw.1, List.drop_left]

/-- The hypotheses of the theorems are met: by `revert("hi")` with and without the zeros at the end and with
another offset, by a division by zero, and, for `C94_refuted`, by a custom error whose selector is the bytes of
"abcd" and by a panic that is cut after its selector. -/
example : (∀ out, (revertTx out).WF ∧ Safe Config.all (revertTx out).body ∧
      (∀ f ∈ frames (revertTx out), f.out.result.output = out ∧ f.out.result.result.isOk = false)) ∧
    RevertsWith "hi" (errorSelector ++ wordOf 32 ++ wordOf 2 ++ utf8 "hi" ++ List.replicate 30 0) ∧
    RevertsWith "hi" (errorSelector ++ wordOf 32 ++ wordOf 2 ++ utf8 "hi" ++ []) ∧
    RevertsWith "hi" (errorSelector ++ (wordOf 35 ++ [1, 2, 3] ++ (wordOf 2 ++ utf8 "hi" ++ []))) ∧
    PanicsWith 0x12 (panicSelector ++ wordOf 0x12 ++ []) ∧
    NoReason (utf8 "abcd") ∧ utf8 "abcd" = [0x61, 0x62, 0x63, 0x64] ∧ NoReason [] ∧
    NoReason (utf8 "NH{q") ∧ utf8 "NH{q" = panicSelector ∧
    ∃ lossy : Bytes → String, ∀ s, lossy (utf8 s) = s := by
  refine ⟨fun out => ⟨⟨fun _ => rfl, fun h => absurd h (by simp [revertTx, gasHdr, Header.isPrecompile, Example.ctx]),
    trivial⟩, trivial, ?_⟩, revertsWith_std ⟨by decide, by decide⟩ ⟨by decide, by decide +kernel⟩,
    revertsWith_std ⟨by decide, by decide⟩ ⟨by decide, by decide +kernel⟩,
    ⟨_, rfl, wordOf 35, wordOf 2, [], 35, ⟨[1, 2, 3] ++ (wordOf 2 ++ utf8 "hi" ++ []), by simp⟩, ⟨by decide, by decide⟩, by decide +kernel,
      ⟨by decide, by decide +kernel⟩⟩,
    ⟨_, _, ⟨by decide, by decide⟩, rfl⟩, noReason_of (by decide +kernel) (by decide +kernel), by decide +kernel,
    noReason_of (by decide) (by decide), noReason_of (by decide +kernel) (by decide +kernel), by decide +kernel,
    fun b => (String.fromUTF8? ⟨b.toArray⟩).getD "", fun s => ?_⟩
  · intro f hf
    simp [frames, revertTx, subFrames] at hf
    subst hf
    exact ⟨rfl, rfl⟩
  · simp only [(fromUTF8_iff (utf8 s) s).2 rfl, Option.getD_some]

end Verif.Props
