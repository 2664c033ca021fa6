import Verif.Lemmas.ReadBack
import Verif.Props.Writer
/-!
# C125 (the call tree can be read from the text of a trace)
-/
namespace Verif.Props
open Spec Rec Writer ReadBack

theorem bare_kept (cfg : Config) : Kept cfg Bare where
  step i c x h := ⟨h.trace, (plain_kept cfg).step i c x h.steps, h.logs⟩
  fill i c x k st st' h hst hf := ⟨h.trace, (plain_kept cfg).fill i c x k st st' h.steps hst hf, h.logs⟩
  log l x h := ⟨h.trace, h.steps, by
    intro g hg
    simp only [TI.logNode, List.mem_append, List.mem_singleton] at hg
    rcases hg with hg | hg
    · exact h.logs g hg
    · rw [hg]; rfl⟩
  destroy a t v x h := ⟨h.trace, h.steps, h.logs⟩
  leave c n r a x h := ⟨by
    show (TI.fillTrace c n r a x.trace).decoded = {}
    rw [(fillTrace_steps c n r a x.trace).2]; exact h.trace, (plain_kept cfg).leave c n r a x h.steps, h.logs⟩
  attach x n h := ⟨h.trace, h.steps, h.logs⟩
  fresh p n t ht hd := ⟨hd, by intro s hs; simp [ht] at hs, by intro l hl; simp at hl⟩

theorem bare_doc {nodes : List Node} (hp : ∀ x ∈ nodes, Bare x) : ∀ N,
    (∀ d : Doc, sizeOf d < N → ∀ idx, Unfolds nodes idx d → BareDoc d) ∧
    (∀ it : DocItems, sizeOf it < N → ∀ idx x os n, Bare x → UnfoldsItems nodes idx x os n it → BareItems it) := by
  intro N
  induction N with
  | zero => exact ⟨fun d h => absurd h (by omega), fun d h => absurd h (by omega)⟩
  | succ N ih =>
    constructor
    · intro d hsz idx h
      obtain ⟨x, it⟩ := d
      simp only [Unfolds] at h
      simp only [BareDoc]
      have hx := hp x (List.mem_of_getElem? h.1)
      exact ⟨hx.trace, ih.2 it (by simp at hsz; omega) _ _ _ _ hx h.2⟩
    · intro it hsz idx x os n hx h
      cases it with
      | nil => simp [BareItems]
      | log l rest =>
        simp only [UnfoldsItems] at h
        obtain ⟨i, os', rfl, hl, hr⟩ := h
        simp only [BareItems]
        exact ⟨hx.logs l (List.mem_of_getElem? hl), ih.2 rest (by simp at hsz; omega) _ _ _ _ hx hr⟩
      | step s rest =>
        simp only [UnfoldsItems] at h
        obtain ⟨os', rfl, hl, hr⟩ := h
        simp only [BareItems]
        exact ⟨hx.steps s (List.mem_of_getElem? hl), ih.2 rest (by simp at hsz; omega) _ _ _ _ hx hr⟩
      | sub d rest =>
        simp only [UnfoldsItems] at h
        obtain ⟨i, c, os', rfl, hl, _, hd, hr⟩ := h
        simp only [BareItems]
        exact ⟨ih.1 d (by simp at hsz; omega) _ hd, ih.2 rest (by simp at hsz; omega) _ _ _ _ hx hr⟩

mutual
theorem seen_view : ∀ d : Doc, d.seen.noGas = d.view.seen
  | .mk x items => by
    simp only [Doc.seen, SeenTree.noGas, Doc.view, Tree.seen, items_seen_view items]; rfl
theorem items_seen_view : ∀ it : DocItems, it.seen.noGas = it.view.seen
  | .nil => rfl
  | .log l rest => by simp only [DocItems.seen, SeenItems.noGas, DocItems.view, Forest.seen, items_seen_view rest]
  | .step s rest => by simp only [DocItems.seen, DocItems.view, Forest.seen, items_seen_view rest]
  | .sub d rest => by
    simp only [DocItems.seen, SeenItems.noGas, DocItems.view, Forest.seen, seen_view d, items_seen_view rest]
end

/-- The text without colours is a function of what is seen, and determines it. -/
theorem docs_iff {w w' : Settings} (hw : w'.checksum = w.checksum) (ha : AddressText w.checksum) {d d' : Doc}
    (hb : BareDoc d) (hb' : BareDoc d') (n : Nat) :
    dropColors (printLines (d.lines w n)) = dropColors (printLines (d'.lines w' n)) ↔ d.seen = d'.seen := by
  have e1 := print_plain _ _ (doc_plain w d n hb)
  have e2 := print_plain _ _ (doc_plain w' d' n hb')
  rw [hw] at e2
  rw [e1, e2]
  constructor
  · intro h
    have h' := (List.map_inj_right (fun a b hab => by cases hab; rfl)).1 h
    exact text_inj (addrText ha) (doc_sane d) (doc_sane d') h'
  · intro h
    rw [h]

/-- **C125.** Two recorded transactions, without decoded information, are written from the same indentation, with the
same texts for addresses, with or without colours. Both are written completely, and the texts are the same up to
colours exactly if what is to be seen of the two executions is the same: the frames, nested as they were entered,
each with its status and gas used, and for a call the kind, the account, the value, the input and the output, for
a creation the account and the length of the code; and the logs of each frame, with all topics and data, between
the frames where they were emitted. So all of this can be read from the text, and nothing else can. -/
theorem C125_text_iff (cfg cfg' : Config) (t t' : Tx) (hwf : t.WF) (hwf' : t'.WF) (hsafe : Safe cfg t.body)
    (hsafe' : Safe cfg' t'.body) (w w' : Settings) (hw : w'.checksum = w.checksum) (ha : AddressText w.checksum)
    (k k' : Sink) (hk : ∀ n, k.fault n = none) (hf : k.flushFails = false) (hk' : ∀ n, k'.fault n = none)
    (hf' : k'.flushFails = false) (n : Nat) (hdep : ∀ f ∈ frames t, n + f.depth + 1 < 65536)
    (hdep' : ∀ f ∈ frames t', n + f.depth + 1 < 65536) :
    ∃ s s' d d' st st', TI.run cfg TI.new t.events = .ok s ∧ TI.run cfg' TI.new t'.events = .ok s' ∧
      Unfolds s.arena 0 d ∧ Unfolds s'.arena 0 d' ∧
      d.seen.noGas = (execTree cfg t).seen ∧ d'.seen.noGas = (execTree cfg' t').seen ∧
      writeArena w k s.arena { indent := n } = (.ok (), st) ∧
      writeArena w' k' s'.arena { indent := n } = (.ok (), st') ∧
      (dropColors st.out = dropColors st'.out ↔ d.seen = d'.seen) := by
  obtain ⟨s, d, st, h1, h2, h3, h4, h5, _⟩ := C51_undecoded cfg t hwf hsafe w k { indent := n } hk hf hdep
  obtain ⟨s', d', st', h1', h2', h3', h4', h5', _⟩ :=
    C51_undecoded cfg' t' hwf' hsafe' w' k' { indent := n } hk' hf' hdep'
  refine ⟨s, s', d, d', st, st', h1, h1', h2, h2', by rw [seen_view, h3], by rw [seen_view, h3'], h4, h4', ?_⟩
  have hb := (bare_doc (run_kept (bare_kept cfg) (events_tail t) h1) (sizeOf d + 1)).1 d (Nat.lt_succ_self _) 0 h2
  have hb' := (bare_doc (run_kept (bare_kept cfg') (events_tail t') h1') (sizeOf d' + 1)).1 d' (Nat.lt_succ_self _) 0 h2'
  rw [h5, h5']
  exact docs_iff hw ha hb hb' n

/-- **C125, from text to execution.** If the texts of two recorded transactions are the same, so is what is to be
seen of their call trees. -/
theorem C125_read (cfg cfg' : Config) (t t' : Tx) (hwf : t.WF) (hwf' : t'.WF) (hsafe : Safe cfg t.body)
    (hsafe' : Safe cfg' t'.body) (w w' : Settings) (hw : w'.checksum = w.checksum) (ha : AddressText w.checksum)
    (k k' : Sink) (hk : ∀ n, k.fault n = none) (hf : k.flushFails = false) (hk' : ∀ n, k'.fault n = none)
    (hf' : k'.flushFails = false) (n : Nat) (hdep : ∀ f ∈ frames t, n + f.depth + 1 < 65536)
    (hdep' : ∀ f ∈ frames t', n + f.depth + 1 < 65536) :
    ∃ s s', TI.run cfg TI.new t.events = .ok s ∧ TI.run cfg' TI.new t'.events = .ok s' ∧
      (dropColors (writeArena w k s.arena { indent := n }).2.out =
          dropColors (writeArena w' k' s'.arena { indent := n }).2.out →
        (execTree cfg t).seen = (execTree cfg' t').seen) := by
  obtain ⟨s, s', d, d', st, st', h1, h1', _, _, h3, h3', h4, h4', h5⟩ :=
    C125_text_iff cfg cfg' t t' hwf hwf' hsafe hsafe' w w' hw ha k k' hk hf hk' hf' n hdep hdep'
  refine ⟨s, s', h1, h1', fun h => ?_⟩
  rw [h4, h4'] at h
  rw [← h3, ← h3', h5.1 h]

/-- A text of addresses: `0x` and forty digits. -/
def lowerCase (a : Address) : String := "0x" ++ String.ofList (hexEncode (addressBytes a))

theorem lowerCase_text : AddressText lowerCase := by
  intro a
  refine ⟨hexEncode (addressBytes a), by simp [lowerCase], ?_⟩
  have : ∀ x : Fin 16, Char.toLower (hexDigit x.val) = hexDigit x.val := by decide
  rw [List.map_congr_left (g := id), List.map_id]
  intro c hc
  simp only [hexEncode, List.mem_flatMap] at hc
  obtain ⟨b, _, hc⟩ := hc
  have hb := b.toNat_lt
  simp only [List.mem_cons, List.not_mem_nil, or_false] at hc
  rcases hc with rfl | rfl
  · exact this ⟨b.toNat / 16, by omega⟩
  · exact this ⟨b.toNat % 16, by omega⟩

/-- The transaction of the example, sent by another account. -/
def otherSender : Tx := { writerTx with hdr := Example.callHdr .Call 0x98 0xa 0xa 11 }

/-- What is to be seen of the example: the call, the call in it, and its log. -/
example : (execTree writerConfig writerTx).seen =
    .mk ⟨0, .Stop, .called .Call 0xa 11 [1, 2, 3, 4, 5] [7, 8]⟩
      (.sub (.mk ⟨0, .Return, .called .Call 0xb 6 [1, 2, 3, 4, 5] [7, 8]⟩ (.log [1, 2] [9] .nil)) .nil) := rfl

/-- The arena recorded for it. -/
def otherArena : List Node :=
  match TI.run writerConfig TI.new otherSender.events with
  | .ok s => s.arena
  | .error _ => []

set_option maxRecDepth 20000 in
/-- The two differ in what is not shown, and the same text is written for both, one with colours, the other without. -/
theorem same_text : dropColors (writeArena ⟨true, true, lowerCase⟩ goodSink writerArena { indent := 3 }).2.out =
    dropColors (writeArena ⟨false, false, lowerCase⟩ goodSink otherArena { indent := 3 }).2.out := by
  decide +kernel

/-- The hypotheses can be met: by the two transactions, of which the same is to be seen. -/
example : writerTx ≠ otherSender ∧ ∃ s s' d d', TI.run writerConfig TI.new writerTx.events = .ok s ∧
    TI.run writerConfig TI.new otherSender.events = .ok s' ∧ Unfolds s.arena 0 d ∧ Unfolds s'.arena 0 d' ∧
    d.seen = d'.seen := by
  have hwf : otherSender.WF := writerTx_wf
  have hdep : ∀ f ∈ frames writerTx, 3 + f.depth + 1 < 65536 := by decide
  have hdep' : ∀ f ∈ frames otherSender, 3 + f.depth + 1 < 65536 := by decide
  obtain ⟨s, s', d, d', st, st', h1, h1', hu, hu', _, _, h4, h4', h5⟩ :=
    C125_text_iff writerConfig writerConfig writerTx otherSender writerTx_wf hwf writerTx_safe writerTx_safe
      ⟨true, true, lowerCase⟩ ⟨false, false, lowerCase⟩ rfl lowerCase_text goodSink goodSink (fun _ => rfl) rfl
      (fun _ => rfl) rfl 3 hdep hdep'
  refine ⟨by simp [writerTx, otherSender, Example.callHdr], s, s', d, d', h1, h1', hu, hu', h5.1 ?_⟩
  have e := same_text
  rw [show writerArena = s.arena by unfold writerArena; rw [h1],
    show otherArena = s'.arena by unfold otherArena; rw [h1'], h4, h4'] at e
  exact e

end Verif.Props
