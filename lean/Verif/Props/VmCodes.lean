import Verif.Props.Vm
import Verif.Props.VmExact
import Verif.Lemmas.LevelOrder
/-!
# C30: which code every sub-trace gets, in every case
-/
namespace Verif.Props
open Spec Rec Parity Par

/-- **C30, any trace.** Whatever the trace, the addresses and the database: the sub-traces are taken in
breadth-first order, one address each. The first address the database does not answer for ends it with
the error of the database; fewer addresses than sub-traces end it with a panic (if the database answers
for all of them); otherwise the result is the trace with exactly these codes. -/
theorem C30_populate {ε : Type} (db : DB ε) (v : VmTrace) (addrs : List Address) :
    ∃ P, LevelOrder v P ∧ P.length = v.count ∧
      (∀ r, populateVmTraceBytecodes db v addrs = .ok r →
        P.length ≤ addrs.length ∧ Coded db P addrs v r) ∧
      (∀ e, populateVmTraceBytecodes db v addrs = .error (.db e) ↔
        ∃ k a, k < P.length ∧ addrs[k]? = some a ∧ dbCode db a = .error e ∧
          ∀ b ∈ addrs.take k, Answers db b) ∧
      (∀ x, populateVmTraceBytecodes db v addrs = .error (.panic x) ↔
        addrs.length < P.length ∧ (∀ b ∈ addrs, Answers db b) ∧
          x = .expect "there should be an address") := by
  obtain ⟨P, hb, hl⟩ := bfs_ends v v.count [[]] (by simp [VmTrace.at]) (by simp [cnt, VmTrace.at])
  have hlo := bfs_vm v _ P hb
  have hn : P.Nodup := by
    have := hlo.sorted
    exact this.imp (fun {a b} h he => by subst he; exact before_irrefl a h)
  have he : populateVmTraceBytecodes db v addrs = assign db v P addrs :=
    populateLoop_assign db v _ v [[]] P addrs rfl (by simp [VmTrace.at]) hb
  refine ⟨P, hlo, by rw [hl]; simp [cnt, VmTrace.at], ?_, ?_, ?_⟩
  · intro r hr
    rw [he] at hr
    obtain ⟨h1, h2, _, h4⟩ := assign_ok db P addrs v r hn hr
    refine ⟨h2, ?_, ?_⟩
    · intro p
      constructor
      · rintro ⟨w, hw⟩
        obtain ⟨u, hu, _⟩ := bare_of_skel r v h1.symm p w hw
        exact ⟨u, hu⟩
      · rintro ⟨w, hw⟩
        obtain ⟨u, hu, _⟩ := bare_of_skel v r h1 p w hw
        exact ⟨u, hu⟩
    · intro k p hk
      obtain ⟨a, c, ha, hc, hcode⟩ := h4 k p hk
      obtain ⟨w, hw⟩ := (hlo.mem p).1 (List.mem_of_getElem? hk)
      obtain ⟨u, hu, hops⟩ := bare_of_skel v r h1 p w hw
      refine ⟨a, c, w, u, ha, hc, hw, hu, ?_, hops⟩
      rw [hu, hw] at hcode
      simpa using hcode
  · intro e; rw [he]; exact (assign_error db P addrs v).1 e
  · intro x; rw [he]; exact (assign_error db P addrs v).2 x

/-- The trace addresses put into the queue. -/
def frameKids (cfg : Config) (t : Tx) (p : List Nat) : List (List Nat) :=
  match follow cfg (rootOf t) p with
  | none => []
  | some f => (List.range (shownCalls cfg f).length).map (fun i => p ++ [i])

theorem frameKids_kids (cfg : Config) (t : Tx) : Kids (frameKids cfg t) := by
  intro p
  rw [frameKids]
  cases follow cfg (rootOf t) p with
  | none => exact ⟨[], rfl, .nil⟩
  | some f => exact ⟨_, rfl, List.pairwise_lt_range⟩

theorem follow_snoc (cfg : Config) (p : List Nat) : ∀ (f : FrameCtx) (i : Nat),
    follow cfg f (p ++ [i]) = (follow cfg f p).bind (fun g => (shownCalls cfg g)[i]?) := by
  induction p with
  | nil =>
    intro f i
    simp only [List.nil_append, follow, Option.bind_some]
    cases (shownCalls cfg f)[i]? <;> rfl
  | cons j p ih =>
    intro f i
    simp only [List.cons_append, follow]
    cases (shownCalls cfg f)[j]? with
    | none => rfl
    | some g => exact ih g i

theorem frameKids_mem (cfg : Config) (t : Tx) (p q : List Nat) : q ∈ frameKids cfg t p ↔
    ∃ i, q = p ++ [i] ∧ (follow cfg (rootOf t) q).isSome = true := by
  rw [frameKids]
  cases h : follow cfg (rootOf t) p with
  | none =>
    simp only [List.not_mem_nil, false_iff, not_exists, not_and]
    rintro i rfl
    rw [follow_snoc, h]; simp
  | some f =>
    simp only [List.mem_map, List.mem_range]
    constructor
    · rintro ⟨i, hi, rfl⟩
      exact ⟨i, rfl, by rw [follow_snoc, h]; simpa using hi⟩
    · rintro ⟨i, rfl, hs⟩
      rw [follow_snoc, h] at hs
      exact ⟨i, by simpa using hs, rfl⟩

/-- The frame at a trace address. -/
def frameAt (cfg : Config) (t : Tx) (p : List Nat) : FrameCtx :=
  (follow cfg (rootOf t) p).getD (rootOf t)

/-- The walk over the nodes follows the trace addresses. -/
theorem walkLoop_bfs (cfg : Config) (t : Tx) (hwf : t.WF) : ∀ (n : Nat) (Q : List (List Nat))
    (W : List Node), (∀ p ∈ Q, (follow cfg (rootOf t) p).isSome = true) →
    walkLoop ((frames t).map (nodeOf cfg)) n (Q.map (fun p => (frameAt cfg t p).index)) = .ok W →
    ∃ L, bfs (frameKids cfg t) n Q = some L ∧ W = L.map (fun p => nodeOf cfg (frameAt cfg t p)) := by
  intro n
  induction n with
  | zero =>
    intro Q W _ h
    cases Q with
    | nil => simp only [List.map_nil, walkLoop, Except.ok.injEq] at h; subst h; exact ⟨[], rfl, rfl⟩
    | cons =>
      simp only [List.map_cons, walkLoop] at h
      split at h <;> cases h
  | succ n ih =>
    intro Q W hv h
    cases Q with
    | nil => simp only [List.map_nil, walkLoop, Except.ok.injEq] at h; subst h; exact ⟨[], rfl, rfl⟩
    | cons p Q =>
      obtain ⟨f, hf⟩ := Option.isSome_iff_exists.1 (hv p (by simp))
      have hat : frameAt cfg t p = f := by rw [frameAt, hf]; rfl
      have hmem : f ∈ frames t := (follow_reach cfg t hwf p (rootOf t) f (by simp [frames, rootOf])
        Reach.root hf).2
      have hkids : (nodeOf cfg f).children = (frameKids cfg t p).map
          (fun p => (frameAt cfg t p).index) := by
        rw [(nodeOf_link cfg t hwf f hmem).children, ← shownBelow_index, frameKids, hf]
        apply List.ext_getElem?
        intro k
        simp only [List.getElem?_map, List.map_map]
        change (((shownCalls cfg f)[k]?).map _) = _
        by_cases hk : k < (shownCalls cfg f).length
        · rw [List.getElem?_range hk, List.getElem?_eq_getElem hk]
          simp only [Option.map_some, Function.comp_def, frameAt, follow_snoc, hf, Option.bind_some,
            List.getElem?_eq_getElem hk, Option.getD_some]
        · rw [List.getElem?_eq_none (by omega), List.getElem?_eq_none (by simp; omega)]
          rfl
      simp only [List.map_cons, walkLoop, hat, frames_lookup cfg t f hmem] at h
      rw [hkids, ← List.map_append] at h
      split at h
      · simp at h
      · rename_i rest hrest
        simp only [Except.ok.injEq] at h
        obtain ⟨L, h1, h2⟩ := ih _ _ (by
          intro q hq
          rcases List.mem_append.1 hq with hq | hq
          · exact hv q (by simp [hq])
          · obtain ⟨i, _, hq⟩ := (frameKids_mem cfg t p q).1 hq
            exact hq) hrest
        refine ⟨p :: L, by rw [bfs, h1]; rfl, ?_⟩
        rw [← h, h2, List.map_cons, hat]

theorem bfs_frames (cfg : Config) (t : Tx) (n : Nat) (L : List (List Nat))
    (h : bfs (frameKids cfg t) n [[]] = some L) :
    FramesByLevel cfg t (L.map (fun p => (p, frameAt cfg t p))) := by
  obtain ⟨h1, h2⟩ := bfs_mem n _ _ h
  have hgood := bfs_good (fun p => (follow cfg (rootOf t) p).isSome = true) (fun p _ q hq => by
        obtain ⟨i, _, hq⟩ := (frameKids_mem cfg t p q).1 hq
        exact hq) n _ _ h (by intro q hq; simp only [List.mem_singleton] at hq; subst hq; rfl)
  constructor
  · intro p f
    constructor
    · intro hp
      obtain ⟨q, hq, he⟩ := List.mem_map.1 hp
      simp only [Prod.mk.injEq] at he
      obtain ⟨rfl, rfl⟩ := he
      obtain ⟨g, hg⟩ := Option.isSome_iff_exists.1 (hgood q hq)
      rw [frameAt, hg]; rfl
    · intro hp
      have key : ∀ (m : Nat) (p : List Nat), p.length = m →
          (follow cfg (rootOf t) p).isSome = true → p ∈ L := by
        intro m
        induction m with
        | zero =>
          intro p hl _
          rw [List.length_eq_zero_iff.1 hl]
          exact h1 [] (by simp)
        | succ m ih =>
          intro p hl hp
          obtain ⟨p', i, rfl⟩ : ∃ p' i, p = p' ++ [i] := by
            have hne : p ≠ [] := by intro he; simp [he] at hl
            exact ⟨p.dropLast, p.getLast hne, (List.dropLast_concat_getLast hne).symm⟩
          refine h2 p' (ih p' (by simpa using hl) ?_) _ ((frameKids_mem cfg t p' _).2 ⟨i, rfl, hp⟩)
          rw [follow_snoc] at hp
          cases hv : follow cfg (rootOf t) p' with
          | none => rw [hv] at hp; simp at hp
          | some w => rfl
      refine List.mem_map.2 ⟨p, key _ p rfl (by rw [hp]; rfl), ?_⟩
      rw [frameAt, hp]; rfl
  · rw [List.pairwise_map]
    have := bfs_sorted (frameKids_kids cfg t) n [] [[]] L h (by simp)
      (by intro q hq; left; simpa using hq)
    simpa using this

/-- **C31, in terms of trace addresses.** For every execution, the breadth-first walk visits the shown
frames in the order of the lengths of their trace addresses, those of the same length from left to
right, each once. -/
theorem C31_by_level (cfg : Config) (t : Tx) (hwf : t.WF) (hsafe : Safe cfg t.body) :
    ∃ s W F, TI.run cfg TI.new t.events = .ok s ∧ walkBF s.arena = .ok W ∧ FramesByLevel cfg t F ∧
      W.map (·.idx) = F.map (·.2.index) ∧
      W.map (·.trace.address) = F.map (fun e => (frameData e.2).address) := by
  obtain ⟨s, hr, _, ha, _⟩ := run_frames cfg t hwf hsafe
  obtain ⟨W, hW, _⟩ := C31_breadth_first cfg t.events s hr
  have hw := hW
  rw [walkBF, ha] at hw
  obtain ⟨L, hL, he⟩ := walkLoop_bfs cfg t hwf _ [[]] W (by simp [follow]) (by
    simpa [frameAt, follow, rootOf] using hw)
  have hm : ∀ p ∈ L, frameAt cfg t p ∈ frames t := by
    intro p hp
    have hF := bfs_frames cfg t _ L hL
    have := (hF.mem p (frameAt cfg t p)).1 (List.mem_map.2 ⟨p, hp, rfl⟩)
    exact (follow_reach cfg t hwf p (rootOf t) _ (by simp [frames, rootOf]) Reach.root this).2
  refine ⟨s, W, L.map (fun p => (p, frameAt cfg t p)), hr, hW, bfs_frames cfg t _ L hL, ?_, ?_⟩
  · rw [he, List.map_map, List.map_map]
    apply List.map_congr_left
    intro p hp
    exact (nodeOf_link cfg t hwf _ (hm p hp)).idx
  · rw [he, List.map_map, List.map_map]
    apply List.map_congr_left
    intro p _
    exact congrArg FrameData.address (nodeOf_readFrame cfg _)

theorem handOut_skel (ss : List CallTraceStep) : ∀ (q : List VmTrace), (∀ w ∈ q, skel w = w) →
    skelOps (handOut ss q) = handOut ss q := by
  induction ss with
  | nil => intros; rfl
  | cons st ss ih =>
    intro q hq
    simp only [handOut]
    split
    · rw [skelOps, ih _ (fun w hw => hq w (List.mem_of_mem_tail hw))]
      congr 1
      cases q with
      | nil => simp [vmInstr, skelOp]
      | cons w q => simp [vmInstr, skelOp, hq w (by simp)]
    · rw [skelOps, ih _ hq]
      congr 1

/-- The `vmTrace` of an execution has no codes. -/
theorem vmTrace_no_codes (cfg : Config) (t : Tx) (hwf : t.WF) (hsafe : Safe cfg t.body) :
    ∃ s v, TI.run cfg TI.new t.events = .ok s ∧ vmTrace s.arena = .ok v ∧
      ∀ p w, v.at p = some w → w.code = [] := by
  obtain ⟨s, v, hr, hv, h1, h2⟩ := C29_exact cfg t hwf hsafe
  refine ⟨s, v, hr, hv, ?_⟩
  have hsk : skel v = v := by
    by_cases hc : StopCase cfg t (stepsAt s.arena)
    · rw [h1 hc]; rfl
    · obtain ⟨V, hl, hlast, hT⟩ := h2 hc
      have key : ∀ (i : Nat) (w : VmTrace), V[i]? = some w → skel w = w := by
        intro i
        induction i using Nat.strongRecOn with
        | _ i ih =>
          intro w hw
          have hlt := (List.getElem?_eq_some_iff.1 hw).1
          have hf := List.getElem?_eq_getElem (l := leftOrder cfg t) (i := i) (by omega)
          have := hT i _ w hf hw
          rw [this, skel, handOut_skel]
          intro x hx
          obtain ⟨j, hj⟩ := List.getElem?_of_mem (List.mem_of_mem_drop hx)
          rw [List.getElem?_take] at hj
          split at hj
          · exact ih j (by assumption) x hj
          · simp at hj
      rw [List.getLast?_eq_getElem?] at hlast
      exact key _ v hlast
  intro p w hw
  have := at_skel p v
  rw [hsk, hw] at this
  simp only [Option.map_some, Option.some.injEq] at this
  obtain ⟨c, ops⟩ := w
  simp only [skel, VmTrace.mk.injEq] at this
  exact this.1

/-- **C30, exactly.** For every execution, configuration and database: populating takes the sub-traces
of the `vmTrace` in breadth-first order, and gives the k-th the code that the database has for the
address of the k-th shown frame in breadth-first order of the trace addresses (these are not always the
same frames, see the refutation); nothing else is changed. It fails exactly with the first error of the
database for one of these frames. -/
theorem C30_exact (cfg : Config) (t : Tx) (hwf : t.WF) (hsafe : Safe cfg t.body) :
    ∃ s v W P F, TI.run cfg TI.new t.events = .ok s ∧ vmTrace s.arena = .ok v ∧
      walkBF s.arena = .ok W ∧ LevelOrder v P ∧ FramesByLevel cfg t F ∧ P.length ≤ F.length ∧
      ∀ {ε : Type} (db : DB ε),
        (∀ r, populateVmTraceBytecodes db v (W.map (·.trace.address)) = .ok r →
          (∀ p, (∃ u, r.at p = some u) ↔ ∃ w, v.at p = some w) ∧
          ∀ (k : Nat) (p : List Nat), P[k]? = some p → ∃ q f w u, F[k]? = some (q, f) ∧
            v.at p = some w ∧ r.at p = some u ∧ u.ops.map bare = w.ops.map bare ∧
            u.code = codeOf db (frameData f).address) ∧
        (∀ e, populateVmTraceBytecodes db v (W.map (·.trace.address)) = .error e ↔
          ∃ k q f x, e = .db x ∧ k < P.length ∧ F[k]? = some (q, f) ∧
            dbCode db (frameData f).address = .error x ∧
            ∀ g ∈ F.take k, Answers db (frameData g.2).address) := by
  obtain ⟨s, W, F, hr, hW, hF, _, haddr⟩ := C31_by_level cfg t hwf hsafe
  obtain ⟨s', v, hr', hv, hno⟩ := vmTrace_no_codes cfg t hwf hsafe
  rw [hr] at hr'; simp only [Except.ok.injEq] at hr'; subst hr'
  obtain ⟨P, hb, hl⟩ := bfs_ends v v.count [[]] (by simp [VmTrace.at]) (by simp [cnt, VmTrace.at])
  have hlo := bfs_vm v _ P hb
  have hpc : P.length = v.count := by rw [hl]; simp [cnt, VmTrace.at]
  have hlenW : P.length ≤ F.length := by
    obtain ⟨s', v', W', hr', hv', hW', hp⟩ := populate_no_panic (ε := Unit) cfg t hwf hsafe
    rw [hr] at hr'; simp only [Except.ok.injEq] at hr'; subst hr'
    rw [hv] at hv'; simp only [Except.ok.injEq] at hv'; subst hv'
    rw [hW] at hW'; simp only [Except.ok.injEq] at hW'; subst hW'
    obtain ⟨P', _, hl', _, _, hpan⟩ := C30_populate (ε := Unit)
      ⟨fun _ => .ok none, fun _ => .ok []⟩ v (W.map (·.trace.address))
    have := hp ⟨fun _ => .ok none, fun _ => .ok []⟩
      (.expect "there should be an address")
    rw [Ne, hpan] at this
    have hFl : F.length = W.length := by
      have := congrArg List.length haddr; simpa using this.symm
    by_cases hlt : F.length < P.length
    · exfalso
      apply this
      refine ⟨by simp; omega, ?_, rfl⟩
      intro b _
      exact ⟨none, rfl⟩
    · omega
  refine ⟨s, v, W, P, F, hr, hv, hW, hlo, hF, hlenW, ?_⟩
  intro ε db
  obtain ⟨P', hlo', hl', h1, h2, h3⟩ := C30_populate db v (W.map (·.trace.address))
  have hPP : P' = P := level_unique hlo' hlo
  subst hPP
  rw [haddr] at h1 h2 h3 ⊢
  refine ⟨?_, ?_⟩
  · intro r hpop
    obtain ⟨_, hc1, hc2⟩ := h1 r hpop
    refine ⟨hc1, ?_⟩
    intro k p hk
    obtain ⟨a, c, w, u, ha, hc, hw, hu, hcode, hops⟩ := hc2 k p hk
    rw [List.getElem?_map, Option.map_eq_some_iff] at ha
    obtain ⟨⟨q, f⟩, hq, rfl⟩ := ha
    refine ⟨q, f, w, u, hq, hw, hu, hops, ?_⟩
    rw [hcode, hno p w hw]
    simp only [dbCode] at hc
    simp only [codeOf]
    cases hacc : db.account (frameData f).address with
    | error e => rw [hacc] at hc; simp at hc
    | ok acc =>
      rw [hacc] at hc
      dsimp only at hc ⊢
      by_cases hk : acc.codeHash = KECCAK_EMPTY
      · rw [if_pos hk] at hc ⊢
        simp only [Except.ok.injEq] at hc; subst hc; rfl
      · rw [if_neg hk] at hc ⊢
        cases hcb : db.codeByHash acc.codeHash with
        | error e => rw [hcb] at hc; simp at hc
        | ok code => rw [hcb] at hc; simp only [Except.ok.injEq] at hc; subst hc; rfl
  · intro e
    cases e with
    | panic x =>
      rw [h3]
      constructor
      · rintro ⟨h, _⟩
        rw [List.length_map] at h
        omega
      · rintro ⟨_, _, _, _, h, _⟩; simp at h
    | db e =>
      rw [h2]
      constructor
      · rintro ⟨k, a, hk, ha, he, hall⟩
        rw [List.getElem?_map, Option.map_eq_some_iff] at ha
        obtain ⟨⟨q, f⟩, hq, rfl⟩ := ha
        refine ⟨k, q, f, e, rfl, hk, hq, he, ?_⟩
        intro g hg
        refine hall _ ?_
        rw [← List.map_take]
        exact List.mem_map.2 ⟨g, hg, rfl⟩
      · rintro ⟨k, q, f, x, hx, hk, hq, he, hall⟩
        simp only [Fail.db.injEq] at hx
        subst hx
        refine ⟨k, _, hk, by rw [List.getElem?_map, hq]; rfl, he, ?_⟩
        intro b hb
        rw [← List.map_take] at hb
        obtain ⟨g, hg, rfl⟩ := List.mem_map.1 hb
        exact hall g hg

open VmExample in
/-- The hypotheses are met by the transaction of the refutation; its frames in breadth-first order are
the transaction, the two calls and the call of the second. -/
example : (tx2 flat nested).WF ∧ (∀ cfg, Safe cfg (tx2 flat nested).body) ∧
    [[], [0], [1], [1, 0]].map (fun p => (follow Config.all (rootOf (tx2 flat nested)) p).map
      (fun f => (frameData f).address)) = [some 0xa, some 0xb, some 0xd, some 0xc] ∧
    [[], [0], [1], [1, 0]].Pairwise PathBefore :=
  ⟨wf21, safe21, by decide, by simp [PathBefore, List.cons_lt_cons_iff]⟩

/-- Too few addresses: a panic. An address the database knows no answer for: its error. -/
example : populateVmTraceBytecodes VmExample.db (.mk [] []) [] =
      .error (.panic (.expect "there should be an address")) ∧
    populateVmTraceBytecodes (ε := String) ⟨fun _ => .error "gone", fun _ => .ok []⟩ (.mk [] []) [1] =
      .error (.db "gone") := ⟨rfl, rfl⟩

end Verif.Props
