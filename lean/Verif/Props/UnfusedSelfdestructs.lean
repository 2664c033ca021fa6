import Verif.Lemmas.UnfusedSelfdestructs
/-! C135: the call frames of several transactions without `fuse`, apart from selfdestructs. -/
namespace Verif.Props
open Spec Rec

/-- **C135**, call frames of transactions that selfdestruct: without logs, and apart from the frames of selfdestructs,
what `geth_call_traces` returns for a recording of any transactions is the root frame of the last one with the calls
of all of them, in order. -/
theorem C135_apart_from_selfdestructs (decode : RevertDecoder) (cfg : Config) (opts : CallConfig) (gas : Nat)
    (r : Tx → TI) (g : Tx → CallFrame) (t : Tx) (ts : List Tx)
    (hall : ∀ u ∈ t :: ts, (u.WF ∧ Safe cfg u.body) ∧ TI.run cfg TI.new u.events = .ok (r u) ∧
      gethCallTraces decode (r u).arena opts gas = .ok (g u))
    (honly : opts.onlyTopCall.getD false = false) (hlog : opts.withLog.getD false = false) :
    ∃ s F, TI.run cfg TI.new ((t :: ts).flatMap Tx.events) = .ok s ∧
      gethCallTraces decode s.arena opts gas = .ok F ∧
      withoutSd F = { withoutSd (g (ts.getLastD t)) with
        calls := (t :: ts).flatMap (fun u => (withoutSd (g u)).calls) } := by
  obtain ⟨s, hs, -, har⟩ := C120_exact cfg r t ts (fun u hu => ⟨(hall u hu).1, (hall u hu).2.1⟩)
  have hrec : ∀ u ∈ t :: ts, Shaped (r u).arena u.body := by
    intro u hu
    obtain ⟨s', hs', -, ha, -⟩ := run_frames cfg u (hall u hu).1.1 (hall u hu).1.2
    rw [(hall u hu).2.1] at hs'
    cases hs'
    rw [ha]
    exact shaped_run cfg u
  have hg : ∀ u ∈ t :: ts, ∃ x, (r u).arena[0]? = some x ∧ withoutSd (g u) =
      { x.gethEmptyCallFrame decode false with
        gasUsed := gas, calls := trees (bareFrame decode (r u).arena) 1 u.body } := by
    intro u hu
    obtain ⟨x, hx, -⟩ := (hrec u hu).root
    obtain ⟨F, hF, hw⟩ := shaped_without decode (hrec u hu) hx opts gas honly hlog
    rw [(hall u hu).2.2] at hF
    cases hF
    exact ⟨x, hx, hw⟩
  have hcalls : ∀ u ∈ t :: ts, (withoutSd (g u)).calls = trees (bareFrame decode (r u).arena) 1 u.body := by
    intro u hu
    obtain ⟨x, -, h⟩ := hg u hu
    rw [h]
  obtain ⟨x, hx, -⟩ := hg t (by simp)
  obtain ⟨b, y, h1, h2, h4, h5⟩ := bare_all decode (fun u => (r u).arena) ts (r t).arena t.body x
    (hrec t (by simp)) hx (fun u hu => hrec u (by simp [hu]))
  rw [← har] at h1 h2 h5
  obtain ⟨F, hF, hw⟩ := shaped_without decode h1 h2 opts gas honly hlog
  refine ⟨s, F, hs, hF, ?_⟩
  rw [hw, h5]
  have hlast : ts.getLastD t ∈ t :: ts := getLastD_mem t ts
  have hlm : (ts.map (fun u => (r u).arena)).getLastD (r t).arena = (r (ts.getLastD t)).arena := by
    clear hs har hall hrec hg hcalls h1 h2 h4 h5 hlast hx hF hw
    induction ts generalizing t with
    | nil => rfl
    | cons u us ih => rw [List.map_cons, List.getLastD_cons, List.getLastD_cons, ih]
  obtain ⟨z, hz, hgz⟩ := hg _ hlast
  rw [h4 z (by rw [hlm]; exact hz), hgz]
  have hfm : (t :: ts).flatMap (fun u => (withoutSd (g u)).calls) =
      trees (bareFrame decode (r t).arena) 1 t.body ++
        ts.flatMap (fun u => trees (bareFrame decode (r u).arena) 1 u.body) := by
    rw [List.flatMap_cons, hcalls t (by simp),
      flatMap_same _ (fun u => trees (bareFrame decode (r u).arena) 1 u.body) ts
        (fun u hu => hcalls u (by simp [hu]))]
  rw [hfm]

theorem withoutSds_types (l : List CallFrame) :
    (withoutSds l).map (·.typ) = (l.map (·.typ)).filter (fun n => n ≠ "SELFDESTRUCT") := by
  induction l with
  | nil => simp [withoutSds]
  | cons c cs ih =>
    rw [withoutSds]
    by_cases h : c.typ = "SELFDESTRUCT"
    · simp [h, ih]
    · simp only [h, if_false, List.map_cons, ih]
      rw [withoutSd]
      simp [h]

theorem withoutSd_types (F : CallFrame) :
    (withoutSd F).calls.map (·.typ) = (F.calls.map (·.typ)).filter (fun n => n ≠ "SELFDESTRUCT") := by
  rw [withoutSd]
  exact withoutSds_types _

/-- Two transactions whose first call selfdestructs meet the hypotheses. -/
example : ∃ (s : TI) (F : CallFrame),
    TI.run Config.all TI.new ([destroyerTx, destroyerTx].flatMap Tx.events) = .ok s ∧
    gethCallTraces ⟨fun _ => none, fun _ => ""⟩ s.arena {} 21000 = .ok F ∧
    (withoutSd F).calls.map (·.typ) = ["CALL", "CALL"] ∧
    F.calls.map (·.typ) = ["CALL", "CALL", "SELFDESTRUCT"] := by
  obtain ⟨r, hr⟩ : ∃ r, TI.run Config.all TI.new destroyerTx.events = .ok r := ⟨_, rfl⟩
  obtain ⟨g, hg, hc⟩ : ∃ g, gethCallTraces ⟨fun _ => none, fun _ => ""⟩ r.arena {} 21000 = .ok g ∧
      (withoutSd g).calls.map (·.typ) = ["CALL"] := by
    cases hr
    refine ⟨_, rfl, ?_⟩
    rw [withoutSd_types]
    decide
  obtain ⟨s, F, h1, h2, h3⟩ := C135_apart_from_selfdestructs ⟨fun _ => none, fun _ => ""⟩ Config.all {} 21000
    (fun _ => r) (fun _ => g) destroyerTx [destroyerTx]
    (by
      intro u hu
      have : u = destroyerTx := by simpa using hu
      subst this
      exact ⟨⟨⟨fun _ => rfl, fun h => absurd h (by decide),
        ⟨fun _ => rfl, fun h => absurd h (by decide), trivial, trivial⟩⟩, ⟨trivial, trivial⟩⟩, hr, hg⟩) rfl rfl
  refine ⟨s, F, h1, h2, ?_, ?_⟩
  · rw [h3]
    simp [hc]
  · cases h1
    cases h2
    rfl

/-- **C135**, selfdestructs: without logs, the frames of selfdestructs that `geth_call_traces` returns for a recording
of any transactions are, in some order, those of all calls below a root and that of the last root. Those of earlier
roots are not shown. -/
theorem C135_selfdestructs (decode : RevertDecoder) (cfg : Config) (opts : CallConfig) (gas : Nat)
    (t : Tx) (ts : List Tx) (hall : ∀ u ∈ t :: ts, u.WF ∧ Safe cfg u.body)
    (honly : opts.onlyTopCall.getD false = false) (hlog : opts.withLog.getD false = false) :
    ∃ s F, TI.run cfg TI.new ((t :: ts).flatMap Tx.events) = .ok s ∧
      gethCallTraces decode s.arena opts gas = .ok F ∧
      (sdsOf F).Perm (sdFrame (rootOf (ts.getLastD t)) ++
        (t :: ts).flatMap (fun u => ((frames u).drop 1).flatMap sdFrame)) := by
  have hch : ∀ u, ∃ s : TI, u ∈ t :: ts → TI.run cfg TI.new u.events = .ok s ∧
      s.arena = (frames u).map (nodeOf cfg) := by
    intro u
    by_cases hu : u ∈ t :: ts
    · obtain ⟨s, hs, -, ha, -⟩ := run_frames cfg u (hall u hu).1 (hall u hu).2
      exact ⟨s, fun _ => ⟨hs, ha⟩⟩
    · exact ⟨TI.new, fun h => absurd h hu⟩
  obtain ⟨r, hsp⟩ := Classical.axiomOfChoice hch
  obtain ⟨s, hs, -, har⟩ := C120_exact cfg r t ts
    (fun u hu => ⟨hall u hu, (hsp u hu).1⟩)
  have hshape : ∀ u ∈ t :: ts, Shaped (r u).arena u.body := by
    intro u hu
    rw [(hsp u hu).2]
    exact shaped_run cfg u
  obtain ⟨x, hx, -⟩ := (hshape t (by simp)).root
  obtain ⟨b, y, h1, -⟩ := bare_all decode (fun u => (r u).arena) ts _ t.body x
    (hshape t (by simp)) hx (fun u hu => hshape u (by simp [hu]))
  rw [← har] at h1
  obtain ⟨F, hF, hp⟩ := shaped_sds decode h1 opts gas honly hlog
  refine ⟨s, F, hs, hF, hp.trans ?_⟩
  have hne : ∀ u ∈ t :: ts, (r u).arena ≠ [] := by
    intro u hu h0
    have := (hshape u hu).length
    rw [h0] at this
    simp at this
    omega
  obtain ⟨p1, p2⟩ := sds_all (fun u => (r u).arena) ts _ (hne t (by simp))
    (fun u hu => hne u (by simp [hu]))
  rw [← har] at p1 p2
  have hlm : (ts.map (fun u => (r u).arena)).getLastD (r t).arena =
      (r (ts.getLastD t)).arena := by
    clear hs har hsp hshape h1 hx hF hp hne p1 p2 hall hch
    induction ts generalizing t with
    | nil => rfl
    | cons u us ih => rw [List.map_cons, List.getLastD_cons, List.getLastD_cons, ih]
  have hpart : ∀ u ∈ t :: ts, ((r u).arena.drop 1).flatMap sdList =
      ((frames u).drop 1).flatMap sdFrame := by
    intro u hu
    rw [(hsp u hu).2, ← List.map_drop, List.flatMap_map]
    exact flatMap_same _ _ _ (fun f _ => sdList_nodeOf cfg f)
  have hroot : ((r (ts.getLastD t)).arena.take 1).flatMap sdList =
      sdFrame (rootOf (ts.getLastD t)) := by
    rw [(hsp _ (getLastD_mem t ts)).2]
    simp [frames, rootOf, sdList_nodeOf]
  rw [← List.take_append_drop 1 s.arena, List.flatMap_append, p1, p2, hlm, hroot, List.flatMap_cons,
    hpart t (by simp), flatMap_same _ (fun u => ((frames u).drop 1).flatMap sdFrame) ts
      (fun u hu => hpart u (by simp [hu]))]

/-- Of two transactions whose first call selfdestructs both selfdestructs are shown. -/
example : ∃ (s : TI) (F : CallFrame),
    TI.run Config.all TI.new ([destroyerTx, destroyerTx].flatMap Tx.events) = .ok s ∧
    gethCallTraces ⟨fun _ => none, fun _ => ""⟩ s.arena {} 21000 = .ok F ∧
    (sdsOf F).map (fun c => (c.from_, c.to, c.value)) = [(0xa, some 0xe, some 4), (0xa, some 0xe, some 4)] := by
  obtain ⟨s, F, h1, h2, h3⟩ := C135_selfdestructs ⟨fun _ => none, fun _ => ""⟩ Config.all {} 21000
    destroyerTx [destroyerTx]
    (by
      intro u hu
      have : u = destroyerTx := by simpa using hu
      subst this
      exact ⟨⟨fun _ => rfl, fun h => absurd h (by decide),
        ⟨fun _ => rfl, fun h => absurd h (by decide), trivial, trivial⟩⟩, ⟨trivial, trivial⟩⟩) rfl rfl
  refine ⟨s, F, h1, h2, ?_⟩
  have h := h3.map (fun c => (c.from_, c.to, c.value))
  have h' : ((sdsOf F).map (fun c => (c.from_, c.to, c.value))).Perm
      (List.replicate 2 (0xa, some 0xe, some 4)) := h
  exact List.perm_replicate.1 h'

/-- **C21**, the number of frames: the frames of selfdestructs that `geth_call_traces` without logs returns for a
transaction are, in some order, one for each frame that selfdestructed. -/
theorem C21_once (decode : RevertDecoder) (cfg : Config) (opts : CallConfig) (gas : Nat) (t : Tx)
    (hwf : t.WF) (hsafe : Safe cfg t.body)
    (honly : opts.onlyTopCall.getD false = false) (hlog : opts.withLog.getD false = false) :
    ∃ s F, TI.run cfg TI.new t.events = .ok s ∧ gethCallTraces decode s.arena opts gas = .ok F ∧
      (sdsOf F).Perm ((frames t).flatMap sdFrame) := by
  obtain ⟨s, F, h1, h2, h3⟩ := C135_selfdestructs decode cfg opts gas t []
    (fun u hu => by rw [List.mem_singleton.1 hu]; exact ⟨hwf, hsafe⟩) honly hlog
  refine ⟨s, F, ?_, h2, ?_⟩
  · simpa using h1
  · simpa [frames, rootOf] using h3

/-- A transaction in which the second of two calls selfdestructs meets the hypotheses. -/
example : twoCalls.WF ∧ Safe Config.all twoCalls.body ∧ ((frames twoCalls).flatMap sdFrame).length = 1 :=
  ⟨C21_refuted.1, C21_refuted.2.1 _, by decide⟩

end Verif.Props
