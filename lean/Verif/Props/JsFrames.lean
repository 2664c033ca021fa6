import Verif.Spec.JsFrames
import Verif.Props.CallFrames
import Verif.Props.JsExact
/-! C86: what a JavaScript tracer hears of the frames is what the call tracer shows of them. -/
namespace Verif.Props
open Spec

/-- The tree of the frames below a frame. -/
def jsNodes : Body → List JsNode
  | .nil => []
  | .act _ rest => jsNodes rest
  | .sub h b o rest => ⟨jsFrame h, o.result.gas.limit - o.result.gas.remaining, o.result.output, none, jsNodes b⟩ ::
    jsNodes rest

/-- No selfdestruct, at any depth. -/
def NoDestruct : Body → Prop
  | .nil => True
  | .act (.selfdestruct _ _ _) _ => False
  | .act _ rest => NoDestruct rest
  | .sub _ b _ rest => NoDestruct b ∧ NoDestruct rest

/-- Finished frames are added to the innermost open frame. -/
def added (opened : List (JsFrameItem × List JsNode)) (ns : List JsNode) : List (JsFrameItem × List JsNode) :=
  match opened with
  | [] => []
  | (f, ks) :: rest => (f, ks ++ ns) :: rest

def finished (opened : List (JsFrameItem × List JsNode)) (done ns : List JsNode) : List JsNode :=
  match opened with
  | [] => done ++ ns
  | _ :: _ => done

theorem added_nil (opened : List (JsFrameItem × List JsNode)) : added opened [] = opened := by
  rcases opened with _ | ⟨⟨f, ks⟩, rest⟩ <;> simp [added]

theorem finished_nil (opened : List (JsFrameItem × List JsNode)) (done : List JsNode) :
    finished opened done [] = done := by
  rcases opened with _ | ⟨⟨f, ks⟩, rest⟩ <;> simp [finished]

theorem rebuild_exit (opened : List (JsFrameItem × List JsNode)) (done ks : List JsNode) (f : JsFrameItem) (g : Nat)
    (o : Bytes) (e : Option String) (cs : List JsCallback) :
    rebuild ((f, ks) :: opened) done (.exit g o e :: cs) =
      rebuild (added opened [⟨f, g, o, e, ks⟩]) (finished opened done [⟨f, g, o, e, ks⟩]) cs := by
  rcases opened with _ | ⟨⟨f', ks'⟩, rest⟩ <;> rw [rebuild] <;> rfl

theorem rebuild_enter (opened : List (JsFrameItem × List JsNode)) (done : List JsNode) (f : JsFrameItem)
    (cs : List JsCallback) :
    rebuild opened done (.enter f :: cs) = rebuild ((f, []) :: opened) done cs := by
  rcases opened with _ | ⟨⟨f', ks'⟩, rest⟩ <;> rw [rebuild]

theorem rebuild_step (opened : List (JsFrameItem × List JsNode)) (done : List JsNode) (l : JsStepLog)
    (cs : List JsCallback) : rebuild opened done (.step l :: cs) = rebuild opened done cs := by
  rcases opened with _ | ⟨⟨f', ks'⟩, _ | ⟨_, rest⟩⟩ <;> rw [rebuild]

theorem rebuild_fault (opened : List (JsFrameItem × List JsNode)) (done : List JsNode) (l : JsStepLog)
    (cs : List JsCallback) : rebuild opened done (.fault l :: cs) = rebuild opened done cs := by
  rcases opened with _ | ⟨⟨f', ks'⟩, _ | ⟨_, rest⟩⟩ <;> rw [rebuild]

theorem added_added (opened : List (JsFrameItem × List JsNode)) (a b : List JsNode) :
    added (added opened a) b = added opened (a ++ b) := by
  rcases opened with _ | ⟨⟨f, ks⟩, rest⟩ <;> simp [added]

theorem finished_finished (opened : List (JsFrameItem × List JsNode)) (done a b : List JsNode) :
    finished (added opened a) (finished opened done a) b = finished opened done (a ++ b) := by
  rcases opened with _ | ⟨⟨f, ks⟩, rest⟩ <;> simp [added, finished]

/-- What is put together while a frame runs. -/
theorem rebuild_body (shape : JsShape) (hen : shape.hasEnter = true) (hex : shape.hasExit = true) (b : Body) :
    ∀ (d : Nat) (f : JsFrameItem) (opened : List (JsFrameItem × List JsNode)) (done : List JsNode)
      (cs : List JsCallback), NoDestruct b →
      rebuild opened done (jsCallbacks shape d f b ++ cs) =
        rebuild (added opened (jsNodes b)) (finished opened done (jsNodes b)) cs := by
  induction b with
  | nil => intro d f opened done cs _; simp [jsCallbacks, jsNodes, added_nil, finished_nil]
  | act a rest ih =>
    intro d f opened done cs hn
    cases a with
    | step i c i' c' =>
      have hn : NoDestruct rest := hn
      simp only [jsCallbacks, jsNodes, List.append_assoc, when]
      split <;> split <;>
        simp only [List.cons_append, List.nil_append, rebuild_step, rebuild_fault] <;> exact ih d f _ _ _ hn
    | aborted i c =>
      have hn : NoDestruct rest := hn
      simp only [jsCallbacks, jsNodes, List.append_assoc, when]
      split <;> simp only [List.cons_append, List.nil_append, rebuild_step] <;> exact ih d f _ _ _ hn
    | log c l => exact ih d f _ _ _ hn
    | selfdestruct a t v => exact absurd hn id
  | sub h b o rest ihb ihr =>
    intro d f opened done cs hn
    obtain ⟨h1, h2⟩ : NoDestruct b ∧ NoDestruct rest := hn
    simp only [jsCallbacks, jsNodes, List.append_assoc, when, hen, hex, if_true, List.cons_append,
      List.nil_append]
    rw [rebuild_enter, ihb _ _ _ _ _ h1]
    simp only [added, finished, List.nil_append]
    rw [rebuild_exit, ihr _ _ _ _ _ h2, added_added, finished_finished]
    rfl

theorem kind_jsFrame (h : Header) : (jsFrame h).kind = kind h := by
  cases h with
  | call c inp => simp only [jsFrame, jsKind, kind]; cases inp.scheme <;> rfl
  | create c inp => simp only [jsFrame, jsKind, kind]; cases inp.scheme <;> rfl

theorem caller_jsFrame (h : Header) : (jsFrame h).contract.caller = caller h := by
  cases h with
  | call c inp => simp only [jsFrame, caller]; cases inp.scheme <;> simp
  | create c inp => rfl

theorem callee_jsFrame (h : Header) (hwf : h.WF) : (jsFrame h).contract.contract = callee h := by
  cases h with
  | call c inp =>
    simp only [jsFrame, callee]
    cases hs : inp.scheme
    · exact (hwf (.inl hs)).symm
    · rfl
    · rfl
    · exact (hwf (.inr hs)).symm
  | create c inp => rfl

/-- The trees have the same form, and the frames agree in what always agrees. -/
theorem alike_tree (decode : RevertDecoder) (cfg : Config) (w : Bool) (b : Body) :
    ∀ (ok : Bool) (d p : Nat) (v : U256) (n : Nat), b.WF →
      SameTrees Alike (jsNodes b) (callTree decode cfg w (fun _ => []) ok d p v n b) := by
  induction b with
  | nil => intros; exact .nil
  | act a rest ih => intro ok d p v n hwf; exact ih ok d p v n hwf
  | sub h b o rest ihb ihr =>
    intro ok d p v n hwf
    obtain ⟨h1, _, h2, h3⟩ := hwf
    rw [jsNodes, callTree]
    refine .cons _ _ _ _ (.mk _ _ ⟨?_, ?_, ?_, rfl, ?_, rfl⟩ ?_) (ihr ok d p v _ h3)
    · exact congrArg kindText (kind_jsFrame h).symm
    · exact (caller_jsFrame h).symm
    · cases h <;> rfl
    · cases h <;> rfl
    · simp only [List.append_nil]
      exact ihb _ _ _ _ _ h2

/-- They agree in everything exactly if every sub-frame is of the kind that is told in full. -/
theorem allAlike_tree (decode : RevertDecoder) (cfg : Config) (w : Bool) (b : Body) :
    ∀ (ok : Bool) (d p : Nat) (v : U256) (n : Nat), b.WF →
      (SameTrees AllAlike (jsNodes b) (callTree decode cfg w (fun _ => []) ok d p v n b) ↔
        ∀ f ∈ subFrames d p v n b, Told f) := by
  induction b with
  | nil =>
    intro ok d p v n _
    simp only [subFrames, List.not_mem_nil, false_implies, implies_true, iff_true]
    exact .nil
  | act a rest ih => intro ok d p v n hwf; exact ih ok d p v n hwf
  | sub h b o rest ihb ihr =>
    intro ok d p v n hwf
    obtain ⟨h1, _, h2, h3⟩ := hwf
    rw [jsNodes, callTree, subFrames]
    simp only [List.mem_cons, List.mem_append]
    have hb := ihb (ok && o.result.result.isOk) (d + 1) n (valueInScope (some v) h) (n + 1) h2
    have hr := ihr ok d p v (n + 1 + b.size) h3
    have hval : (jsFrame h).contract.value = movedValue h := by cases h <;> rfl
    constructor
    · intro hh
      cases hh with
      | cons _ _ _ _ hx hy =>
        cases hx with
        | mk _ _ hp hq =>
          rintro f (rfl | hf | hf)
          · refine ⟨?_, ?_, ?_⟩
            · have := hp.error
              simp only [leaf, Option.isSome_none] at this
              by_cases e : o.result.result.isOk = true
              · exact e
              · rw [if_neg e] at this; cases this
            · intro hk
              have := hp.value (by rw [kind_jsFrame]; exact hk)
              simp only [leaf, if_neg hk, Option.some.injEq] at this
              rw [this, hval]
            · have := hp.to
              simp only [leaf, Option.some.injEq] at this
              rw [this, callee_jsFrame h h1]
          · exact hb.mp (by simpa using hq) f hf
          · exact hr.mp hy f hf
    · intro hh
      have ht := hh _ (.inl rfl)
      refine .cons _ _ _ _ (.mk _ _ ⟨⟨?_, ?_, ?_, rfl, ?_, rfl⟩, ?_, ?_, ?_⟩ ?_) (hr.mpr fun f hf => hh f (.inr (.inr hf)))
      · exact congrArg kindText (kind_jsFrame h).symm
      · exact (caller_jsFrame h).symm
      · cases h <;> rfl
      · cases h <;> rfl
      · simp only [leaf]
        rw [ht.address, callee_jsFrame h h1]
      · intro hk
        rw [kind_jsFrame] at hk
        simp only [leaf, if_neg hk]
        rw [ht.value hk, hval]
      · simp only [leaf, Option.isSome_none]
        have := ht.success
        simp only at this
        rw [if_pos this]
        rfl
      · simp only [List.append_nil]
        exact hb.mpr fun f hf => hh f (.inr (.inl hf))

theorem noDestruct_of (b : Body) : ∀ (d p : Nat) (v : U256) (n : Nat), lastSelfdestruct b = none →
    (∀ f ∈ subFrames d p v n b, selfdestructed f = false) → NoDestruct b := by
  induction b with
  | nil => intros; trivial
  | act a rest ih =>
    intro d p v n hl hs
    cases a with
    | selfdestruct a t w =>
      rw [lastSelfdestruct] at hl
      cases hq : lastSelfdestruct rest <;> rw [hq] at hl <;> cases hl
    | step i c i' c' => exact ih d p v n hl hs
    | aborted i c => exact ih d p v n hl hs
    | log c l => exact ih d p v n hl hs
  | sub h b o rest ihb ihr =>
    intro d p v n hl hs
    rw [subFrames] at hs
    simp only [List.mem_cons, List.mem_append] at hs
    have h0 := hs _ (.inl rfl)
    simp only [selfdestructed, Bool.or_eq_false_iff, Option.isSome_eq_false_iff, Option.isNone_iff_eq_none] at h0
    exact ⟨ihb _ _ _ _ h0.2 fun f hf => hs f (.inr (.inl hf)), ihr _ _ _ _ hl fun f hf => hs f (.inr (.inr hf))⟩

/-- **C86, exactly.** For every execution without selfdestruct, every tracer with `enter` and `exit` and every
configuration: the frames the tracer puts together are those of the call tracer, with the same type, caller,
gas, gas used, input and output; callee, value and the presence of an error are the same for all of them
exactly if all sub-frames succeeded, no value was in the scope of a frame without having moved, and all
contracts were created where announced. -/
theorem C86_exact (decode : RevertDecoder) (cfg : Config) (shape : JsShape) (fails : JsFails) (t : Tx)
    (hwf : t.WF) (hsafe : Safe cfg t.body) (opts : CallConfig) (honly : opts.onlyTopCall ≠ some true) (gas : Nat)
    (hsd : ∀ f ∈ frames t, selfdestructed f = false) (hen : shape.hasEnter = true) (hex : shape.hasExit = true)
    (js : JsInsp) (hjs : runHooks (JsInsp.hook shape fails) {} t.events = .ok js) :
    ∃ s nodes r, TI.run cfg TI.new t.events = .ok s ∧ rebuild [] [] js.calls = some nodes ∧
      gethCallTraces decode s.arena opts gas = .ok r ∧ SameTrees Alike nodes r.calls ∧
      (SameTrees AllAlike nodes r.calls ↔ ∀ f ∈ (frames t).tail, Told f) := by
  obtain ⟨s, hr, hg⟩ := C20_call_frame_tree decode cfg t hwf hsafe opts honly gas hsd
  have hroot : lastSelfdestruct t.body = none := by
    have := hsd _ (List.mem_cons_self ..)
    simp only [selfdestructed, Bool.or_eq_false_iff, Option.isSome_eq_false_iff, Option.isNone_iff_eq_none] at this
    exact this.2
  have hnd : NoDestruct t.body := noDestruct_of _ _ _ _ _ hroot fun f hf => hsd f (List.mem_cons_of_mem _ hf)
  have hcalls : rebuild [] [] js.calls = some (jsNodes t.body) := by
    rw [C50_exact] at hjs
    split at hjs
    · cases hjs
    · simp only [Except.ok.injEq] at hjs
      subst hjs
      simp only
      rw [jsHeard_eq shape (fun _ => hen)]
      have := rebuild_body shape hen hex t.body 1 (jsFrame t.hdr) [] [] [] hnd
      rw [List.append_nil] at this
      rw [this]
      simp only [added, finished, List.nil_append]
      rw [rebuild]
  refine ⟨s, _, _, hr, hcalls, hg, ?_, ?_⟩
  · simp only [callFrameTree, List.append_nil]
    exact alike_tree _ _ _ _ _ _ _ _ _ hwf.2.2
  · simp only [callFrameTree, List.append_nil]
    rw [frames, List.tail_cons]
    exact allAlike_tree _ _ _ _ _ _ _ _ _ hwf.2.2

/-- **C86, in part.** If all sub-frames are told in full, the tracer's frames are those of the call tracer. -/
theorem C86_frames_partial (decode : RevertDecoder) (cfg : Config) (shape : JsShape) (fails : JsFails) (t : Tx)
    (hwf : t.WF) (hsafe : Safe cfg t.body) (opts : CallConfig) (honly : opts.onlyTopCall ≠ some true) (gas : Nat)
    (hsd : ∀ f ∈ frames t, selfdestructed f = false) (hen : shape.hasEnter = true) (hex : shape.hasExit = true)
    (js : JsInsp) (hjs : runHooks (JsInsp.hook shape fails) {} t.events = .ok js)
    (htold : ∀ f ∈ (frames t).tail, Told f) :
    ∃ s nodes r, TI.run cfg TI.new t.events = .ok s ∧ rebuild [] [] js.calls = some nodes ∧
      gethCallTraces decode s.arena opts gas = .ok r ∧ SameTrees AllAlike nodes r.calls := by
  obtain ⟨s, nodes, r, h1, h2, h3, _, h4⟩ :=
    C86_exact decode cfg shape fails t hwf hsafe opts honly gas hsd hen hex js hjs
  exact ⟨s, nodes, r, h1, h2, h3, h4.mpr htold⟩

/-! ## Examples -/

/-- A tracer with all functions, none of which throws. -/
def fullShape : JsShape := ⟨true, true, true, true⟩

/-- A call that calls a library with CALLCODE, a static call and a creation, all of which succeed. -/
def told : Tx where
  hdr := Example.callHdr .Call 0x99 0xa 0xa 11
  body := .sub (Example.callHdr .Call 0xa 0xb 0xb 6)
      (.sub (Example.callHdr .CallCode 0xb 0xb 0xd 2) Example.lib (Example.out .Return)
        (.sub (Example.callHdr .StaticCall 0xb 0xf 0xf 0) .nil (Example.out .Stop) .nil))
      (Example.out .Stop)
    (.sub Example.createHdr .nil { Example.out .Stop with address := some 0xc3 } .nil)
  out := Example.out .Revert

theorem plain_wf : plain.WF := by
  refine ⟨fun _ => rfl, fun h => absurd h (by decide), ?_⟩
  refine ⟨fun _ => rfl, fun h => absurd h (by decide), ?_, ?_⟩
  · exact ⟨fun h => absurd h (by decide), fun h => absurd h (by decide), trivial, trivial⟩
  · exact ⟨trivial, fun h => absurd h (by decide), trivial, trivial⟩

theorem told_wf : told.WF := by
  refine ⟨fun _ => rfl, fun h => absurd h (by decide), ?_⟩
  refine ⟨fun _ => rfl, fun h => absurd h (by decide), ?_, ?_⟩
  · refine ⟨fun h => absurd h (by decide), fun h => absurd h (by decide), trivial, ?_⟩
    exact ⟨fun _ => rfl, fun h => absurd h (by decide), trivial, trivial⟩
  · exact ⟨trivial, fun h => absurd h (by decide), trivial, trivial⟩

theorem none_destroyed {l : List FrameCtx} (h : l.all (fun f => !selfdestructed f) = true) :
    ∀ f ∈ l, selfdestructed f = false := by
  intro f hf
  simpa using List.all_eq_true.mp h f hf

/-- The hypotheses of `C86_frames_partial` hold of it. -/
theorem told_ok : told.WF ∧ (∀ cfg, Safe cfg told.body) ∧ (∀ f ∈ frames told, selfdestructed f = false) ∧
    (∀ f ∈ (frames told).tail, Told f) ∧
    ∃ js, runHooks (JsInsp.hook fullShape fun _ => none) {} told.events = .ok js := by
  refine ⟨told_wf, fun cfg => ⟨⟨⟨Example.stepSafe _ _ _ _ (by decide), trivial⟩, trivial, trivial⟩, trivial, trivial⟩,
    none_destroyed (by decide), ?_, ?_⟩
  · intro f hf
    simp only [frames, told, Example.lib, subFrames, List.tail_cons, List.mem_cons, List.mem_append,
      List.not_mem_nil, or_false, List.append_nil, List.nil_append] at hf
    rcases hf with rfl | (rfl | rfl) | rfl
    · exact ⟨rfl, fun _ => rfl, rfl⟩
    · exact ⟨rfl, fun _ => rfl, rfl⟩
    · exact ⟨rfl, fun _ => rfl, rfl⟩
    · exact ⟨rfl, fun _ => rfl, by decide⟩
  · rw [C50_exact]
    exact ⟨_, rfl⟩

/-- **C86 fails:** a sub-frame that reverts is left without an error, and a DELEGATECALL has no value, where
the call tracer shows both. -/
theorem C86_refuted : plain.WF ∧ (∀ cfg, Safe cfg plain.body) ∧ (∀ f ∈ frames plain, selfdestructed f = false) ∧
    ∃ js nodes, runHooks (JsInsp.hook fullShape fun _ => none) {} plain.events = .ok js ∧
      rebuild [] [] js.calls = some nodes ∧
      nodes.map (fun n => (kindText n.frame.kind, n.frame.contract.value, n.error,
          n.calls.map fun k => (kindText k.frame.kind, k.frame.contract.value))) =
        [("CALL", 6, none, [("DELEGATECALL", 0)]), ("CREATE", 1, none, [])] ∧
      ∀ decode cfg gas, ∃ s r, TI.run cfg TI.new plain.events = .ok s ∧
        gethCallTraces decode s.arena {} gas = .ok r ∧
        r.calls.map (fun c => (c.typ, c.value, c.error, c.calls.map fun k => (k.typ, k.value))) =
          [("CALL", some 6, none, [("DELEGATECALL", some 6)]), ("CREATE", some 1, some "Reverted", [])] ∧
        ¬ SameTrees AllAlike nodes r.calls := by
  have hsafe : ∀ cfg, Safe cfg plain.body :=
    fun cfg => ⟨⟨⟨Example.stepSafe _ _ _ _ (by decide), trivial⟩, trivial⟩, trivial, trivial⟩
  have hsd : ∀ f ∈ frames plain, selfdestructed f = false := none_destroyed (by decide)
  have hjs : runHooks (JsInsp.hook fullShape fun _ => none) {} plain.events =
      .ok { calls := jsHeard fullShape 1 (jsFrame plain.hdr) plain.body } := by
    rw [C50_exact]; rfl
  refine ⟨plain_wf, hsafe, hsd, _, _, hjs, rfl, rfl, fun decode cfg gas => ?_⟩
  obtain ⟨s, nodes, r, h1, h2, h3, _, h4⟩ := C86_exact decode cfg fullShape (fun _ => none) plain plain_wf
    (hsafe cfg) {} (by decide) gas hsd rfl rfl _ hjs
  have hn := Option.some.inj h2
  obtain ⟨s', h1', h3'⟩ := C20_call_frame_tree decode cfg plain plain_wf (hsafe cfg) {} (by decide) gas hsd
  obtain rfl : s = s' := by rw [h1] at h1'; simpa using h1'
  rw [h3] at h3'
  have hr := Except.ok.inj h3'
  refine ⟨s, r, h1, h3, by rw [hr]; rfl, ?_⟩
  intro hh
  have := h4.mp (hn ▸ hh) ⟨3, some 0, 1, some 11, Example.createHdr, .nil, Example.out .Revert⟩
    (List.mem_of_getElem? (i := 2) rfl)
  exact absurd this.success (by decide)

/-- A contract is called and destroys itself. -/
def destroys : Tx where
  hdr := Example.callHdr .Call 0x99 0xa 0xa 11
  body := .sub (Example.callHdr .Call 0xa 0xb 0xb 6) (.act (.selfdestruct 0xb 0xe 4) .nil)
    (Example.out .SelfDestruct) .nil
  out := Example.out .Stop

/-- **C86 fails:** a selfdestruct is told as another call of the contract that destroys itself, with its
caller, value, input and gas, where the call tracer shows a frame with the type SELFDESTRUCT, the receiver and
the value it gets. -/
theorem C86_refuted_selfdestruct : destroys.WF ∧ (∀ cfg, Safe cfg destroys.body) ∧
    ∃ js n, runHooks (JsInsp.hook fullShape fun _ => none) {} destroys.events = .ok js ∧
      rebuild [] [] js.calls = some [n] ∧ n.frame = jsFrame (Example.callHdr .Call 0xa 0xb 0xb 6) ∧
      (n.calls.map fun k => k.frame) = [n.frame] ∧
      ∀ decode cfg gas, ∃ s r, TI.run cfg TI.new destroys.events = .ok s ∧
        gethCallTraces decode s.arena {} gas = .ok r ∧
        r.calls.map (fun c => (c.typ, c.to, c.value, c.calls.map (·.typ))) =
          [("CALL", some 0xb, some 6, []), ("SELFDESTRUCT", some 0xe, some 4, [])] := by
  have hwf : destroys.WF := by
    refine ⟨fun _ => rfl, fun h => absurd h (by decide), ?_⟩
    exact ⟨fun _ => rfl, fun h => absurd h (by decide), trivial, trivial⟩
  have hsafe : ∀ cfg, Safe cfg destroys.body := fun cfg => ⟨trivial, trivial⟩
  have hjs : runHooks (JsInsp.hook fullShape fun _ => none) {} destroys.events =
      .ok { calls := jsHeard fullShape 1 (jsFrame destroys.hdr) destroys.body } := by
    rw [C50_exact]; rfl
  refine ⟨hwf, hsafe, _, _, hjs, rfl, rfl, rfl, fun decode cfg gas => ?_⟩
  obtain ⟨s, hr, h, _⟩ := C21_selfdestruct_placement_partial decode cfg destroys hwf (hsafe cfg) {} rfl gas
  exact ⟨s, _, hr, h, rfl⟩

end Verif.Props
