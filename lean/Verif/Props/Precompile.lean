import Verif.Props.Links
/-!
# C10: precompile exclusion
-/
namespace Verif.Props
open Spec Rec

/-! ## Which calls are left out -/

theorem nodeOf_maybePrecompile (cfg : Config) (f : FrameCtx) (hwf : f.hdr.WF)
    (hpv : f.parent.isSome = f.parentValue.isSome) :
    ((nodeOf cfg f).trace.maybePrecompile = some true ↔ Spec.excluded cfg f = true) := by
  have h1 : (nodeOf cfg f).trace.maybePrecompile =
      (enterTrace cfg f.parentValue f.depth f.hdr).maybePrecompile := by
    simp only [nodeOf, leaveNode, TI.fillTrace, own_trace]
    split <;> rfl
  rw [h1]
  obtain ⟨n, p, d, pv, h, b, o⟩ := f
  cases pv with
  | none =>
    cases p with
    | some q => simp at hpv
    | none =>
      simp only [Spec.excluded, Option.isSome_none, Bool.and_false, Bool.false_and,
        Bool.false_eq_true, iff_false]
      cases h with
      | create c inp => simp [enterTrace]
      | call c inp => simp [enterTrace]
  | some v =>
    cases p with
    | none => simp at hpv
    | some q =>
      have := excluded_eq cfg n q d v h b o hwf
      rw [← this, Rec.excluded]
      cases (enterTrace cfg (some v) d h).maybePrecompile with
      | none => simp
      | some b => cases b <;> simp

/-- **C10, first part.** A frame is left out of its parent's children if and only if exclusion is on,
it is not the root, it runs the code of a precompile, and its value in scope is zero; create frames
never are. (The ordering list names exactly the children, C05.) -/
theorem C10_left_out_iff (cfg : Config) (t : Tx) (hwf : t.WF) (hsafe : Safe cfg t.body) :
    ∃ s, TI.run cfg TI.new t.events = .ok s ∧ s.arena.length = (frames t).length ∧
      ∀ (k q : Nat) (f : FrameCtx) (y : Node), (frames t)[k]? = some f → f.parent = some q →
        s.arena[q]? = some y →
        (k ∈ y.children ↔ ¬ (cfg.excludePrecompileCalls = true ∧ f.hdr.isPrecompile = true ∧ f.value = 0)) ∧
        ((∃ c inp, f.hdr = .create c inp) → k ∈ y.children) := by
  obtain ⟨s, hr, _, har, _⟩ := run_frames cfg t hwf hsafe
  have hlinks := C04_links cfg _ s hr
  refine ⟨s, hr, by rw [har, List.length_map], ?_⟩
  intro k q f y hf hq hy
  have hm := List.mem_of_getElem? hf
  have hx : s.arena[k]? = some (nodeOf cfg f) := by rw [har, List.getElem?_map, hf]; rfl
  have hk := (List.getElem?_eq_some_iff.1 hx).1
  have hiff : k ∈ y.children ↔ ¬ (cfg.excludePrecompileCalls = true ∧ f.hdr.isPrecompile = true ∧ f.value = 0) := by
    rw [hlinks.children q y hy, List.mem_filter, List.mem_range, hx]
    simp only [Option.any_some, Bool.and_eq_true, decide_eq_true_eq, ne_eq]
    rw [nodeOf_maybePrecompile cfg f (frames_wf hwf hm).1 (frames_root_iff hm).1]
    have hp : (nodeOf cfg f).parent = some q := by
      simp only [nodeOf, leaveNode, own_parent, hq]
    simp [hk, hp, Spec.excluded, hq]
  refine ⟨hiff, ?_⟩
  rintro ⟨c, inp, hc⟩
  rw [hiff, hc]
  simp [Header.isPrecompile]

/-- In the example the static call to precompile 1 is left out with exclusion on. -/
example : (TI.run { Config.all with excludePrecompileCalls := true } TI.new Example.tx.events).toOption.map
    (fun s => s.arena.map (·.children)) = some [[1, 4], [2], [], [], []] := by decide

/-! ## Nothing else changes -/

/-- The body without its (recursively all) value-free calls to precompiles; `v` is the value in
scope. -/
def withoutPrecompiles (v : U256) : Body → Body
  | .nil => .nil
  | .act a rest => .act a (withoutPrecompiles v rest)
  | .sub h b o rest =>
    if h.isPrecompile && valueInScope (some v) h == 0 then withoutPrecompiles v rest
    else .sub h (withoutPrecompiles (valueInScope (some v) h) b) o (withoutPrecompiles v rest)

/-- The transaction without its value-free calls to precompiles. -/
def Tx.withoutPrecompiles (t : Tx) : Tx :=
  { t with body := Props.withoutPrecompiles (valueInScope none t.hdr) t.body }

/-- Positions of the frames that remain. -/
def keptIdx (v : U256) (n : Nat) : Body → List Nat
  | .nil => []
  | .act _ rest => keptIdx v n rest
  | .sub h b _ rest =>
    if h.isPrecompile && valueInScope (some v) h == 0 then keptIdx v (n + 1 + b.size) rest
    else n :: (keptIdx (valueInScope (some v) h) (n + 1) b ++ keptIdx v (n + 1 + b.size) rest)

theorem keptIdx_length (b : Body) : ∀ v n, (keptIdx v n b).length = (withoutPrecompiles v b).size := by
  induction b with
  | nil => intros; rfl
  | act a rest ih => intros; simp [keptIdx, withoutPrecompiles, Body.size, ih]
  | sub h b o rest ihb ihr =>
    intro v n
    simp only [keptIdx, withoutPrecompiles]
    split
    · exact ihr _ _
    · simp [Body.size, ihb, ihr]; omega

theorem keptIdx_bounds (b : Body) : ∀ v n j, j ∈ keptIdx v n b → n ≤ j ∧ j < n + b.size := by
  induction b with
  | nil => intro v n j h; simp [keptIdx] at h
  | act a rest ih => intro v n j h; exact ih v n j h
  | sub h b o rest ihb ihr =>
    intro v n j hj
    simp only [keptIdx] at hj
    simp only [Body.size]
    split at hj
    · have := ihr _ _ _ hj; omega
    · simp only [List.mem_cons, List.mem_append] at hj
      rcases hj with rfl | hj | hj
      · omega
      · have := ihb _ _ _ hj; omega
      · have := ihr _ _ _ hj; omega

theorem keptIdx_sorted (b : Body) : ∀ v n, (keptIdx v n b).Pairwise (· < ·) := by
  induction b with
  | nil => intros; simp [keptIdx]
  | act a rest ih => intros; exact ih _ _
  | sub h b o rest ihb ihr =>
    intro v n
    simp only [keptIdx]
    split
    · exact ihr _ _
    · simp only [List.pairwise_cons, List.pairwise_append]
      refine ⟨?_, ihb _ _, ihr _ _, ?_⟩
      · intro j hj
        simp only [List.mem_append] at hj
        rcases hj with hj | hj
        · have := keptIdx_bounds _ _ _ _ hj; omega
        · have := keptIdx_bounds _ _ _ _ hj; omega
      · intro a ha c hc
        have := keptIdx_bounds _ _ _ _ ha
        have := keptIdx_bounds _ _ _ _ hc
        omega

theorem size_of_hasSub_false (b : Body) (h : b.hasSub = false) : b.size = 0 := by
  induction b with
  | nil => rfl
  | act a rest ih => exact ih h
  | sub h b o rest _ _ => simp [Body.hasSub] at h

theorem subFrames_of_hasSub_false (b : Body) (h : b.hasSub = false) (d p v n) :
    subFrames d p v n b = [] := by
  have := subFrames_length b d p v n
  rw [size_of_hasSub_false b h] at this
  exact List.length_eq_zero_iff.1 this

theorem mem_keptIdx_iff (b : Body) (hwf : b.WF) : ∀ d p v n f, f ∈ subFrames d p v n b →
    (f.index ∈ keptIdx v n b ↔ ¬ (f.hdr.isPrecompile = true ∧ f.value = 0)) := by
  induction b with
  | nil => intro d p v n f h; simp [subFrames] at h
  | act a rest ih => intro d p v n f h; exact ih hwf d p v n f h
  | sub h b o rest ihb ihr =>
    intro d p v n f hf
    obtain ⟨h1, h2, h3, h4⟩ := hwf
    have hmemIdx : ∀ (d p v n b) (f : FrameCtx), f ∈ subFrames d p v n b →
        n ≤ f.index ∧ f.index < n + b.size := by
      intro d p v n b f hf
      obtain ⟨k, hk⟩ := List.mem_iff_getElem?.1 hf
      have e := subFrames_index _ _ _ _ _ _ _ hk
      have := (List.getElem?_eq_some_iff.1 hk).1
      rw [subFrames_length] at this
      omega
    simp only [subFrames, List.mem_cons, List.mem_append] at hf
    simp only [keptIdx]
    split
    · rename_i hex
      simp only [Bool.and_eq_true, beq_iff_eq] at hex
      have hs := h2 hex.1
      rw [subFrames_of_hasSub_false b hs] at hf
      rcases hf with rfl | hf | hf
      · simp only [hex.1, FrameCtx.value, hex.2, and_self, not_true, iff_false]
        intro hmem
        have := keptIdx_bounds _ _ _ _ hmem
        omega
      · simp at hf
      · exact ihr h4 _ _ _ _ _ hf
    · rename_i hex
      simp only [Bool.and_eq_true, beq_iff_eq] at hex
      simp only [List.mem_cons, List.mem_append]
      rcases hf with rfl | hf | hf
      · simpa [FrameCtx.value] using hex
      · rw [← ihb h3 _ _ _ _ _ hf]
        have hb := hmemIdx _ _ _ _ _ _ hf
        constructor
        · rintro (h | h | h)
          · omega
          · exact h
          · have := keptIdx_bounds _ _ _ _ h; omega
        · intro h; exact Or.inr (Or.inl h)
      · rw [← ihr h4 _ _ _ _ _ hf]
        have hb := hmemIdx _ _ _ _ _ _ hf
        constructor
        · rintro (h | h | h)
          · omega
          · have := keptIdx_bounds _ _ _ _ h; omega
          · exact h
        · intro h; exact Or.inr (Or.inr h)

/-- `K` agrees with `L` from position `n'` on. -/
def Agree (K : List Nat) (n' : Nat) (L : List Nat) : Prop :=
  ∀ (j a : Nat), L[j]? = some a → K[n' + j]? = some a

theorem Agree.cons {K : List Nat} {n' a : Nat} {L : List Nat} (h : Agree K n' (a :: L)) :
    K[n']? = some a ∧ Agree K (n' + 1) L := by
  refine ⟨h 0 a rfl, ?_⟩
  intro j b hb
  have := h (j + 1) b (by simpa using hb)
  rw [← this]; congr 1; omega

theorem Agree.append {K : List Nat} {n' : Nat} {L M : List Nat} (h : Agree K n' (L ++ M)) :
    Agree K n' L ∧ Agree K (n' + L.length) M := by
  constructor
  · intro j a ha
    exact h j a (by rw [List.getElem?_append_left (List.getElem?_eq_some_iff.1 ha).1]; exact ha)
  · intro j a ha
    have := h (L.length + j) a (by rw [List.getElem?_append_right (by omega)]; simpa using ha)
    rw [← this]; congr 1; omega

/-- `x` is `x'` with its links renamed along the position list `K`. -/
structure Corresponds (K : List Nat) (x' x : Node) : Prop where
  children : x.children.map some = x'.children.map (fun c => K[c]?)
  parent : x.parent.map some = x'.parent.map (fun p => K[p]?)
  idx : K[x'.idx]? = some x.idx
  rest : { x with children := x'.children, parent := x'.parent, idx := x'.idx } = x'

theorem own_corresponds (cfg : Config) (hcfg : cfg.excludePrecompileCalls = true) (K : List Nat)
    (d : Nat) (b : Body) (hwf : b.WF) : ∀ (n n' : Nat) (x x' : Node),
    Corresponds K x' x → Agree K n' (keptIdx x.trace.value n b) →
    Corresponds K (own cfg d n' (withoutPrecompiles x.trace.value b) x') (own cfg d n b x) := by
  induction b with
  | nil => intro n n' x x' h _; exact h
  | act a rest ih =>
    intro n n' x x' h hag
    simp only [own, withoutPrecompiles]
    have htr : x'.trace = x.trace := by rw [← h.rest]
    have hc : Corresponds K (actNode cfg d a x') (actNode cfg d a x) := by
      refine ⟨by simpa using h.children, by simpa using h.parent, by simpa using h.idx, ?_⟩
      rw [actNode_children, actNode_parent, actNode_idx]
      obtain ⟨xp, xc, xi, xt, xl, xo⟩ := x
      obtain ⟨yp, yc, yi, yt, yl, yo⟩ := x'
      have := h.rest
      simp only [Node.mk.injEq, true_and] at this
      obtain ⟨rfl, rfl, rfl⟩ := this
      cases a <;> simp only [actNode] <;> (try split) <;>
        simp [TI.pushStep, TI.logNode, TI.selfdestructNode]
    have := ih hwf n n' _ _ hc (by rw [actNode_value]; exact hag)
    simpa using this
  | sub h b o rest _ ih =>
    intro n n' x x' hc hag
    obtain ⟨h1, h2, h3, h4⟩ := hwf
    have htr : x'.trace = x.trace := by rw [← hc.rest]
    have hexc : Rec.excluded (enterTrace cfg (some x.trace.value) d h) =
        (h.isPrecompile && valueInScope (some x.trace.value) h == 0) := by
      rw [excluded_eq cfg n 0 d _ h b o h1]
      simp [Spec.excluded, hcfg, FrameCtx.value]
    simp only [keptIdx] at hag
    simp only [withoutPrecompiles]
    by_cases hex : (h.isPrecompile && valueInScope (some x.trace.value) h == 0) = true
    · rw [if_pos hex] at hag ⊢
      simp only [own, attachIf, hexc, hex, if_true]
      exact ih h4 _ _ _ _ hc hag
    · rw [if_neg hex] at hag ⊢
      obtain ⟨hK, hag1⟩ := hag.cons
      have hag2 := hag1.append.2
      simp only [own, attachIf, htr, hexc, hex]
      have hc2 : Corresponds K (x'.attach n') (x.attach n) := by
        refine ⟨?_, hc.parent, hc.idx, ?_⟩
        · simp only [Node.attach, List.map_append, hc.children, List.map_cons, List.map_nil, hK]
        · have hlen : x'.children.length = x.children.length := by
            have := congrArg List.length hc.children; simpa using this.symm
          have := hc.rest
          obtain ⟨xp, xc, xi, xt, xl, xo⟩ := x
          obtain ⟨yp, yc, yi, yt, yl, yo⟩ := x'
          simp only [Node.mk.injEq, true_and] at this
          obtain ⟨rfl, rfl, rfl⟩ := this
          simp only at hlen
          simp [Node.attach, hlen]
      have := ih h4 (n + 1 + b.size) (n' + 1 + (withoutPrecompiles (valueInScope (some x.trace.value) h) b).size)
        (x.attach n) (x'.attach n') hc2 (by
          rw [← keptIdx_length b _ (n + 1)]
          exact hag2)
      exact this

/-- A frame of the reduced execution and its original. -/
structure FrameCorr (K : List Nat) (f' f : FrameCtx) : Prop where
  index : K[f'.index]? = some f.index
  parent : f.parent.map some = f'.parent.map (fun p => K[p]?)
  depth : f'.depth = f.depth
  parentValue : f'.parentValue = f.parentValue
  hdr : f'.hdr = f.hdr
  out : f'.out = f.out
  body : f'.body = withoutPrecompiles f.value f.body
  agree : Agree K (f'.index + 1) (keptIdx f.value (f.index + 1) f.body)

theorem subFrames_corr (K : List Nat) (b : Body) : ∀ d p p' v n n', K[p']? = some p →
    Agree K n' (keptIdx v n b) → ∀ f' ∈ subFrames d p' v n' (withoutPrecompiles v b),
    ∃ f ∈ subFrames d p v n b, FrameCorr K f' f := by
  induction b with
  | nil => intro d p p' v n n' _ _ f' hf; simp [withoutPrecompiles, subFrames] at hf
  | act a rest ih =>
    intro d p p' v n n' hp hag f' hf
    exact ih d p p' v n n' hp hag f' hf
  | sub h b o rest ihb ihr =>
    intro d p p' v n n' hp hag f' hf
    simp only [keptIdx] at hag
    simp only [withoutPrecompiles] at hf
    simp only [subFrames, List.mem_cons, List.mem_append]
    by_cases hex : (h.isPrecompile && valueInScope (some v) h == 0) = true
    · rw [if_pos hex] at hag hf
      obtain ⟨f, hf1, hf2⟩ := ihr d p p' v _ n' hp hag f' hf
      exact ⟨f, Or.inr (Or.inr hf1), hf2⟩
    · rw [if_neg hex] at hag hf
      obtain ⟨hK, hag1⟩ := hag.cons
      have hagb := hag1.append.1
      have hagr := hag1.append.2
      simp only [subFrames, List.mem_cons, List.mem_append] at hf
      rcases hf with rfl | hf | hf
      · exact ⟨_, Or.inl rfl, ⟨hK, by simp [hp], rfl, rfl, rfl, rfl, rfl, hagb⟩⟩
      · obtain ⟨f, hf1, hf2⟩ := ihb (d + 1) n n' _ (n + 1) (n' + 1) hK hagb f' hf
        exact ⟨f, Or.inr (Or.inl hf1), hf2⟩
      · rw [keptIdx_length] at hagr
        obtain ⟨f, hf1, hf2⟩ := ihr d p p' v _ _ hp hagr f' hf
        exact ⟨f, Or.inr (Or.inr hf1), hf2⟩

theorem nodeOf_corresponds (cfg : Config) (hcfg : cfg.excludePrecompileCalls = true) (K : List Nat)
    {f' f : FrameCtx} (h : FrameCorr K f' f) (hwf : f.body.WF)
    (h0 : f'.index = 0 ↔ f.index = 0) :
    Corresponds K (nodeOf cfg f') (nodeOf cfg f) := by
  have hv : (enterTrace cfg f.parentValue f.depth f.hdr).value = f.value :=
    enterTrace_value cfg f.parentValue f.depth f.hdr
  have := own_corresponds cfg hcfg K (f.depth + 1) f.body hwf (f.index + 1) (f'.index + 1)
    { parent := f.parent, idx := f.index, trace := enterTrace cfg f.parentValue f.depth f.hdr }
    { parent := f'.parent, idx := f'.index, trace := enterTrace cfg f.parentValue f.depth f.hdr }
    ⟨rfl, h.parent, h.index, rfl⟩ (by
      show Agree K _ (keptIdx (enterTrace cfg f.parentValue f.depth f.hdr).value _ _)
      rw [hv]; exact h.agree)
  dsimp only at this
  rw [hv, ← h.body] at this
  refine ⟨this.children.trans ?_, this.parent.trans ?_, ?_, ?_⟩
  · simp only [nodeOf, leaveNode, h.depth, h.parentValue, h.hdr]
  · simp only [nodeOf, leaveNode, h.depth, h.parentValue, h.hdr]
  · have := this.idx; simpa only [nodeOf, leaveNode, h.depth, h.parentValue, h.hdr] using this
  · have hr := this.rest
    simp only [nodeOf, leaveNode, h.depth, h.parentValue, h.hdr, h.out] at hr ⊢
    generalize own cfg (f.depth + 1) (f'.index + 1) f'.body _ = a at hr ⊢
    generalize own cfg (f.depth + 1) (f.index + 1) f.body _ = b at hr ⊢
    obtain ⟨xp, xc, xi, xt, xl, xo⟩ := a
    obtain ⟨yp, yc, yi, yt, yl, yo⟩ := b
    simp only [Node.mk.injEq, true_and] at hr ⊢
    obtain ⟨rfl, rfl, rfl⟩ := hr
    refine ⟨?_, rfl, rfl⟩
    simp only [TI.fillTrace]
    by_cases hz : f.index = 0
    · simp [hz, h0.2 hz]
    · have hz' : ¬ f'.index = 0 := fun hh => hz (h0.1 hh)
      simp [hz, hz']

theorem withoutPrecompiles_wf (b : Body) (hwf : b.WF) : ∀ v, (withoutPrecompiles v b).WF ∧
    (b.hasSub = false → (withoutPrecompiles v b).hasSub = false) := by
  induction b with
  | nil => intro v; exact ⟨trivial, fun h => h⟩
  | act a rest ih => intro v; exact ih hwf v
  | sub h b o rest ihb ihr =>
    intro v
    obtain ⟨h1, h2, h3, h4⟩ := hwf
    refine ⟨?_, fun h => by simp [Body.hasSub] at h⟩
    simp only [withoutPrecompiles]
    split
    · exact (ihr h4 v).1
    · exact ⟨h1, fun hp => (ihb h3 _).2 (h2 hp), (ihb h3 _).1, (ihr h4 v).1⟩

theorem withoutPrecompiles_all {P : Interp → Ctx → Interp → Ctx → Prop} (b : Body)
    (h : b.AllSteps P) : ∀ v, (withoutPrecompiles v b).AllSteps P := by
  induction b with
  | nil => intro v; trivial
  | act a rest ih =>
    intro v
    cases a with
    | step i c i' c' => exact ⟨h.1, ih h.2 v⟩
    | _ => exact ih h v
  | sub hd b o rest ihb ihr =>
    intro v
    simp only [withoutPrecompiles]
    split
    · exact ihr h.2 v
    · exact ⟨ihb h.1 _, ihr h.2 v⟩

/-- **C10, second part.** With exclusion on, let `K` be the positions of the frames that are not left
out. Recording the execution without the left-out calls gives an arena with one node for each
element of `K`, in the same order, and every node is the node of the full recording at that position
with its links renamed: nothing else (steps, logs, ordering, data) differs. -/
theorem C10_rest_unchanged (cfg : Config) (hcfg : cfg.excludePrecompileCalls = true) (t : Tx)
    (hwf : t.WF) (hsafe : Safe cfg t.body) :
    ∃ s s' K, TI.run cfg TI.new t.events = .ok s ∧
      TI.run cfg TI.new (Tx.withoutPrecompiles t).events = .ok s' ∧
      K.Pairwise (· < ·) ∧ s'.arena.length = K.length ∧
      (∀ (j : Nat) (f : FrameCtx), (frames t)[j]? = some f →
        (j ∈ K ↔ f.parent = none ∨ ¬ (f.hdr.isPrecompile = true ∧ f.value = 0))) ∧
      (∀ (k : Nat) (x' : Node), s'.arena[k]? = some x' →
        ∃ j x, K[k]? = some j ∧ s.arena[j]? = some x ∧ Corresponds K x' x) := by
  obtain ⟨s, hr, _, har, _⟩ := run_frames cfg t hwf hsafe
  have hwf' : (Tx.withoutPrecompiles t).WF :=
    ⟨hwf.1, fun hp => (withoutPrecompiles_wf t.body hwf.2.2 _).2 (hwf.2.1 hp),
      (withoutPrecompiles_wf t.body hwf.2.2 _).1⟩
  have hsafe' : Safe cfg (Tx.withoutPrecompiles t).body := withoutPrecompiles_all _ hsafe _
  obtain ⟨s', hr', _, har', _⟩ := run_frames cfg (Tx.withoutPrecompiles t) hwf' hsafe'
  let v := valueInScope none t.hdr
  let K := 0 :: keptIdx v 1 t.body
  refine ⟨s, s', K, hr, hr', ?_, ?_, ?_, ?_⟩
  · refine List.pairwise_cons.2 ⟨?_, keptIdx_sorted _ _ _⟩
    intro j hj; have := keptIdx_bounds _ _ _ _ hj; omega
  · rw [har', List.length_map]
    simp [frames, subFrames_length, K, keptIdx_length, Tx.withoutPrecompiles, v]
  · intro j f hf
    have hi := frames_index hf
    have hm := List.mem_of_getElem? hf
    rw [frames, List.mem_cons] at hm
    rcases hm with rfl | hm
    · simp only at hi; subst hi; simp [K]
    · rw [← hi]
      have hpar := subFrames_parent _ _ _ _ _ _ (Nat.lt_succ_self 0) hm
      obtain ⟨q, hq, _, hlt, _⟩ := hpar
      simp only [K, List.mem_cons, hq, reduceCtorEq, false_or]
      rw [← mem_keptIdx_iff t.body hwf.2.2 _ _ _ _ _ hm]
      constructor
      · rintro (h | h)
        · omega
        · exact h
      · exact Or.inr
  · intro k x' hx'
    rw [har', List.getElem?_map] at hx'
    cases hf' : (frames (Tx.withoutPrecompiles t))[k]? with
    | none => rw [hf'] at hx'; simp at hx'
    | some f' =>
      rw [hf'] at hx'
      simp only [Option.map_some, Option.some.injEq] at hx'
      subst hx'
      have hi' := frames_index hf'
      have hagree : Agree K 1 (keptIdx v 1 t.body) := by
        intro j a ha; rw [Nat.add_comm]; simpa [K] using ha
      have hcorr : ∃ f ∈ frames t, FrameCorr K f' f := by
        have hm := List.mem_of_getElem? hf'
        simp only [frames, List.mem_cons] at hm
        rcases hm with rfl | hm
        · exact ⟨⟨0, none, 0, none, t.hdr, t.body, t.out⟩, by simp [frames],
            ⟨rfl, rfl, rfl, rfl, rfl, rfl, rfl, hagree⟩⟩
        · obtain ⟨f, h1, h2⟩ := subFrames_corr K t.body 1 0 0 v 1 1 rfl hagree f' hm
          exact ⟨f, by rw [frames]; exact List.mem_cons_of_mem _ h1, h2⟩
      obtain ⟨f, hfm, hc⟩ := hcorr
      obtain ⟨j, hj⟩ := List.mem_iff_getElem?.1 hfm
      have hij := frames_index hj
      refine ⟨j, nodeOf cfg f, ?_, by rw [har, List.getElem?_map, hj]; rfl, ?_⟩
      · rw [← hi', ← hij]; exact hc.index
      · refine nodeOf_corresponds cfg hcfg K hc (frames_wf hwf hfm).2.1 ?_
        have h1 := (frames_root_iff hfm).2
        have h2 := (frames_root_iff (List.mem_of_getElem? hf')).2
        rw [h1, h2]
        have := hc.parent
        cases hp : f.parent <;> cases hp' : f'.parent <;> rw [hp, hp'] at this <;> simp at this ⊢

/-- The example has five frames of which one is left out. -/
example : (frames Example.tx).length = 5 ∧
    (frames (Tx.withoutPrecompiles Example.tx)).length = 4 := by decide

end Verif.Props
