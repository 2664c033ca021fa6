import Verif.Lemmas.StructLogs
import Verif.Props.CallFrames
import Verif.Props.Precompile
import Verif.Spec.Parity
/-! Lemmas about the parity builder: trace addresses. -/
namespace Verif.Par
open Spec Rec Parity

theorem shownBelow_index (cfg : Config) (d p : Nat) (v : U256) (b : Body) : ∀ n,
    (shownBelow cfg d p v n b).map (·.index) = ownChildren cfg d p v n b := by
  induction b with
  | nil => intros; rfl
  | act a rest ih => intro n; exact ih n
  | sub h b o rest _ ih =>
    intro n
    simp only [shownBelow, ownChildren, List.map_append, ih]
    split <;> rfl

/-- The addresses of all frames below, the empty one for those left out. -/
def locAll (cfg : Config) : (d p : Nat) → (v : U256) → (n : Nat) → (path : List Nat) → (k : Nat) →
    Body → List (List Nat × FrameCtx)
  | _, _, _, _, _, _, .nil => []
  | d, p, v, n, path, k, .act _ rest => locAll cfg d p v n path k rest
  | d, p, v, n, path, k, .sub h b o rest =>
    if Spec.excluded cfg ⟨n, some p, d, some v, h, b, o⟩ then
      ([], ⟨n, some p, d, some v, h, b, o⟩) :: locAll cfg d p v (n + 1 + b.size) path k rest
    else
      (path ++ [k], ⟨n, some p, d, some v, h, b, o⟩) ::
        (locAll cfg (d + 1) n (valueInScope (some v) h) (n + 1) (path ++ [k]) 0 b ++
          locAll cfg d p v (n + 1 + b.size) path (k + 1) rest)

theorem excluded_noSub {cfg : Config} {f : FrameCtx} (hx : Spec.excluded cfg f = true) :
    f.hdr.isPrecompile = true := by
  simp only [Spec.excluded, Bool.and_eq_true] at hx
  exact hx.1.2

theorem locAll_frames (cfg : Config) (b : Body) (hwf : b.WF) : ∀ d p v n path k,
    (locAll cfg d p v n path k b).map (·.2) = subFrames d p v n b := by
  induction b with
  | nil => intros; rfl
  | act a rest ih => intro d p v n path k; exact ih hwf d p v n path k
  | sub h b o rest ihb ihr =>
    intro d p v n path k
    obtain ⟨_, h2, h3, h4⟩ := hwf
    simp only [locAll, subFrames]
    split
    · rename_i hx
      have hns := h2 (excluded_noSub hx)
      rw [List.map_cons, ihr h4, Props.subFrames_of_hasSub_false b hns]; rfl
    · rw [List.map_cons, List.map_append, ihb h3, ihr h4]

theorem locAll_filter (cfg : Config) (b : Body) : ∀ d p v n path k,
    (locAll cfg d p v n path k b).filter (fun e => !Spec.excluded cfg e.2) =
      locate cfg d p v n path k b := by
  induction b with
  | nil => intros; rfl
  | act a rest ih => intro d p v n path k; exact ih d p v n path k
  | sub h b o rest ihb ihr =>
    intro d p v n path k
    simp only [locAll, locate]
    split
    · rename_i hx
      rw [List.filter_cons_of_neg (by simp [hx]), ihr]
    · rename_i hx
      rw [List.filter_cons_of_pos (by simp [hx]), List.filter_append, ihb, ihr]

/-- What the address walk reads of a node. -/
structure LinkOf (cfg : Config) (x : Node) (f : FrameCtx) : Prop where
  idx : x.idx = f.index
  parent : x.parent = f.parent
  children : x.children = ownChildren cfg (f.depth + 1) f.index f.value (f.index + 1) f.body
  pre : x.isPrecompile = Spec.excluded cfg f

theorem ownChildren_ge (cfg : Config) (d p : Nat) (v : U256) (b : Body) : ∀ n c,
    c ∈ ownChildren cfg d p v n b → n ≤ c := by
  induction b with
  | nil => intro n c h; simp [ownChildren] at h
  | act a rest ih => intro n c h; exact ih n c h
  | sub h b o rest _ ih =>
    intro n c hc
    simp only [ownChildren, List.mem_append] at hc
    rcases hc with hc | hc
    · split at hc <;> simp at hc; omega
    · have := ih _ _ hc; omega

theorem idxOf?_append_cons (n : Nat) (pre post : List Nat) (h : n ∉ pre) :
    (pre ++ n :: post).idxOf? n = some pre.length := by
  induction pre with
  | nil => simp [List.idxOf?_cons]
  | cons c pre ih =>
    simp only [List.mem_cons, not_or] at h
    have : (c == n) = false := by simp; omega
    simp [List.idxOf?_cons, ih h.2, this]

/-- The walk upwards from each frame below. -/
theorem locAll_loop (cfg : Config) (nodes : List Node) (b : Body) :
    ∀ (d p : Nat) (v : U256) (n : Nat) (path : List Nat) (k : Nat) (x : Node) (pre : List Nat),
    p < n → nodes[p]? = some x → (∀ c ∈ pre, c < n) → pre.length = k →
    x.children = pre ++ ownChildren cfg d p v n b →
    (∀ fuel graph, p ≤ fuel → traceAddressLoop nodes fuel x graph = .ok (graph ++ path.reverse)) →
    (∀ g ∈ subFrames d p v n b, ∃ y : Node, nodes[g.index]? = some y ∧ LinkOf cfg y g) →
    ∀ e ∈ locAll cfg d p v n path k b, Spec.excluded cfg e.2 = false →
      ∃ y : Node, nodes[e.2.index]? = some y ∧ LinkOf cfg y e.2 ∧ n ≤ e.2.index ∧
        ∀ fuel graph, e.2.index ≤ fuel →
          traceAddressLoop nodes fuel y graph = .ok (graph ++ e.1.reverse) := by
  induction b with
  | nil => intro d p v n path k x pre _ _ _ _ _ _ _ e he; simp [locAll] at he
  | act a rest ih =>
    intro d p v n path k x pre h1 h2 h3 h4 h5 h6 h7 e he
    exact ih d p v n path k x pre h1 h2 h3 h4 h5 h6 h7 e he
  | sub h b o rest ihb ihr =>
    intro d p v n path k x pre hpn hx hpre hk hch hloop hnodes e he hex
    have hsub : ∀ g ∈ subFrames d p v (n + 1 + b.size) rest,
        ∃ y : Node, nodes[g.index]? = some y ∧ LinkOf cfg y g :=
      fun g hg => hnodes g (by simp [subFrames, hg])
    simp only [locAll] at he
    simp only [ownChildren] at hch
    split at he
    · rename_i hxc
      rw [if_pos hxc, List.nil_append] at hch
      rcases List.mem_cons.1 he with rfl | he
      · simp [hxc] at hex
      · obtain ⟨y, y1, y2, y3, y4⟩ := ihr d p v (n + 1 + b.size) path k x pre (by omega) hx
          (fun c hc => by have := hpre c hc; omega) hk hch hloop hsub e he hex
        exact ⟨y, y1, y2, by omega, y4⟩
    · rename_i hxc
      rw [if_neg hxc] at hch
      obtain ⟨y, hy, hly⟩ := hnodes ⟨n, some p, d, some v, h, b, o⟩ (by simp [subFrames])
      have hyl : ∀ fuel graph, n ≤ fuel →
          traceAddressLoop nodes fuel y graph = .ok (graph ++ (path ++ [k]).reverse) := by
        intro fuel graph hf
        obtain ⟨fuel, rfl⟩ : ∃ m, fuel = m + 1 := ⟨fuel - 1, by omega⟩
        have hpos : x.children.idxOf? n = some k := by
          rw [hch, List.singleton_append, idxOf?_append_cons _ _ _ (fun hm => by
            have := hpre _ hm; omega), hk]
        rw [traceAddressLoop, hly.parent]
        simp only [hx]
        rw [show y.idx = n from hly.idx, hpos]
        simp only
        rw [hloop fuel _ (by omega)]
        simp
      rcases List.mem_cons.1 he with rfl | he
      · exact ⟨y, hy, hly, Nat.le_refl _, hyl⟩
      · rcases List.mem_append.1 he with he | he
        · obtain ⟨z, z1, z2, z3, z4⟩ := ihb (d + 1) n (valueInScope (some v) h) (n + 1) (path ++ [k]) 0 y []
            (by omega) hy (by simp) rfl hly.children hyl
            (fun g hg => hnodes g (by simp [subFrames, hg])) e he hex
          exact ⟨z, z1, z2, by omega, z4⟩
        · obtain ⟨z, z1, z2, z3, z4⟩ := ihr d p v (n + 1 + b.size) path (k + 1) x (pre ++ [n]) (by omega) hx
            (fun c hc => by
              rcases List.mem_append.1 hc with hc | hc
              · have := hpre c hc; omega
              · simp at hc; omega)
            (by simp [hk]) (by rw [hch]; simp) hloop hsub e he hex
          exact ⟨z, z1, z2, by omega, z4⟩

/-- All frames with their addresses. -/
def txAll (cfg : Config) (t : Tx) : List (List Nat × FrameCtx) :=
  ([], rootOf t) :: locAll cfg 1 0 (valueInScope none t.hdr) 1 [] 0 t.body

theorem txAll_frames (cfg : Config) (t : Tx) (hwf : t.WF) : (txAll cfg t).map (·.2) = frames t := by
  simp only [txAll, List.map_cons, locAll_frames cfg t.body hwf.2.2, frames, rootOf]

theorem root_not_excluded (cfg : Config) (t : Tx) : Spec.excluded cfg (rootOf t) = false := by
  simp [Spec.excluded, rootOf]

theorem txAll_filter (cfg : Config) (t : Tx) :
    (txAll cfg t).filter (fun e => !Spec.excluded cfg e.2) = located cfg t := by
  rw [txAll, List.filter_cons_of_pos (by simp [root_not_excluded]), locAll_filter]; rfl

theorem txAll_address (cfg : Config) (t : Tx) (N : FrameCtx → Node) (hN : ∀ f ∈ frames t, LinkOf cfg (N f) f)
    (hwf : t.WF) : ∀ e ∈ txAll cfg t,
      traceAddress ((frames t).map N) e.2.index = .ok e.1 := by
  generalize hnodes : (frames t).map N = nodes
  have hlook : ∀ g ∈ frames t, nodes[g.index]? = some (N g) := by
    intro g hg
    obtain ⟨k, hk⟩ := List.getElem?_of_mem hg
    rw [frames_index hk, ← hnodes, List.getElem?_map, hk]; rfl
  have hroot : rootOf t ∈ frames t := by simp [frames, rootOf]
  have hN0 := hN _ hroot
  intro e he
  simp only [txAll, List.mem_cons] at he
  rcases he with rfl | he
  · rfl
  · have hmem : e.2 ∈ subFrames 1 0 (valueInScope none t.hdr) 1 t.body := by
      rw [← locAll_frames cfg t.body hwf.2.2 1 0 _ 1 [] 0]; exact List.mem_map_of_mem he
    have hmf : e.2 ∈ frames t := by simp only [frames, List.mem_cons]; exact Or.inr hmem
    obtain ⟨q, _, _, _, hge⟩ := subFrames_parent _ _ _ _ _ _ (Nat.lt_succ_self 0) hmem
    have hy := hlook _ hmf
    rw [traceAddress, if_neg (by omega), hy]
    simp only [(hN _ hmf).pre]
    cases hx : Spec.excluded cfg e.2 with
    | true =>
      simp only [if_true]
      have : ∀ (b : Body) d p v n path k, ∀ e ∈ locAll cfg d p v n path k b,
          Spec.excluded cfg e.2 = true → e.1 = [] := by
        intro b
        induction b with
        | nil => intro d p v n path k e he; simp [locAll] at he
        | act a rest ih => intro d p v n path k e he hx; exact ih d p v n path k e he hx
        | sub h b o rest ihb ihr =>
          intro d p v n path k e he hx
          simp only [locAll] at he
          split at he
          · rcases List.mem_cons.1 he with rfl | he
            · rfl
            · exact ihr _ _ _ _ _ _ e he hx
          · rename_i hnx
            rcases List.mem_cons.1 he with rfl | he
            · simp [hx] at hnx
            · rcases List.mem_append.1 he with he | he
              · exact ihb _ _ _ _ _ _ e he hx
              · exact ihr _ _ _ _ _ _ e he hx
      rw [this _ _ _ _ _ _ _ e he hx]
    | false =>
      simp only [Bool.false_eq_true, if_false]
      obtain ⟨y, y1, _, _, y4⟩ := locAll_loop cfg nodes t.body 1 0 (valueInScope none t.hdr) 1 [] 0 (N (rootOf t)) []
        (by omega) (hlook _ hroot) (by simp) rfl hN0.children
        (fun fuel graph _ => by
          have hp : (N (rootOf t)).parent = none := hN0.parent
          cases fuel <;> simp [traceAddressLoop, hp])
        (fun g hg => by
          have hm : g ∈ frames t := by simp only [frames, List.mem_cons]; exact Or.inr hg
          exact ⟨N g, hlook g hm, hN g hm⟩)
        e he hx
      rw [hy] at y1
      simp only [Option.some.injEq] at y1
      have hlt : e.2.index < nodes.length := (List.getElem?_eq_some_iff.1 hy).1
      rw [y1, y4 nodes.length [] (by omega)]
      simp

theorem traceAddressesOf_eq (nodes : List Node) : ∀ (l : List (Nat × List Nat)),
    (∀ e ∈ l, traceAddress nodes e.1 = .ok e.2) →
    traceAddressesOf nodes (l.map (·.1)) = .ok (l.map (·.2)) := by
  intro l
  induction l with
  | nil => intro _; rfl
  | cons e l ih =>
    intro h
    simp only [List.map_cons, traceAddressesOf, h e (by simp), ih (fun e he => h e (by simp [he]))]

theorem traceAddresses_eq (cfg : Config) (t : Tx) (N : FrameCtx → Node)
    (hN : ∀ f ∈ frames t, LinkOf cfg (N f) f) (hwf : t.WF) :
    traceAddresses ((frames t).map N) = .ok ((txAll cfg t).map (·.1)) := by
  have hl := txAll_frames cfg t hwf
  have h := traceAddressesOf_eq ((frames t).map N) ((txAll cfg t).map (fun e => (e.2.index, e.1)))
    (by
      intro e he
      obtain ⟨e', he', rfl⟩ := List.mem_map.1 he
      exact txAll_address cfg t N hN hwf e' he')
  rw [List.map_map, List.map_map] at h
  rw [traceAddresses, List.length_map]
  have hr : List.range (frames t).length = (txAll cfg t).map ((·.1) ∘ fun e => (e.2.index, e.1)) := by
    have : (txAll cfg t).map ((·.1) ∘ fun e => (e.2.index, e.1)) = (frames t).map (·.index) := by
      rw [← hl, List.map_map]; rfl
    rw [this]
    apply List.ext_getElem?
    intro k
    rw [List.getElem?_map]
    cases hk : (frames t)[k]? with
    | none => simp at hk ⊢; exact hk
    | some f =>
      have hlt := (List.getElem?_eq_some_iff.1 hk).1
      rw [List.getElem?_range hlt, Option.map_some, frames_index hk]
  rw [hr, h]; rfl

theorem zip_map_same {α β γ : Type} (f : α → β) (g : α → γ) (l : List α) :
    (l.map f).zip (l.map g) = l.map (fun a => (f a, g a)) := by
  induction l with
  | nil => rfl
  | cons a l ih => simp [ih]

/-- The traces of a list of nodes of frames. -/
theorem traces_eq (cfg : Config) (t : Tx) (N : FrameCtx → Node)
    (hN : ∀ f ∈ frames t, LinkOf cfg (N f) f) (hwf : t.WF) :
    intoTransactionTraces ((frames t).map N) =
      .ok (traceIter ((located cfg t).map (fun e => ((N e.2).parityTransactionTrace e.1, N e.2)))) := by
  rw [intoTransactionTraces, traceAddresses_eq cfg t N hN hwf]
  simp only
  congr 2
  rw [← txAll_frames cfg t hwf, List.map_map, zip_map_same, ← txAll_filter, List.filter_map,
    List.map_map]
  have hN' : ∀ e ∈ txAll cfg t, (N e.2).isPrecompile = Spec.excluded cfg e.2 := fun e he =>
    (hN e.2 (by rw [← txAll_frames cfg t hwf]; exact List.mem_map_of_mem he)).pre
  rw [List.filter_congr (q := fun e => !Spec.excluded cfg e.2)
    (fun e he => by simp [Function.comp, hN' e he])]
  rfl

end Verif.Par
