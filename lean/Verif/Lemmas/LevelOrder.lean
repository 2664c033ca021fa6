import Verif.Lemmas.Populate
/-! Breadth-first walks visit paths in the order of their lengths, and from left to right. -/
namespace Verif.Par
open Spec Rec Parity

theorem lt_append_same (p q : List Nat) (i j : Nat) (hl : p.length = q.length) (h : p < q) :
    p ++ [i] < q ++ [j] := by
  induction p generalizing q with
  | nil => cases q with
    | nil => simp at h
    | cons => simp at hl
  | cons a p ih =>
    cases q with
    | nil => simp at hl
    | cons b q =>
      simp only [List.cons_append, List.cons_lt_cons_iff] at h ⊢
      rcases h with h | ⟨h1, h2⟩
      · exact Or.inl h
      · exact Or.inr ⟨h1, ih q (by simpa using hl) h2⟩

theorem lt_append_last (p : List Nat) (i j : Nat) (h : i < j) : p ++ [i] < p ++ [j] := by
  induction p with
  | nil => simp [List.cons_lt_cons_iff, h]
  | cons a p ih => simp only [List.cons_append, List.cons_lt_cons_iff]; exact Or.inr ⟨trivial, ih⟩

theorem lt_irrefl' (p : List Nat) : ¬ p < p := by
  induction p with
  | nil => simp
  | cons a p ih => simp only [List.cons_lt_cons_iff]; rintro (h | ⟨_, h⟩); omega; exact ih h

theorem before_irrefl (p : List Nat) : ¬ PathBefore p p := by
  rintro (h | ⟨_, h⟩)
  · omega
  · exact lt_irrefl' p h

/-- The walk over paths, `kids` giving the paths put into the queue. -/
def bfs (kids : List Nat → List (List Nat)) : Nat → List (List Nat) → Option (List (List Nat))
  | _, [] => some []
  | 0, _ :: _ => none
  | n + 1, p :: Q => (bfs kids n (Q ++ kids p)).map (p :: ·)

/-- The paths put into the queue are one step longer, from left to right. -/
def Kids (kids : List Nat → List (List Nat)) : Prop :=
  ∀ p, ∃ is : List Nat, kids p = is.map (fun i => p ++ [i]) ∧ is.Pairwise (· < ·)

theorem bfs_sorted {kids : List Nat → List (List Nat)} (hk : Kids kids) : ∀ (n : Nat)
    (P Q L : List (List Nat)), bfs kids n Q = some L → (P ++ Q).Pairwise PathBefore →
    (∀ q ∈ Q, q = [] ∨ ∃ p ∈ P, q ∈ kids p) → (P ++ L).Pairwise PathBefore := by
  intro n
  induction n with
  | zero =>
    intro P Q L h hs _
    cases Q with
    | nil => simp only [bfs, Option.some.injEq] at h; subst h; simpa using hs
    | cons => simp [bfs] at h
  | succ n ih =>
    intro P Q L h hs hq
    cases Q with
    | nil => simp only [bfs, Option.some.injEq] at h; subst h; simpa using hs
    | cons p Q =>
      simp only [bfs, Option.map_eq_some_iff] at h
      obtain ⟨L', h, rfl⟩ := h
      have := ih (P ++ [p]) (Q ++ kids p) L' h ?_ ?_
      · simpa using this
      · have hs' : (P ++ [p] ++ Q).Pairwise PathBefore := by simpa using hs
        rw [← List.append_assoc, List.pairwise_append]
        refine ⟨hs', ?_, ?_⟩
        · obtain ⟨is, he, hp⟩ := hk p
          rw [he, List.pairwise_map]
          exact hp.imp (fun h => Or.inr ⟨by simp, lt_append_last p _ _ h⟩)
        · intro a ha b hb
          obtain ⟨is, he, _⟩ := hk p
          rw [he, List.mem_map] at hb
          obtain ⟨i, _, rfl⟩ := hb
          -- a path in front of `p`, or `p`, is not longer than `p`
          have hle : ∀ x ∈ P, PathBefore x p := by
            intro x hx
            exact (List.pairwise_append.1 hs).2.2 x hx p (by simp)
          rw [List.append_assoc, List.mem_append] at ha
          rcases ha with ha | ha
          · rcases hle a ha with h1 | ⟨h1, _⟩
            · left; simp; omega
            · left; simp [h1]
          · have hap : a ∈ p :: Q := by simpa using ha
            rcases List.mem_cons.1 hap with rfl | haQ
            · left; simp
            · rcases hq a hap with rfl | ⟨x, hx, hax⟩
              · left; simp
              · obtain ⟨js, hej, _⟩ := hk x
                rw [hej, List.mem_map] at hax
                obtain ⟨j, _, rfl⟩ := hax
                rcases hle x hx with h1 | ⟨h1, h2⟩
                · left; simp; omega
                · right; exact ⟨by simp [h1], lt_append_same x p j i h1 h2⟩
      · intro q hq'
        rcases List.mem_append.1 hq' with hq' | hq'
        · rcases hq q (by simp [hq']) with h | ⟨x, hx, h⟩
          · exact Or.inl h
          · exact Or.inr ⟨x, by simp [hx], h⟩
        · exact Or.inr ⟨p, by simp, hq'⟩

theorem bfs_mem {kids : List Nat → List (List Nat)} : ∀ (n : Nat)
    (Q L : List (List Nat)), bfs kids n Q = some L →
    (∀ q ∈ Q, q ∈ L) ∧ (∀ p ∈ L, ∀ q ∈ kids p, q ∈ L) := by
  intro n
  induction n with
  | zero =>
    intro Q L h
    cases Q with
    | nil => simp only [bfs, Option.some.injEq] at h; subst h; simp
    | cons => simp [bfs] at h
  | succ n ih =>
    intro Q L h
    cases Q with
    | nil => simp only [bfs, Option.some.injEq] at h; subst h; simp
    | cons p Q =>
      simp only [bfs, Option.map_eq_some_iff] at h
      obtain ⟨L', h, rfl⟩ := h
      obtain ⟨h1, h2⟩ := ih _ _ h
      refine ⟨?_, ?_⟩
      · intro q hq
        rcases List.mem_cons.1 hq with rfl | hq
        · simp
        · exact List.mem_cons_of_mem _ (h1 q (by simp [hq]))
      · intro x hx q hq
        rcases List.mem_cons.1 hx with rfl | hx
        · exact List.mem_cons_of_mem _ (h1 q (by simp [hq]))
        · exact List.mem_cons_of_mem _ (h2 x hx q hq)

theorem bfs_good {kids : List Nat → List (List Nat)} (good : List Nat → Prop)
    (hg : ∀ p, good p → ∀ q ∈ kids p, good q) : ∀ (n : Nat)
    (Q L : List (List Nat)), bfs kids n Q = some L → (∀ q ∈ Q, good q) → ∀ p ∈ L, good p := by
  intro n
  induction n with
  | zero =>
    intro Q L h
    cases Q with
    | nil => simp only [bfs, Option.some.injEq] at h; subst h; simp
    | cons => simp [bfs] at h
  | succ n ih =>
    intro Q L h hQ
    cases Q with
    | nil => simp only [bfs, Option.some.injEq] at h; subst h; simp
    | cons p Q =>
      simp only [bfs, Option.map_eq_some_iff] at h
      obtain ⟨L', h, rfl⟩ := h
      intro x hx
      rcases List.mem_cons.1 hx with rfl | hx
      · exact hQ _ (by simp)
      · refine ih _ _ h ?_ x hx
        intro q hq
        rcases List.mem_append.1 hq with hq | hq
        · exact hQ q (by simp [hq])
        · exact hg p (hQ p (by simp)) q hq

/-! ### The sub-traces of a trace -/

/-- The paths put into the queue. -/
def vmKids (v : VmTrace) (p : List Nat) : List (List Nat) :=
  match v.at p with
  | none => []
  | some w => subPaths p 0 w.ops

theorem subPaths_mem (p : List Nat) : ∀ (ops : List VmInstruction) (i : Nat) (q : List Nat),
    q ∈ subPaths p i ops ↔ ∃ k op, ops[k]? = some op ∧ op.sub.isSome = true ∧ q = p ++ [i + k] := by
  intro ops
  induction ops with
  | nil => intro i q; simp [subPaths]
  | cons op ops ih =>
    intro i q
    rw [subPaths, List.mem_append, ih]
    constructor
    · rintro (h | ⟨k, o, h1, h2, h3⟩)
      · split at h
        · rename_i hs; exact ⟨0, op, rfl, hs, by simpa using h⟩
        · simp at h
      · exact ⟨k + 1, o, by simpa using h1, h2, by rw [h3]; congr 2; omega⟩
    · rintro ⟨k, o, h1, h2, h3⟩
      cases k with
      | zero =>
        simp only [List.getElem?_cons_zero, Option.some.injEq] at h1
        subst h1
        left; rw [if_pos h2]; simpa using h3
      | succ k =>
        right
        exact ⟨k, o, by simpa using h1, h2, by rw [h3]; congr 2; omega⟩

theorem subPaths_kids (p : List Nat) : ∀ (ops : List VmInstruction) (i : Nat),
    ∃ is : List Nat, subPaths p i ops = is.map (fun i => p ++ [i]) ∧ is.Pairwise (· < ·) ∧
      ∀ x ∈ is, i ≤ x := by
  intro ops
  induction ops with
  | nil => intro i; exact ⟨[], rfl, .nil, by simp⟩
  | cons op ops ih =>
    intro i
    obtain ⟨is, h1, h2, h3⟩ := ih (i + 1)
    rw [subPaths, h1]
    by_cases hs : op.sub.isSome = true
    · refine ⟨i :: is, by simp [hs], ?_, ?_⟩
      · rw [List.pairwise_cons]; exact ⟨fun x hx => by have := h3 x hx; omega, h2⟩
      · intro x hx
        rcases List.mem_cons.1 hx with rfl | hx
        · omega
        · have := h3 x hx; omega
    · exact ⟨is, by simp [hs], h2, fun x hx => by have := h3 x hx; omega⟩

theorem vmKids_kids (v : VmTrace) : Kids (vmKids v) := by
  intro p
  rw [vmKids]
  cases v.at p with
  | none => exact ⟨[], rfl, .nil⟩
  | some w =>
    obtain ⟨is, h1, h2, _⟩ := subPaths_kids p w.ops 0
    exact ⟨is, h1, h2⟩

theorem at_snoc (v : VmTrace) (p : List Nat) (i : Nat) : v.at (p ++ [i]) =
    (v.at p).bind (fun w => (w.ops[i]?).bind (·.sub)) := by
  rw [at_append]
  cases v.at p with
  | none => rfl
  | some w =>
    obtain ⟨c, ops⟩ := w
    simp only [Option.bind_some, VmTrace.at, VmTrace.ops]
    cases ops[i]? with
    | none => rfl
    | some op =>
      obtain ⟨pc, cost, ex, sub, o⟩ := op
      cases sub <;> simp [VmTrace.at, VmInstruction.sub]

theorem vmKids_mem (v : VmTrace) (p q : List Nat) : q ∈ vmKids v p ↔
    ∃ i, q = p ++ [i] ∧ (v.at q).isSome = true := by
  rw [vmKids]
  cases h : v.at p with
  | none =>
    simp only [List.not_mem_nil, false_iff, not_exists, not_and]
    rintro i rfl
    rw [at_snoc, h]; simp
  | some w =>
    simp only
    rw [subPaths_mem]
    constructor
    · rintro ⟨k, op, h1, h2, rfl⟩
      refine ⟨0 + k, rfl, ?_⟩
      rw [at_snoc, h]; simpa [h1] using h2
    · rintro ⟨i, rfl, hs⟩
      rw [at_snoc, h, Option.bind_some] at hs
      cases ho : w.ops[i]? with
      | none => rw [ho] at hs; simp at hs
      | some op => rw [ho] at hs; exact ⟨i, op, ho, by simpa using hs, by simp⟩

/-- The walk over the sub-traces of a trace lists their paths in breadth-first order. -/
theorem bfs_vm (v : VmTrace) (n : Nat) (L : List (List Nat)) (h : bfs (vmKids v) n [[]] = some L) :
    LevelOrder v L := by
  constructor
  · intro p
    obtain ⟨h1, h2⟩ := bfs_mem n _ _ h
    constructor
    · intro hp
      exact Option.isSome_iff_exists.1 (bfs_good (fun p => (v.at p).isSome = true) (fun p _ q hq => by
        obtain ⟨i, _, hq⟩ := (vmKids_mem v p q).1 hq
        exact hq) n _ _ h (by intro q hq; simp only [List.mem_singleton] at hq; subst hq; rfl) p hp)
    · intro hp
      have key : ∀ (m : Nat) (p : List Nat), p.length = m → (v.at p).isSome = true → p ∈ L := by
        intro m
        induction m with
        | zero =>
          intro p hl _
          rw [List.length_eq_zero_iff.1 hl]
          exact h1 [] (by simp)
        | succ m ih =>
          intro p hl hp
          obtain ⟨p', i, rfl⟩ : ∃ p' i, p = p' ++ [i] := by
            have hne : p ≠ [] := by intro he; simp [he] at hl
            exact ⟨p.dropLast, p.getLast hne, (List.dropLast_concat_getLast hne).symm⟩
          refine h2 p' (ih p' (by simpa using hl) ?_) _ ((vmKids_mem v p' _).2 ⟨i, rfl, hp⟩)
          rw [at_snoc] at hp
          cases hv : v.at p' with
          | none => rw [hv] at hp; simp at hp
          | some w => rfl
      exact key _ p rfl (Option.isSome_iff_exists.2 hp)
  · have := bfs_sorted (vmKids_kids v) n [] [[]] L h (by simp) (by intro q hq; left; simpa using hq)
    simpa using this

theorem lt_trans' : ∀ (a b c : List Nat), a < b → b < c → a < c := by
  intro a
  induction a with
  | nil => intro b c h1 h2; cases c with
    | nil => simp at h2
    | cons => simp
  | cons x a ih =>
    intro b c h1 h2
    cases b with
    | nil => simp at h1
    | cons y b =>
      cases c with
      | nil => simp at h2
      | cons z c =>
        rw [List.cons_lt_cons_iff] at h1 h2 ⊢
        rcases h1 with h1 | ⟨rfl, h1⟩ <;> rcases h2 with h2 | ⟨rfl, h2⟩
        · left; omega
        · left; omega
        · left; omega
        · right; exact ⟨rfl, ih b c h1 h2⟩

theorem before_asymm {a b : List Nat} (h1 : PathBefore a b) (h2 : PathBefore b a) : False := by
  rcases h1 with h1 | ⟨h1, h1'⟩ <;> rcases h2 with h2 | ⟨h2, h2'⟩
  · omega
  · omega
  · omega
  · exact lt_irrefl' a (lt_trans' a b a h1' h2')

theorem sorted_unique : ∀ (P Q : List (List Nat)), P.Pairwise PathBefore → Q.Pairwise PathBefore →
    (∀ p, p ∈ P ↔ p ∈ Q) → P = Q := by
  intro P
  induction P with
  | nil =>
    intro Q _ _ h
    cases Q with
    | nil => rfl
    | cons q Q => exact absurd ((h q).2 (by simp)) (by simp)
  | cons p P ih =>
    intro Q hP hQ h
    cases Q with
    | nil => exact absurd ((h p).1 (by simp)) (by simp)
    | cons q Q =>
      rw [List.pairwise_cons] at hP hQ
      have hpq : p = q := by
        rcases List.mem_cons.1 ((h p).1 (by simp)) with h1 | h1
        · exact h1
        · rcases List.mem_cons.1 ((h q).2 (by simp)) with h2 | h2
          · exact h2.symm
          · exact (before_asymm (hP.1 q h2) (hQ.1 p h1)).elim
      subst hpq
      congr 1
      refine ih Q hP.2 hQ.2 ?_
      intro x
      constructor
      · intro hx
        rcases List.mem_cons.1 ((h x).1 (by simp [hx])) with rfl | hx'
        · exact (before_irrefl _ (hP.1 _ hx)).elim
        · exact hx'
      · intro hx
        rcases List.mem_cons.1 ((h x).2 (by simp [hx])) with rfl | hx'
        · exact (before_irrefl _ (hQ.1 _ hx)).elim
        · exact hx'

/-- The breadth-first order of the paths is unique. -/
theorem level_unique {v : VmTrace} {P Q : List (List Nat)} (hP : LevelOrder v P)
    (hQ : LevelOrder v Q) : P = Q :=
  sorted_unique P Q hP.sorted hQ.sorted (fun p => (hP.mem p).trans (hQ.mem p).symm)

/-- With as much fuel as there are sub-traces the walk comes to its end. -/
theorem bfs_ends (v : VmTrace) : ∀ (n : Nat) (Q : List (List Nat)),
    (∀ p ∈ Q, (v.at p).isSome = true) → (Q.map (cnt v)).sum ≤ n →
    ∃ L, bfs (vmKids v) n Q = some L ∧ L.length = (Q.map (cnt v)).sum := by
  intro n
  induction n with
  | zero =>
    intro Q hv hf
    cases Q with
    | nil => exact ⟨[], rfl, rfl⟩
    | cons p Q =>
      obtain ⟨w, hw⟩ := Option.isSome_iff_exists.1 (hv p (by simp))
      simp only [List.map_cons, List.sum_cons, cnt, hw, Option.map_some, Option.getD_some] at hf
      cases w
      simp only [VmTrace.count] at hf
      omega
  | succ n ih =>
    intro Q hv hf
    cases Q with
    | nil => exact ⟨[], rfl, rfl⟩
    | cons p Q =>
      obtain ⟨w, hw⟩ := Option.isSome_iff_exists.1 (hv p (by simp))
      obtain ⟨c, ops⟩ := w
      have hcp : cnt v p = 1 + countOps ops := by simp [cnt, hw, VmTrace.count]
      obtain ⟨s1, s2⟩ := subPaths_cnt v p c ops [] (by simpa using hw)
      simp only [List.length_nil] at s1 s2
      simp only [List.map_cons, List.sum_cons, hcp] at hf
      have hkids : vmKids v p = subPaths p 0 ops := by rw [vmKids, hw]; rfl
      have hsum : ((Q ++ vmKids v p).map (cnt v)).sum + 1 =
          1 + countOps ops + (Q.map (cnt v)).sum := by
        rw [List.map_append, List.sum_append, hkids, s1]; omega
      obtain ⟨L, h1, h2⟩ := ih (Q ++ vmKids v p) (by
        intro q hq
        rcases List.mem_append.1 hq with hq | hq
        · exact hv q (by simp [hq])
        · rw [hkids] at hq; exact s2 q hq) (by omega)
      refine ⟨p :: L, by rw [bfs, h1]; rfl, ?_⟩
      rw [List.length_cons, h2, List.map_cons, List.sum_cons, hcp]; omega

theorem vmKids_skel (v r : VmTrace) (h : skel r = skel v) : vmKids r = vmKids v := by
  funext p
  have hp : (r.at p).map skel = (v.at p).map skel := by rw [← at_skel, ← at_skel, h]
  rw [vmKids, vmKids]
  have hs : ∀ (ops : List VmInstruction) (i : Nat), subPaths p i (skelOps ops) = subPaths p i ops := by
    intro ops
    induction ops with
    | nil => intro i; rfl
    | cons op ops ih =>
      intro i
      rw [skelOps, subPaths, subPaths, ih]
      obtain ⟨pc, cost, ex, sub, o⟩ := op
      cases sub <;> rfl
  cases hr : r.at p with
  | none =>
    rw [hr] at hp
    cases hv : v.at p with
    | none => rfl
    | some w => rw [hv] at hp; simp at hp
  | some u =>
    rw [hr] at hp
    cases hv : v.at p with
    | none => rw [hv] at hp; simp at hp
    | some w =>
      rw [hv] at hp
      obtain ⟨c, ops⟩ := w
      obtain ⟨c', ops'⟩ := u
      simp only [Option.map_some, Option.some.injEq, skel, VmTrace.mk.injEq, true_and] at hp
      simp only [VmTrace.ops]
      rw [← hs ops', hp, hs]

/-- One address after the other is looked up, and the code put at the next path. -/
def assign {ε : Type} (db : DB ε) : VmTrace → List (List Nat) → List Address →
    Except (Fail ε) VmTrace
  | r, [], _ => .ok r
  | _, _ :: _, [] => .error (.panic (.expect "there should be an address"))
  | r, p :: P, a :: addrs =>
    match dbCode db a with
    | .error e => .error (.db e)
    | .ok none => assign db r P addrs
    | .ok (some code) => assign db (r.setCode code p) P addrs

theorem populateLoop_assign {ε : Type} (db : DB ε) (v : VmTrace) : ∀ (n : Nat) (r : VmTrace)
    (Q L : List (List Nat)) (addrs : List Address), skel r = skel v →
    (∀ p ∈ Q, (v.at p).isSome = true) → bfs (vmKids v) n Q = some L →
    populateLoop db n r Q addrs = assign db r L addrs := by
  intro n
  induction n with
  | zero =>
    intro r Q L addrs _ _ h
    cases Q with
    | nil => simp only [bfs, Option.some.injEq] at h; subst h; simp [populateLoop, assign]
    | cons => simp [bfs] at h
  | succ n ih =>
    intro r Q L addrs hr hv h
    cases Q with
    | nil => simp only [bfs, Option.some.injEq] at h; subst h; simp [populateLoop, assign]
    | cons p Q =>
      simp only [bfs, Option.map_eq_some_iff] at h
      obtain ⟨L', h, rfl⟩ := h
      have hp : (r.at p).isSome = true := by
        have := hv p (by simp)
        have h2 : (r.at p).map skel = (v.at p).map skel := by rw [← at_skel, ← at_skel, hr]
        cases hx : r.at p with
        | some w => rfl
        | none =>
          obtain ⟨w, hw⟩ := Option.isSome_iff_exists.1 this
          rw [hx, hw] at h2; simp at h2
      obtain ⟨w, hw⟩ := Option.isSome_iff_exists.1 hp
      have hk : subPaths p 0 w.ops = vmKids v p := by
        rw [← vmKids_skel v r hr, vmKids, hw]
      have hv' : ∀ q ∈ Q ++ vmKids v p, (v.at q).isSome = true := by
        intro q hq
        rcases List.mem_append.1 hq with hq | hq
        · exact hv q (by simp [hq])
        · obtain ⟨i, _, hq⟩ := (vmKids_mem v p q).1 hq
          exact hq
      simp only [populateLoop, hw, hk]
      cases addrs with
      | nil => simp [assign]
      | cons a addrs =>
        simp only [assign, dbCode]
        cases db.account a with
        | error e => rfl
        | ok acc =>
          dsimp only
          by_cases hc : acc.codeHash = KECCAK_EMPTY
          · rw [if_pos hc, if_pos hc]
            exact ih r _ L' addrs hr hv' h
          · rw [if_neg hc, if_neg hc]
            cases db.codeByHash acc.codeHash with
            | error e => rfl
            | ok code => exact ih _ _ L' addrs (by rw [skel_setCode, hr]) hv' h

theorem setCode_at_self (x : Bytes) : ∀ (p : List Nat) (v : VmTrace) (c : Bytes)
    (ops : List VmInstruction), v.at p = some (.mk c ops) → (v.setCode x p).at p = some (.mk x ops) := by
  intro p
  induction p with
  | nil =>
    intro v c ops h
    simp only [VmTrace.at, Option.some.injEq] at h; subst h; rfl
  | cons i p ih =>
    intro v c ops h
    obtain ⟨c', ops'⟩ := v
    obtain ⟨pc, cost, ex, sub, o, h1, h2⟩ := at_cons_some h
    simp only [VmTrace.setCode, VmTrace.at, List.getElem?_modify, h1]
    simpa using ih sub c ops h2

theorem setCode_code_other (x : Bytes) : ∀ (p q : List Nat) (v : VmTrace), p ≠ q →
    ((v.setCode x p).at q).map VmTrace.code = (v.at q).map VmTrace.code := by
  intro p
  induction p with
  | nil =>
    intro q v h
    cases q with
    | nil => exact absurd rfl h
    | cons i q => obtain ⟨c, ops⟩ := v; rfl
  | cons i p ih =>
    intro q v h
    obtain ⟨c, ops⟩ := v
    cases q with
    | nil => rfl
    | cons j q =>
      simp only [VmTrace.setCode, VmTrace.at, List.getElem?_modify]
      by_cases hij : i = j
      · subst hij
        cases ops[i]? with
        | none => rfl
        | some op =>
          obtain ⟨pc, cost, ex, sub, o⟩ := op
          cases sub with
          | none => simp
          | some s =>
            simp only [if_true, Option.map_eq_map, Option.map_some]
            exact ih q s (by intro he; exact h (by rw [he]))
      · simp [hij]

theorem bare_skel (op : VmInstruction) : bare (skelOp op) = bare op := by
  obtain ⟨pc, cost, ex, sub, o⟩ := op
  cases sub <;> rfl

theorem bare_of_skel (v r : VmTrace) (h : skel r = skel v) (p : List Nat) (w : VmTrace)
    (hw : v.at p = some w) : ∃ u, r.at p = some u ∧ u.ops.map bare = w.ops.map bare := by
  have hp : (r.at p).map skel = (v.at p).map skel := by rw [← at_skel, ← at_skel, h]
  rw [hw] at hp
  cases hr : r.at p with
  | none => rw [hr] at hp; simp at hp
  | some u =>
    rw [hr] at hp
    refine ⟨u, rfl, ?_⟩
    obtain ⟨c, ops⟩ := w
    obtain ⟨c', ops'⟩ := u
    simp only [Option.map_some, Option.some.injEq, skel, VmTrace.mk.injEq, true_and, skelOps_map] at hp
    have := congrArg (List.map bare) hp
    simpa [List.map_map, Function.comp_def, bare_skel, VmTrace.ops] using this

/-- The result of a successful assignment. -/
theorem assign_ok {ε : Type} (db : DB ε) : ∀ (P : List (List Nat)) (addrs : List Address)
    (v r : VmTrace), P.Nodup → assign db v P addrs = .ok r →
    skel r = skel v ∧ P.length ≤ addrs.length ∧
    (∀ q, q ∉ P → (r.at q).map VmTrace.code = (v.at q).map VmTrace.code) ∧
    ∀ (k : Nat) (p : List Nat), P[k]? = some p → ∃ a c, addrs[k]? = some a ∧ dbCode db a = .ok c ∧
      (r.at p).map VmTrace.code = (v.at p).map (fun w => c.getD w.code) := by
  intro P
  induction P with
  | nil =>
    intro addrs v r _ h
    simp only [assign, Except.ok.injEq] at h
    subst h
    exact ⟨rfl, by simp, fun _ _ => rfl, by simp⟩
  | cons p P ih =>
    intro addrs v r hn h
    rw [List.nodup_cons] at hn
    cases addrs with
    | nil => simp [assign] at h
    | cons a addrs =>
      simp only [assign] at h
      cases hd : dbCode db a with
      | error e => rw [hd] at h; simp at h
      | ok c =>
        rw [hd] at h
        -- the trace after the first step
        obtain ⟨v', hv', hskel, hself, hother⟩ : ∃ v', assign db v' P addrs = .ok r ∧
            skel v' = skel v ∧
            (v'.at p).map VmTrace.code = (v.at p).map (fun w => c.getD w.code) ∧
            (∀ q, p ≠ q → (v'.at q).map VmTrace.code = (v.at q).map VmTrace.code) := by
          cases c with
          | none => exact ⟨v, h, rfl, rfl, fun _ _ => rfl⟩
          | some code =>
            refine ⟨v.setCode code p, h, skel_setCode .., ?_, fun q hq => setCode_code_other _ _ _ _ hq⟩
            cases hw : v.at p with
            | some w =>
              obtain ⟨c', ops⟩ := w
              rw [setCode_at_self code p v c' ops hw]; rfl
            | none =>
              have := at_skel p (v.setCode code p)
              rw [skel_setCode, at_skel, hw] at this
              cases hx : (v.setCode code p).at p with
              | none => rfl
              | some u => rw [hx] at this; simp at this
        obtain ⟨i1, i2, i3, i4⟩ := ih addrs v' r hn.2 hv'
        refine ⟨by rw [i1, hskel], by simpa using i2, ?_, ?_⟩
        · intro q hq
          simp only [List.mem_cons, not_or] at hq
          rw [i3 q hq.2, hother q (fun h => hq.1 h.symm)]
        · intro k q hk
          cases k with
          | zero =>
            simp only [List.getElem?_cons_zero, Option.some.injEq] at hk
            subst hk
            exact ⟨a, c, rfl, hd, by rw [i3 p hn.1, hself]⟩
          | succ k =>
            rw [List.getElem?_cons_succ] at hk
            obtain ⟨b, c', hb, hc', he⟩ := i4 k q hk
            refine ⟨b, c', by simpa using hb, hc', ?_⟩
            have hpq : p ≠ q := by rintro rfl; exact hn.1 (List.mem_of_getElem? hk)
            rw [he]
            have hx := hother q hpq
            cases h1 : v'.at q with
            | none =>
              rw [h1] at hx
              cases h2 : v.at q with
              | none => rfl
              | some w => rw [h2] at hx; simp at hx
            | some u =>
              rw [h1] at hx
              cases h2 : v.at q with
              | none => rw [h2] at hx; simp at hx
              | some w =>
                rw [h2] at hx
                simp only [Option.map_some, Option.some.injEq] at hx ⊢
                rw [hx]

/-- When and how an assignment fails. -/
theorem assign_error {ε : Type} (db : DB ε) : ∀ (P : List (List Nat)) (addrs : List Address)
    (v : VmTrace),
    (∀ e, assign db v P addrs = .error (.db e) ↔ ∃ k a, k < P.length ∧ addrs[k]? = some a ∧
      dbCode db a = .error e ∧ ∀ b ∈ addrs.take k, Answers db b) ∧
    (∀ x, assign db v P addrs = .error (.panic x) ↔ addrs.length < P.length ∧
      (∀ b ∈ addrs, Answers db b) ∧ x = .expect "there should be an address") := by
  intro P
  induction P with
  | nil => intro addrs v; simp [assign]
  | cons p P ih =>
    intro addrs v
    cases addrs with
    | nil =>
      constructor
      · intro e; simp [assign]
      · intro x; simp [assign, eq_comm]
    | cons a addrs =>
      cases hd : dbCode db a with
      | error e' =>
        have : assign db v (p :: P) (a :: addrs) = .error (.db e') := by simp [assign, hd]
        rw [this]
        constructor
        · intro e
          constructor
          · intro h
            simp only [Except.error.injEq, Fail.db.injEq] at h
            subst h
            exact ⟨0, a, by simp, rfl, hd, by simp⟩
          · rintro ⟨k, b, hk, hb, he, hall⟩
            cases k with
            | zero =>
              simp only [List.getElem?_cons_zero, Option.some.injEq] at hb
              subst hb
              rw [hd] at he
              simp only [Except.error.injEq] at he ⊢
              rw [he]
            | succ k =>
              obtain ⟨c, hc⟩ := hall a (by simp)
              rw [hd] at hc; simp at hc
        · intro x
          simp only [Except.error.injEq, reduceCtorEq, false_iff]
          rintro ⟨_, h, _⟩
          obtain ⟨c, hc⟩ := h a (by simp)
          rw [hd] at hc; simp at hc
      | ok c =>
        obtain ⟨v', hv'⟩ : ∃ v', assign db v (p :: P) (a :: addrs) = assign db v' P addrs := by
          cases c with
          | none => exact ⟨v, by simp [assign, hd]⟩
          | some code => exact ⟨v.setCode code p, by simp [assign, hd]⟩
        rw [hv']
        obtain ⟨i1, i2⟩ := ih addrs v'
        constructor
        · intro e
          rw [i1]
          constructor
          · rintro ⟨k, b, hk, hb, he, hall⟩
            refine ⟨k + 1, b, by simpa using hk, by simpa using hb, he, ?_⟩
            intro x hx
            rw [List.take_succ_cons] at hx
            rcases List.mem_cons.1 hx with rfl | hx
            · exact ⟨c, hd⟩
            · exact hall x hx
          · rintro ⟨k, b, hk, hb, he, hall⟩
            cases k with
            | zero =>
              simp only [List.getElem?_cons_zero, Option.some.injEq] at hb
              subst hb
              rw [hd] at he; simp at he
            | succ k =>
              refine ⟨k, b, by simpa using hk, by simpa using hb, he, ?_⟩
              intro x hx
              exact hall x (by rw [List.take_succ_cons]; simp [hx])
        · intro x
          rw [i2]
          have hA : Answers db a := ⟨c, hd⟩
          simp only [List.length_cons, Nat.add_lt_add_iff_right, List.mem_cons, forall_eq_or_imp, hA,
            true_and]

end Verif.Par
