import Verif.Lemmas.WriterErrors
import Verif.Props.Writer
/-!
# C124: a trace writer whose sink failed
-/
namespace Verif.Props
open Spec Writer

mutual
/-- The lines of a frame shown deeper are its lines, deeper. -/
theorem lines_deeper (w : Settings) (b : Nat) : ∀ (d : Doc) (level : Nat),
    d.lines w (level + b) = deeper b (d.lines w level)
  | .mk x items, level => by
    have h := items_deeper w b items x (level + 1) [] 0
    have e : level + 1 + b = level + b + 1 := by omega
    rw [e] at h
    simp [Doc.lines, deeper, h, e]
theorem items_deeper (w : Settings) (b : Nat) : ∀ (items : DocItems) (x : Node) (base : Nat)
    (opens : List (Nat × Option (List String))) (n : Nat),
    items.lines w x (base + b) opens n = deeper b (items.lines w x base opens n)
  | .nil, x, base, opens, n => rfl
  | .log l rest, x, base, opens, n => by
    have e : base + b + opens.length = base + opens.length + b := by omega
    have hl : logLines w (base + opens.length + b) l = deeper b (logLines w (base + opens.length) l) := by
      unfold logLines
      cases l.decoded.name with
      | some name => rfl
      | none => cases l.rawLog.topics <;> simp [deeper]
    simp only [DocItems.lines, items_deeper w b rest x base opens n, e, hl]
    simp [deeper]
  | .sub d rest, x, base, opens, n => by
    have e : base + b + opens.length = base + opens.length + b := by omega
    simp only [DocItems.lines, items_deeper w b rest x base opens n, e, lines_deeper w b d]
    simp [deeper]
  | .step s rest, x, base, opens, n => by
    have e : base + b + opens.length = base + opens.length + b := by omega
    by_cases hend : (opens.map (·.1)).head? = some n
    · cases opens with
      | nil => simp at hend
      | cons o opens' =>
        obtain ⟨e', ret⟩ := o
        simp only [List.map_cons, List.head?_cons, Option.some.injEq] at hend
        subst hend
        simp only [DocItems.lines, if_true, items_deeper w b rest x base opens' (e' + 1), e]
        simp [deeper]
    · rw [lines_step hend, lines_step hend]
      cases s.decoded with
      | none => exact items_deeper w b rest x base opens (n + 1)
      | some dec =>
        cases dec with
        | line t =>
          simp only [items_deeper w b rest x base opens (n + 1), e]
          simp [deeper]
        | internalCall c e' =>
          simp only [items_deeper w b rest x base ((e', c.returnData) :: opens) (n + 1), e]
          simp [deeper]
end

/-- The lines of a frame are at its level or deeper, those behind the first one deeper. -/
theorem lines_levels (w : Settings) (d : Doc) (level : Nat) : ∃ (l : Line) (r : List Line),
    d.lines w level = l :: r ∧ l.level = level ∧ l.mark = .branch ∧ ∀ x ∈ r, level < x.level := by
  obtain ⟨x, items⟩ := d
  refine ⟨_, _, rfl, rfl, rfl, ?_⟩
  have h := items_deeper w (level + 1) items x 0 [] 0
  rw [Nat.zero_add] at h
  intro y hy
  simp only [List.mem_append, List.mem_singleton, h, deeper, List.mem_map] at hy
  rcases hy with ⟨z, _, rfl⟩ | rfl
  · show level < z.level + (level + 1)
    omega
  · exact Nat.lt_succ_self _

/-- **C124**, exactly. If writing a trace fails, then the lines of the trace were written up to some place, and
either they were written completely, flushing failed and the indentation is what it was; or the writer is left
at the level of the line in which it failed (of the inside of the internal call that this line announces),
which is the level it had before if that was the first line, and is deeper otherwise. -/
theorem C124_exact (w : Settings) (k : Sink) (nodes : List Node) (d : Doc) (st st' : State)
    (hu : Unfolds nodes 0 d) (hn : d.Nested) (hl : ∀ l ∈ d.lines w st.indent, l.level < 65536)
    (hr : writeArena w k nodes st = (.error .io, st')) :
    ∃ p, st'.out = st.out ++ p ∧
      ((p = printLines (d.lines w st.indent) ∧ st'.indent = st.indent ∧ k.flushFails = true) ∨
       (StopsIn (d.lines w st.indent) p st'.indent ∧
        ((∃ l, (d.lines w st.indent).head? = some l ∧ p <+: l.print ∧ st'.indent = st.indent) ∨
         (∃ l, (d.lines w st.indent).head? = some l ∧ l.print <+: p ∧ st.indent < st'.indent)))) := by
  have hK : ∀ x ∈ nodes, 3 * x.ordering.length + 3 ≤ 3 * (nodes.map (·.ordering.length)).sum + 6 := by
    intro x hx
    have : x.ordering.length ≤ (nodes.map (·.ordering.length)).sum :=
      sum_le_of_mem (List.mem_map_of_mem hx)
    omega
  have hp := (leaves w k nodes _ hK (sizeOf d + 1)).1 d (Nat.lt_succ_self _) 0 st.indent
    (arenaFuel nodes) hu hn hl (Nat.le_refl _)
  have hb : writeArena w k nodes st =
      W.bind (writeNode w k nodes (arenaFuel nodes) 0) (fun _ => flush k) st := rfl
  rw [hb] at hr
  unfold W.bind at hr
  rcases hp st rfl with ⟨s', he, ho, hi⟩ | ⟨s', p, he, ho, hp⟩
  · rw [he] at hr
    simp only [flush] at hr
    cases hf : k.flushFails with
    | false => rw [hf] at hr; simp at hr
    | true =>
      rw [hf] at hr
      simp only [if_true, Prod.mk.injEq, true_and] at hr
      subst hr
      exact ⟨_, ho, Or.inl ⟨rfl, hi, rfl⟩⟩
  · rw [he] at hr
    simp only [Prod.mk.injEq, true_and] at hr
    subst hr
    refine ⟨p, ho, Or.inr ⟨hp, ?_⟩⟩
    obtain ⟨l0, r, hlines, hlev, _, hdeep⟩ := lines_levels w d st.indent
    obtain ⟨A, l, B, q, h1, h2, h3, h4⟩ := hp
    rw [hlines] at h1 ⊢
    cases A with
    | nil =>
      simp only [List.nil_append, List.cons.injEq] at h1
      refine Or.inl ⟨l0, rfl, ?_, ?_⟩
      · rw [h2, h1.1]; simpa [printLines] using h3
      · rcases h4 with h4 | ⟨h4, _⟩
        · rw [h4, ← h1.1, hlev]
        · exact absurd rfl h4
    | cons a A =>
      simp only [List.cons_append, List.cons.injEq] at h1
      refine Or.inr ⟨l0, rfl, ?_, ?_⟩
      · rw [h2, printLines_cons, h1.1, List.append_assoc]
        exact List.prefix_append _ _
      · have := hdeep l (by rw [h1.2]; simp)
        omega

theorem margin_longer (level b : Nat) (m : Mark) :
    (margin level m).length ≤ (margin (level + b) m).length := by
  have h : ∀ n k : Nat, ((List.replicate n (txt "  │ ")).flatten).length ≤
      ((List.replicate (n + k) (txt "  │ ")).flatten).length := by
    intro n k
    simp only [List.length_flatten, List.map_replicate, List.sum_replicate_nat]
    exact Nat.mul_le_mul_right _ (by omega)
  obtain ⟨k, hk⟩ : ∃ k, level + b - 1 = level - 1 + k := ⟨level + b - 1 - (level - 1), by omega⟩
  have h1 := h (level - 1) k
  cases m with
  | branch =>
    simp only [margin, hk, List.length_append]
    by_cases hz : level = 0
    · rw [if_pos hz]; simp only [List.length_nil]; omega
    · rw [if_neg hz, if_neg (by omega)]; omega
  | pipes => simp only [margin, hk, List.length_append]; omega
  | edge => simp only [margin, hk, List.length_append]; omega

theorem branch_longer (level b : Nat) (hb : 0 < b) :
    (margin level .branch).length < (margin (level + b) .branch).length := by
  have hp : (txt "  │ ").length = 4 := rfl
  have hq : (txt "  ├─ ").length = 5 := rfl
  have h : ∀ n : Nat, ((List.replicate n (txt "  │ ")).flatten).length = n * 4 := by
    intro n
    simp [hp]
  simp only [margin, List.length_append, h]
  by_cases hz : level = 0
  · rw [if_pos hz, if_neg (by omega), hq]; simp; omega
  · rw [if_neg hz, if_neg (by omega)]; omega

theorem print_longer (b : Nat) (L : List Line) :
    (printLines L).length ≤ (printLines (deeper b L)).length := by
  induction L with
  | nil => simp [deeper]
  | cons l L ih =>
    have h := margin_longer l.level b l.mark
    simp only [deeper, List.map_cons, printLines_cons, List.length_append, Line.print] at ih ⊢
    omega

/-- **C124**, what the next trace looks like. A trace written after a failed attempt is written completely, as
many levels deeper as the failed attempt left the writer deeper than it was; and this is what a new writer
(with the indentation the writer had at first) writes exactly if the failed attempt left the indentation
unchanged. -/
theorem C124_next (w : Settings) (k : Sink) (nodes : List Node) (d : Doc) (st st' : State)
    (hu1 : Unfolds nodes 0 d) (hn1 : d.Nested) (hl1 : ∀ l ∈ d.lines w st.indent, l.level < 65536)
    (hr : writeArena w k nodes st = (.error .io, st'))
    (k2 : Sink) (nodes2 : List Node) (d2 : Doc)
    (hu : Unfolds nodes2 0 d2) (hn : d2.Nested) (hl : ∀ l ∈ d2.lines w st'.indent, l.level < 65536)
    (hk : ∀ n, k2.fault n = none) (hf : k2.flushFails = false) :
    ∃ st2 st3, writeArena w k2 nodes2 st' = (.ok (), st2) ∧
      writeArena w k2 nodes2 { st' with indent := st.indent } = (.ok (), st3) ∧
      st2.out = st'.out ++ printLines (deeper (st'.indent - st.indent) (d2.lines w st.indent)) ∧
      st3.out = st'.out ++ printLines (d2.lines w st.indent) ∧
      (st2.out = st3.out ↔ st'.indent = st.indent) := by
  have hle : st.indent ≤ st'.indent := by
    obtain ⟨p, _, ⟨_, hi, _⟩ | ⟨_, ⟨_, _, _, hi⟩ | ⟨_, _, _, hi⟩⟩⟩ := C124_exact w k nodes d st st' hu1 hn1 hl1 hr
      <;> omega
  have hd : d2.lines w st'.indent = deeper (st'.indent - st.indent) (d2.lines w st.indent) := by
    rw [← lines_deeper]
    congr 1
    omega
  have hl3 : ∀ l ∈ d2.lines w st.indent, l.level < 65536 := by
    intro l hm
    have := hl { l with level := l.level + (st'.indent - st.indent) }
      (by rw [hd]; exact List.mem_map_of_mem hm)
    simp only at this
    omega
  rcases C51_prints w k2 nodes2 d2 st' hu hn hl with ⟨st2, h2, o2, i2⟩ | ⟨_, _, _, _, _, ⟨n, c, hc⟩ | hc⟩
  · rcases C51_prints w k2 nodes2 d2 { st' with indent := st.indent } hu hn hl3 with
      ⟨st3, h3, o3, i3⟩ | ⟨_, _, _, _, _, ⟨n, c, hc⟩ | hc⟩
    · refine ⟨st2, st3, h2, h3, by rw [o2, hd], o3, ?_⟩
      constructor
      · intro he
        rw [o2, o3, hd] at he
        have he := congrArg List.length (List.append_cancel_left he)
        apply Classical.byContradiction
        intro hne
        obtain ⟨l0, r, hlines, _, hmark, _⟩ := lines_levels w d2 st.indent
        simp only [hlines, deeper, List.map_cons, printLines_cons, List.length_append, Line.print, hmark] at he
        have h1 := branch_longer l0.level (st'.indent - st.indent) (by omega)
        have h2 := print_longer (st'.indent - st.indent) r
        simp only [deeper] at h2
        omega
      · intro he
        have : st' = { st' with indent := st.indent } := by rw [← he]
        rw [← this] at h3
        rw [h2] at h3
        simp only [Prod.mk.injEq, true_and] at h3
        rw [h3]
    · rw [hk n] at hc; simp at hc
    · rw [hf] at hc; simp at hc
  · rw [hk n] at hc; simp at hc
  · rw [hf] at hc; simp at hc

/-- **C124**, the part that holds. If no write failed but flushing, or if the first line was not written
completely, then a failed attempt leaves the indentation unchanged, so that the next trace is written as by a
new writer (`C124_next`). Missing: failures later on (see `C124_exact` and `C124_refuted`). -/
theorem C124_early_partial (w : Settings) (k : Sink) (nodes : List Node) (d : Doc) (st st' : State)
    (hu : Unfolds nodes 0 d) (hn : d.Nested) (hl : ∀ l ∈ d.lines w st.indent, l.level < 65536)
    (hr : writeArena w k nodes st = (.error .io, st'))
    (hearly : (∀ n, k.fault n = none) ∨
      ∀ l, (d.lines w st.indent).head? = some l → st'.out.length < st.out.length + l.print.length) :
    st'.indent = st.indent := by
  rcases hearly with hk | hshort
  · have hb : writeArena w k nodes st =
        W.bind (writeNode w k nodes (arenaFuel nodes) 0) (fun _ => flush k) st := rfl
    have hK : ∀ x ∈ nodes, 3 * x.ordering.length + 3 ≤ 3 * (nodes.map (·.ordering.length)).sum + 6 := by
      intro x hx
      have : x.ordering.length ≤ (nodes.map (·.ordering.length)).sum :=
        sum_le_of_mem (List.mem_map_of_mem hx)
      omega
    rcases ((claims w k nodes _ hK (sizeOf d + 1)).1 d (Nat.lt_succ_self _) 0 st.indent
      (arenaFuel nodes) hu hn hl (Nat.le_refl _)) st rfl with ⟨s', he, _, hi'⟩ | ⟨_, _, _, _, _, n, c, hc⟩
    · rw [hb] at hr
      unfold W.bind at hr
      rw [he] at hr
      simp only [flush] at hr
      split at hr
      · simp only [Prod.mk.injEq, true_and] at hr
        rw [← hr]; exact hi'
      · simp at hr
    · rw [hk n] at hc; simp at hc
  · obtain ⟨p, ho, ⟨_, hi, _⟩ | ⟨_, ⟨_, _, _, hi⟩ | ⟨l, hh, ⟨r, hpre⟩, hi⟩⟩⟩ := C124_exact w k nodes d st st' hu hn hl hr
    · exact hi
    · exact hi
    · have := hshort l hh
      rw [ho, ← hpre] at this
      simp at this
      omega

theorem failure_some {r : Except Fail Unit × State} {e : Fail} (h : failure r = some e) :
    r = (.error e, r.2) := by
  obtain ⟨a, b⟩ := r
  cases a with
  | ok u => simp [failure] at h
  | error e' => simp only [failure, Option.some.injEq] at h; rw [h]

theorem failure_none {r : Except Fail Unit × State} (h : failure r = none) : r = (.ok (), r.2) := by
  obtain ⟨a, b⟩ := r
  cases a with
  | ok u => rfl
  | error e' => simp [failure] at h

/-- A sink that fails at one write and then works again. -/
def failsOnce (n : Nat) : Sink := ⟨fun m => if m = n then some 1 else none, false⟩

set_option maxRecDepth 20000 in
/-- The hypotheses can be met: the example with an internal call, and a sink that fails while the line inside
the internal call is written; the writer is left two levels deep. -/
example : ∃ (d : Doc) (st' : State), Unfolds (decorate goodSteps writerArena) 0 d ∧ d.Nested ∧
    (∀ l ∈ d.lines plainWriter 0, l.level < 65536) ∧
    writeArena plainWriter (failsOnce 12) (decorate goodSteps writerArena) {} = (.error .io, st') ∧
    st'.indent = 2 ∧ glyphText st'.out =
"  [550] Root::01020304{value: 11}(05)
    ├─ [100] f(1, 2)
    │   ├─ c" := by
  obtain ⟨s, hr, hs⟩ := C51_text writerConfig writerTx writerTx_wf writerTx_safe
  have ha : writerArena = s.arena := by unfold writerArena; rw [hr]
  obtain ⟨d, hu, _⟩ := hs (decorate goodSteps writerArena) (ha ▸ decorate_decorates _ _)
  refine ⟨d, _, hu, ?_, ?_, failure_some (by decide +kernel), by decide +kernel, by decide +kernel⟩
  all_goals
    apply Classical.byContradiction
    intro hc
    obtain ⟨p, st', h⟩ := (C51_panic_iff plainWriter goodSink (decorate goodSteps writerArena) d {}
      (fun _ => rfl) (by decide) hu).2 (fun h => hc (by first | exact h.1 | exact h.2))
    have h1 : failure (writeArena plainWriter goodSink (decorate goodSteps writerArena) {}) = none := by
      decide +kernel
    rw [h] at h1
    simp [failure] at h1

set_option maxRecDepth 20000 in
/-- **C124** does not hold: after a failure in the second line, the example is written one level too deep. -/
theorem C124_refuted : ∃ (k : Sink) (nodes : List Node) (st1 st2 : State),
    writeArena plainWriter k nodes {} = (.error .io, st1) ∧
    writeArena plainWriter k nodes st1 = (.ok (), st2) ∧
    glyphText (st2.out.drop st1.out.length) =
"    ├─ [550] Root::01020304{value: 11}(05)
    │   ├─ [600] 0x0b::01020304{value: 6}(05)
    │   │   ├─  emit topic 0: 0x0000000000000000000000000000000000000000000000000000000000000001
    │   │   │        topic 1: 0x0000000000000000000000000000000000000000000000000000000000000002
    │   │   │           data: 0x09
    │   │   └─ ← [Return] 0x0708
    │   └─ ← [Stop] 0x0708
" := by
  refine ⟨failsOnce 6, decorate (fun _ => none) writerArena,
    (writeArena plainWriter (failsOnce 6) (decorate (fun _ => none) writerArena) {}).2,
    (writeArena plainWriter (failsOnce 6) (decorate (fun _ => none) writerArena)
      (writeArena plainWriter (failsOnce 6) (decorate (fun _ => none) writerArena) {}).2).2, ?_, ?_, ?_⟩
  · exact failure_some (by decide +kernel)
  · exact failure_none (by decide +kernel)
  · decide +kernel

end Verif.Props
