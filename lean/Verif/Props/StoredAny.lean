import Verif.Lemmas.StoredAny
import Verif.Props.Stored
import Verif.Props.Builders
/-! # C129: results can be built from a recording that was read -/
namespace Verif.Props
open Spec Rec Parity

/-- **C129, exactly.** `known` are the opcodes revm knows, `INVALID` among them. The recordings that can be read from
some text are those whose numbers have 64 bits and whose opcodes are known: nothing else is checked, in particular not
whether the nodes refer to each other properly. What was read once can be written and read again without a change. -/
theorem C129_exact (known : UInt8 → Bool) (hi : known 0xfe = true) (ns : List Node) :
    ((∃ text, Stored.read known text = .ok ns) ↔ Fits ns ∧ OpsKnown known ns) ∧
    ∀ text, Stored.read known text = .ok ns → Stored.read known (Stored.write ns) = .ok ns := by
  have h2 : Fits ns ∧ OpsKnown known ns → Stored.read known (Stored.write ns) = .ok ns :=
    fun h => C106_roundtrip_partial known hi ns h.1 h.2
  exact ⟨⟨fun ⟨_, h⟩ => Stored.read_ok h, fun h => ⟨_, h2 h⟩⟩, fun _ h => h2 (Stored.read_ok h)⟩

/-- The results that are built from the nodes of a recording alone. -/
def AllBuilt (ns : List Node) : Prop :=
  (∀ gas ret opts, ∃ f, gethTraces ns gas ret opts = .ok f) ∧
  (∀ decode opts gas, ∃ f, gethCallTraces decode ns opts gas = .ok f) ∧
  (∃ ts, intoTransactionTraces ns = .ok ts) ∧
  (∀ types, ∃ r, intoTraceTypeTraces ns types = .ok r) ∧
  ∃ v, vmTrace ns = .ok v

theorem allBuilt {A : List Node} (h : Links A) : AllBuilt A := by
  obtain ⟨v, hv, _⟩ := vmTrace_ok h
  refine ⟨gethTraces_ok h, gethCallTraces_ok h, intoTransactionTraces_ok h, fun types => ?_, v, hv⟩
  obtain ⟨r, hr, _⟩ := intoTraceTypeTraces_ok h types
  exact ⟨r, hr⟩

/-- **C129** (partial: missing are texts that were not written by the library, see `C129_refuted_panic` and
`C129_refuted_loop`). Whatever hook calls a recording went through, its text can be read, and all results can be built
from what is read, with unknown opcodes or not. -/
theorem C129_written_partial (known : UInt8 → Bool) (hi : known 0xfe = true) (cfg : Config) (es : List Event) (s : TI)
    (hr : TI.run cfg TI.new es = .ok s) (hf : Fits s.arena) :
    ∃ ns, Stored.read known (Stored.write s.arena) = .ok ns ∧ AllBuilt ns := by
  refine ⟨_, (C106_exact known hi s.arena hf).1, allBuilt ((C04_links cfg es s hr).congr ?_)⟩
  rw [List.map_map]
  rfl

/-! ### Refutations -/

/-- A frame that names the root as its parent, which does not list it. -/
def strayNodes : List Node := [{}, { idx := 1, parent := some 0 }]

/-- A frame that is its own parent and its own child. -/
def circularNodes : List Node := [{}, { idx := 1, parent := some 1, children := [1] }]

theorem none_in_nil {α : Type} {P : α → Prop} : ∀ x ∈ ([] : List α), P x :=
  fun _ h => absurd h List.not_mem_nil

theorem strayNodes_fits : Fits strayNodes := by
  intro n hn
  rcases List.mem_cons.1 hn with rfl | hn
  · exact ⟨fun i hi => (by cases hi), none_in_nil, by decide, by decide, by decide, by decide,
      none_in_nil, none_in_nil⟩
  · rcases List.mem_singleton.1 hn with rfl
    exact ⟨fun i hi => (by cases hi; decide), none_in_nil, by decide, by decide, by decide, by decide,
      none_in_nil, none_in_nil⟩

theorem circularNodes_fits : Fits circularNodes := by
  intro n hn
  rcases List.mem_cons.1 hn with rfl | hn
  · exact ⟨fun i hi => (by cases hi), none_in_nil, by decide, by decide, by decide, by decide,
      none_in_nil, none_in_nil⟩
  · rcases List.mem_singleton.1 hn with rfl
    exact ⟨fun i hi => (by cases hi; decide), fun i hi => by rw [List.mem_singleton.1 hi]; decide,
      by decide, by decide, by decide, by decide, none_in_nil, none_in_nil⟩

theorem noSteps_known (known : UInt8 → Bool) {ns : List Node} (h : ∀ n ∈ ns, n.trace.steps = []) :
    OpsKnown known ns := fun n hn s hs => by rw [h n hn] at hs; cases hs

/-- **C129, refuted.** A text is read as a recording, without an error, from which the flat traces cannot be built:
the builder panics. -/
theorem C129_refuted_panic (known : UInt8 → Bool) (hi : known 0xfe = true) :
    ∃ text ns, Stored.read known text = .ok ns ∧
      intoTransactionTraces ns = .error (.expect "non precompile child call exists in parent") :=
  ⟨Stored.write strayNodes, strayNodes,
    C106_roundtrip_partial known hi _ strayNodes_fits (noSteps_known known (by decide)), rfl⟩

/-- The addresses of the circular frame: the loop goes on, however many rounds it is given. -/
theorem circular_loop : ∀ (fuel : Nat) (graph : List Nat),
    traceAddressLoop circularNodes fuel { idx := 1, parent := some 1, children := [1] } graph = .error .diverge
  | 0, _ => rfl
  | fuel + 1, graph => (traceAddressLoop.eq_def ..).trans (circular_loop fuel (graph ++ [0]))

/-- **C129, refuted.** A text is read as a recording, without an error, from which building the flat traces never ends:
the loop that looks for the parents of a frame goes on, however many rounds it is given, while the path it collects
grows. -/
theorem C129_refuted_loop (known : UInt8 → Bool) (hi : known 0xfe = true) :
    ∃ text ns n, Stored.read known text = .ok ns ∧ ns[1]? = some n ∧
      (∀ fuel, traceAddressLoop ns fuel n [] = .error .diverge) ∧ intoTransactionTraces ns = .error .diverge :=
  ⟨Stored.write circularNodes, circularNodes, _,
    C106_roundtrip_partial known hi _ circularNodes_fits (noSteps_known known (by decide)), rfl,
    fun fuel => circular_loop fuel [], rfl⟩

/-! ### Examples -/

/-- The recordings of the refutations are of the kind that can be read; neither is linked properly. The recording of a
transaction, as in C106, is. -/
example : (Fits strayNodes ∧ OpsKnown allBut0c strayNodes) ∧ allBut0c 0xfe = true ∧
    ∃ s, TI.run Config.all TI.new (memoryTx 0x0c).events = .ok s ∧ Fits s.arena ∧
      ∃ ns, Stored.read allBut0c (Stored.write s.arena) = .ok ns ∧ AllBuilt ns := by
  obtain ⟨s, hs, hf, _⟩ := memoryTx_fits 0x0c (Or.inl rfl)
  exact ⟨⟨strayNodes_fits, noSteps_known _ (by decide)⟩, by decide, s, hs, hf,
    C129_written_partial _ (by decide) _ _ s hs hf⟩

end Verif.Props
