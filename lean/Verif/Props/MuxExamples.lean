import Verif.Props.Mux
import Verif.Props.StandaloneExamples
/-! Concrete cases for `Verif.Props.Mux`. -/
namespace Verif
namespace Props
namespace MuxExamples
open Spec

/-- `{"4byteTracer": null, "callTracer": {"withLog": true}, "muxTracer": {"noopTracer": null,
"prestateTracer": {}}}`. -/
def config : MuxConfig :=
  .bare .fourByte (.conf .call (.mk (some { withLog := some true }) none .invalid)
    (.conf .mux (.mk none none (.config (.bare .noop
      (.conf .preState (.mk none (some {}) .invalid) .nil)))) .nil))

theorem config_distinct : DistinctTypes config := by
  simp [config, DistinctTypes, DistinctIn, DistinctParse, types]

theorem config_valid : Valid config := by
  simp [config, Valid, ValidFor, ValidParse, NeedsConfig]

def env : MuxEnv Unit where
  decode := ⟨fun _ => none, fun _ => ""⟩
  gasUsed := 100
  state := []
  db := { basic := fun _ => .ok none, codeByHash := fun _ => .ok [] }

/-- All tracers of the configuration succeed alone. -/
theorem config_runs : ∀ e ∈ entries config, aloneEntry env StandaloneExample.tx.events e ≠ none := by
  intro e he
  have : (aloneEntry env StandaloneExample.tx.events e).isSome = true := by
    simp only [entries, config, List.mem_cons, List.not_mem_nil, or_false] at he
    rcases he with rfl | rfl | rfl
    · decide +kernel
    · decide +kernel
    · decide +kernel
  intro h
  rw [h] at this
  exact absurd this (by simp)

/-- Wrong configurations: a missing one, an unexpected one, one of the wrong format inside a nested
mux after a valid entry. -/
theorem faults :
    Mux.ofConfig (.bare .noop (.bare .call .nil)) = .error (.missingConfig .call) ∧
    Mux.ofConfig (.conf .fourByte (.mk (some {}) none .invalid) .nil) =
      .error (.unexpectedConfig .fourByte) ∧
    Mux.ofConfig (.bare .noop (.conf .mux (.mk none none (.config
      (.conf .preState (.mk (some {}) none .invalid) .nil))) .nil)) = .error .invalidConfig :=
  ⟨rfl, rfl, rfl⟩

end MuxExamples
end Props
end Verif
