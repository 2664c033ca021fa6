import Verif.Model.Inspector
/-! Model of `config_mut` and `update_config` of /repo/src/tracing/mod.rs. -/
namespace Verif
namespace TI

/-- Hooks invoked in sequence, each with the configuration set by then; the first panic aborts.
/repo/src/tracing/mod.rs:118-135: `config_mut` and `update_config` replace the configuration and nothing
else. Simplification: the configuration is not kept in the state (see `TI`); a change is the next hook
having another one. -/
def runWith : TI → List (Config × Event) → R TI
  | s, [] => .ok s
  | s, (cfg, e) :: es =>
    match hook cfg s e with
    | .error p => .error p
    | .ok s' => runWith s' es

end TI
end Verif
