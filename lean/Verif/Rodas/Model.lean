import Verif.Ode.Basic
/-!
# Model of `src/rodas/algorithm.rs`

Only `algorithm.rs`, `cache.rs` and `constants.rs` are part of the crate (src/rodas.rs:1-3); `alg.rs` and
`core.rs` are not compiled.
-/

namespace Cyphus
namespace Rodas
variable {F : Type} {n : Nat} {P : Type} [Div F] [OfScientific F]

/-- `default_opts`, src/rodas/algorithm.rs:8-18. -/
def default_opts [FlInf F] : Opts F :=
  { (Opts.new : Opts F) with
    reltol := 1e-3
    abstol := 1e-7
    safe := 0.9
    facr := 1.0 / 6.0
    facl := 5.0
    max_steps := 100000
    modern_pred := true }

/-- `impl OdeAlgorithm for Rodas`, src/rodas/algorithm.rs:6-25: `new_cache` (19-21) and `step` (22-24)
are `unimplemented!()`. The contents of the cache (src/rodas/cache.rs) are irrelevant. -/
def alg [FlInf F] : Algorithm F n P where
  Cache := Unit
  default_opts := default_opts
  new_cache := fun _ => .panic
  step := fun _ _ => .panic

end Rodas
end Cyphus
