import Verif.Arith
/-!
# Model of `src/ode`: return codes, options, statistics, solution, builder, integrator
-/

namespace Cyphus

/-- `OdeRetCode`, src/ode/code.rs:2-10. -/
inductive RetCode where
  | Continue | Success | MaxIters | DtLessThanMin | Stiff | SingularMatrix | Failure
  deriving DecidableEq, Repr

/-- `OdeIntegratorOpts`, src/ode/options.rs:3-45. `usize` is modelled by `Nat`. -/
structure Opts (F : Type) where
  reltol : F
  abstol : F
  dense : Bool
  dtstart : F
  dtmax : F
  max_steps : Nat
  max_newt_iter : Nat
  max_stiff : Nat
  modern_pred : Bool
  safe : F
  facr : F
  facl : F
  quot1 : F
  quot2 : F
  beta : F
  fnewt : F
  use_ext_col : Bool
  hess : Bool
  theta : F

/-- `OdeIntegratorOpts::new`, src/ode/options.rs:48-70. -/
def Opts.new {F : Type} [OfScientific F] [FlInf F] : Opts F where
  reltol := 1e-3
  abstol := 1e-7
  dense := false
  dtstart := 1e-6
  dtmax := FlInf.inf
  max_steps := 100000
  max_newt_iter := 7
  max_stiff := 1000
  modern_pred := true
  safe := 0.9
  facr := 0.0
  facl := 0.0
  quot1 := 0.0
  quot2 := 0.0
  beta := 0.0
  fnewt := 0.0
  use_ext_col := true
  hess := false
  theta := 0.0

/-- `OdeStatistics`, src/ode/statistics.rs:3-18. Counters are unbounded `Nat`s (no `usize` overflow). -/
structure Stats where
  steps : Nat
  function_evals : Nat
  jacobian_evals : Nat
  decompositions : Nat
  linear_solves : Nat
  accepts : Nat
  rejects : Nat
  deriving DecidableEq, Repr

/-- `OdeStatistics::new`, src/ode/statistics.rs:21-32. -/
def Stats.new : Stats where
  steps := 0
  function_evals := 0
  jacobian_evals := 0
  decompositions := 0
  linear_solves := 0
  accepts := 0
  rejects := 0

/-- `OdeSolution`, src/ode/solution.rs:5-9. -/
structure Solution (F : Type) (n : Nat) where
  ts : List F
  us : List (Vec n F)
  retcode : RetCode

/-- `OdeSolution::new`, src/ode/solution.rs:12-18. -/
def Solution.new {F : Type} {n : Nat} : Solution F n where
  ts := []
  us := []
  retcode := .Continue

/-- `sol.ts.push(t); sol.us.push(u.clone())`, e.g. src/dorm_prince/dp5/algorithm.rs:78-79. -/
def Solution.push {F : Type} {n : Nat} (s : Solution F n) (t : F) (u : Vec n F) : Solution F n :=
  { s with ts := s.ts ++ [t], us := s.us ++ [u] }

/-- `OdeSolutionIterator` and `OdeSolutionMutIterator`, src/ode/solution.rs:21-24 and 52-55: two
independent vector iterators, each modelled by the list of items it has not yielded yet. -/
structure SolIter (F : Type) (n : Nat) where
  iter_t : List F
  iter_u : List (Vec n F)

/-- `IntoIterator::into_iter` for `OdeSolution` (src/ode/solution.rs:30-35) and for `&mut OdeSolution`
(src/ode/solution.rs:61-66). -/
def Solution.intoIter {F : Type} {n : Nat} (s : Solution F n) : SolIter F n :=
  { iter_t := s.ts, iter_u := s.us }

/-- `Iterator::next` of both solution iterators, src/ode/solution.rs:41-49 and 72-80: both inner
iterators are advanced, and a pair is produced if both had an item. -/
def SolIter.next {F : Type} {n : Nat} (it : SolIter F n) : SolIter F n × Option (F × Vec n F) :=
  let t := it.iter_t.head?
  let u := it.iter_u.head?
  let it' : SolIter F n := { iter_t := it.iter_t.tail, iter_u := it.iter_u.tail }
  match t, u with
  | some t, some u => (it', some (t, u))
  | _, _ => (it', none)

/-- A call of user code, recorded in the ghost trace: the right-hand side `dudt`, the user Jacobian
`dfdu` or the user time derivative `dfdt`, with the time and the state they are called with. -/
inductive Call (F : Type) (n : Nat) where
  | rhs (t : F) (u : Vec n F)
  | jacU (t : F) (u : Vec n F)
  | jacT (t : F) (u : Vec n F)

/-- The type of `dudt` (and `dfdt`): `Fn(ArrayViewMut1, ArrayView1, f64, &Params)`,
src/ode/integrator.rs:34. Arguments here: parameters, the contents of the output buffer before the call,
the state, the time; result: the contents of the output buffer after the call. The user closure is
assumed to be deterministic, stateless and not to panic. -/
abbrev Rhs (F : Type) (n : Nat) (P : Type) := P → Vec n F → Vec n F → F → Vec n F
/-- The type of `dfdu`, src/ode/integrator.rs:38. -/
abbrev JacFn (F : Type) (n : Nat) (P : Type) := P → Mat n F → Vec n F → F → Mat n F

/-- `OdeIntegrator`, src/ode/integrator.rs:32-69. The `callback` field is passed separately to
`Integ.step` (a callback replacing itself is not modelled); the zero-sized `alg` field is omitted.
`trace` is a ghost field: the calls of user closures made so far, oldest first. -/
structure Integ (F : Type) (n : Nat) (P : Type) (Cache : Type) where
  dudt : Rhs F n P
  dfdt : Option (Rhs F n P)
  dfdu : Option (JacFn F n P)
  params : P
  u : Vec n F
  t : F
  dt : F
  uprev : Vec n F
  tprev : F
  dtprev : F
  tdir : F
  tfinal : F
  opts : Opts F
  stats : Stats
  sol : Solution F n
  cache : Cache
  trace : List (Call F n)

/-- `OdeIntegratorBuilder`, src/ode/integrator.rs:72-95 (without `alg` and `callback`, see `Integ`). -/
structure Builder (F : Type) (n : Nat) (P : Type) where
  dudt : Rhs F n P
  dfdt : Option (Rhs F n P)
  dfdu : Option (JacFn F n P)
  params : P
  u : Vec n F
  t : F
  dt : F
  tfinal : F
  opts : Opts F

/-- The trait `OdeAlgorithm`, src/ode/algorithm.rs:11-24. `new_cache` takes `&mut builder`: it returns
the changed builder, the cache and the user calls it made. `step` takes the fuel of its loop. -/
structure Algorithm (F : Type) (n : Nat) (P : Type) where
  Cache : Type
  default_opts : Opts F
  new_cache : Builder F n P → Res (Builder F n P × Cache × List (Call F n))
  step : Nat → Integ F n P Cache → Res (Integ F n P Cache)

section Builder
variable {F : Type} {n : Nat} {P : Type}

/-- `OdeIntegratorBuilder::default`, src/ode/integrator.rs:98-118. -/
def Builder.default [OfScientific F] (alg : Algorithm F n P) (dudt : Rhs F n P) (uinit : Vec n F)
    (tspan : F × F) (params : P) : Builder F n P where
  dudt := dudt
  dfdt := none
  dfdu := none
  params := params
  u := uinit
  t := tspan.1
  dt := 1e-6
  tfinal := tspan.2
  opts := alg.default_opts

/-- The builder methods, src/ode/integrator.rs:119-204 (`callback`, 205-208, is passed to `step`). -/
inductive Setter (F : Type) (n : Nat) (P : Type) where
  | dfdu (jac : JacFn F n P)
  | dfdt (jac : Rhs F n P)
  | reltol (v : F)
  | abstol (v : F)
  | dense (v : Bool)
  | dtstart (v : F)
  | dtmax (v : F)
  | max_steps (v : Nat)
  | max_newt_iter (v : Nat)
  | max_stiff (v : Nat)
  | modern_pred (v : Bool)
  | safe (v : F)
  | facr (v : F)
  | facl (v : F)
  | quot1 (v : F)
  | quot2 (v : F)
  | beta (v : F)
  | fnewt (v : F)
  | use_ext_col (v : Bool)
  | hess (v : Bool)

/-- The effect of one builder method, src/ode/integrator.rs:119-204. -/
def Builder.set (b : Builder F n P) : Setter F n P → Builder F n P
  | .dfdu j => { b with dfdu := some j }
  | .dfdt j => { b with dfdt := some j }
  | .reltol v => { b with opts := { b.opts with reltol := v } }
  | .abstol v => { b with opts := { b.opts with abstol := v } }
  | .dense v => { b with opts := { b.opts with dense := v } }
  | .dtstart v => { b with opts := { b.opts with dtstart := v } }
  | .dtmax v => { b with opts := { b.opts with dtmax := v } }
  | .max_steps v => { b with opts := { b.opts with max_steps := v } }
  | .max_newt_iter v => { b with opts := { b.opts with max_newt_iter := v } }
  | .max_stiff v => { b with opts := { b.opts with max_stiff := v } }
  | .modern_pred v => { b with opts := { b.opts with modern_pred := v } }
  | .safe v => { b with opts := { b.opts with safe := v } }
  | .facr v => { b with opts := { b.opts with facr := v } }
  | .facl v => { b with opts := { b.opts with facl := v } }
  | .quot1 v => { b with opts := { b.opts with quot1 := v } }
  | .quot2 v => { b with opts := { b.opts with quot2 := v } }
  | .beta v => { b with opts := { b.opts with beta := v } }
  | .fnewt v => { b with opts := { b.opts with fnewt := v } }
  | .use_ext_col v => { b with opts := { b.opts with use_ext_col := v } }
  | .hess v => { b with opts := { b.opts with hess := v } }

/-- A chain of builder calls `b.f1(..).f2(..)...`. -/
def Builder.sets (b : Builder F n P) (l : List (Setter F n P)) : Builder F n P := l.foldl Builder.set b

/-- `OdeIntegratorBuilder::build`, src/ode/integrator.rs:209-236. -/
def Builder.build [Sub F] [OfScientific F] [Fl F] (alg : Algorithm F n P) (b : Builder F n P) :
    Res (Integ F n P alg.Cache) :=
  (alg.new_cache b).bind fun (b, cache, calls) =>
    let sol : Solution F n := Solution.new.push b.t b.u
    .ok { dudt := b.dudt
          dfdt := b.dfdt
          dfdu := b.dfdu
          params := b.params
          u := b.u
          t := b.t
          dt := b.dt
          uprev := b.u
          tprev := b.t
          dtprev := b.dt
          tdir := Fl.copysign 1.0 (b.tfinal - b.t)
          tfinal := b.tfinal
          opts := b.opts
          stats := Stats.new
          sol := sol
          cache := cache
          trace := calls }

end Builder

section Integrator
variable {F : Type} {n : Nat} {P : Type} (alg : Algorithm F n P)

/-- A user callback `&dyn Fn(&mut OdeIntegrator)`, src/ode/integrator.rs:66. -/
abbrev Callback := Integ F n P alg.Cache → Integ F n P alg.Cache

/-- Running the callback: it may change the public fields (src/ode/integrator.rs:34-66); the crate-private
fields `dfdt`, `dfdu`, `cache` (and the ghost trace) are out of its reach. Replacing the whole integrator
by another one through the mutable reference is not modelled. -/
def applyCallback (cb : Callback alg) (s : Integ F n P alg.Cache) : Integ F n P alg.Cache :=
  { cb s with dfdt := s.dfdt, dfdu := s.dfdu, cache := s.cache, trace := s.trace }

/-- `OdeIntegrator::step`, src/ode/integrator.rs:242-253: the new state and the returned value. -/
def Integ.step (cb : Option (Callback alg)) (fuel : Nat) (s : Integ F n P alg.Cache) :
    Res (Integ F n P alg.Cache × Option Nat) :=
  (alg.step fuel s).bind fun s =>
    let s := match cb with
      | some f => applyCallback alg f s
      | none => s
    .ok (s, if s.sol.retcode = .Continue then some s.stats.steps else none)

/-- `OdeIntegrator::integrate`, src/ode/integrator.rs:255-257. The fuel bounds both the number of `step`
calls and the fuel of each of them. -/
def Integ.integrate (cb : Option (Callback alg)) : Nat → Integ F n P alg.Cache →
    Res (Integ F n P alg.Cache)
  | 0, _ => .timeout
  | fuel + 1, s =>
    (Integ.step alg cb (fuel + 1) s).bind fun
      | (s, some _) => Integ.integrate cb fuel s
      | (s, none) => .ok s

/-- `Iterator::next` of `OdeIntegratorIterator` (src/ode/integrator.rs:302-308) and of
`OdeIntegratorMutIterator` (src/ode/integrator.rs:353-359); both wrap the integrator, one by value, the
other by mutable reference, so the iterator state is the integrator state. -/
def Integ.next (cb : Option (Callback alg)) (fuel : Nat) (s : Integ F n P alg.Cache) :
    Res (Integ F n P alg.Cache × Option (F × Vec n F)) :=
  (Integ.step alg cb fuel s).bind fun
    | (s, some _) => .ok (s, some (s.t, s.u))
    | (s, none) => .ok (s, none)

/-- `for (t, u) in integrator { .. }` (with either iterator): the pairs yielded until the first `None`,
and the integrator afterwards. -/
def Integ.forLoop (cb : Option (Callback alg)) : Nat → Integ F n P alg.Cache →
    Res (Integ F n P alg.Cache × List (F × Vec n F))
  | 0, _ => .timeout
  | fuel + 1, s =>
    (Integ.next alg cb (fuel + 1) s).bind fun
      | (s, some p) => (Integ.forLoop cb fuel s).bind fun (s, ps) => .ok (s, p :: ps)
      | (s, none) => .ok (s, [])

end Integrator
end Cyphus
