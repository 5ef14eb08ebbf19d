import Verif.Ode.Basic
/-!
# Model of `src/dorm_prince/dp5`
-/

namespace Cyphus
namespace DP5

section Constants
variable {F : Type} [Div F] [Neg F] [OfScientific F]
/-! Constants, src/dorm_prince/dp5/constants.rs:3-45. -/
/-- constants.rs:5 -/ def C2 : F := 0.2
/-- constants.rs:6 -/ def C3 : F := 0.3
/-- constants.rs:7 -/ def C4 : F := 0.8
/-- constants.rs:8 -/ def C5 : F := 8.0 / 9.0
/-- constants.rs:10 -/ def A21 : F := 0.2
/-- constants.rs:11 -/ def A31 : F := 3.0 / 40.0
/-- constants.rs:12 -/ def A32 : F := 9.0 / 40.0
/-- constants.rs:13 -/ def A41 : F := 44.0 / 45.0
/-- constants.rs:14 -/ def A42 : F := -56.0 / 15.0
/-- constants.rs:15 -/ def A43 : F := 32.0 / 9.0
/-- constants.rs:16 -/ def A51 : F := 19372.0 / 6561.0
/-- constants.rs:17 -/ def A52 : F := -25360.0 / 2187.0
/-- constants.rs:18 -/ def A53 : F := 64448.0 / 6561.0
/-- constants.rs:19 -/ def A54 : F := -212.0 / 729.0
/-- constants.rs:20 -/ def A61 : F := 9017.0 / 3168.0
/-- constants.rs:21 -/ def A62 : F := -355.0 / 33.0
/-- constants.rs:22 -/ def A63 : F := 46732.0 / 5247.0
/-- constants.rs:23 -/ def A64 : F := 49.0 / 176.0
/-- constants.rs:24 -/ def A65 : F := -5103.0 / 18656.0
/-- constants.rs:26 -/ def A71 : F := 35.0 / 384.0
/-- constants.rs:27 -/ def A73 : F := 500.0 / 1113.0
/-- constants.rs:28 -/ def A74 : F := 125.0 / 192.0
/-- constants.rs:29 -/ def A75 : F := -2187.0 / 6784.0
/-- constants.rs:30 -/ def A76 : F := 11.0 / 84.0
/-- constants.rs:32 -/ def E1 : F := 71.0 / 57600.0
/-- constants.rs:33 -/ def E3 : F := -71.0 / 16695.0
/-- constants.rs:34 -/ def E4 : F := 71.0 / 1920.0
/-- constants.rs:35 -/ def E5 : F := -17253.0 / 339200.0
/-- constants.rs:36 -/ def E6 : F := 22.0 / 525.0
/-- constants.rs:37 -/ def E7 : F := -1.0 / 40.0
/-- constants.rs:39 -/ def D1 : F := -12715105075.0 / 11282082432.0
/-- constants.rs:40 -/ def D3 : F := 87487479700.0 / 32700410799.0
/-- constants.rs:41 -/ def D4 : F := -10690763975.0 / 1880347072.0
/-- constants.rs:42 -/ def D5 : F := 701980252875.0 / 199316789632.0
/-- constants.rs:43 -/ def D6 : F := -1453857185.0 / 822651844.0
/-- constants.rs:44 -/ def D7 : F := 69997945.0 / 29380423.0
end Constants

/-- `DormandPrince5Cache`, src/dorm_prince/dp5/cache.rs:3-25. -/
structure Cache (F : Type) (n : Nat) where
  n_stiff : Nat
  n_nonstiff : Nat
  reject : Bool
  last : Bool
  facold : F
  dtlamb : F
  k2 : Vec n F
  k3 : Vec n F
  k4 : Vec n F
  k5 : Vec n F
  k6 : Vec n F
  rcont1 : Vec n F
  rcont2 : Vec n F
  rcont3 : Vec n F
  rcont4 : Vec n F
  rcont5 : Vec n F
  unew : Vec n F
  du : Vec n F
  dunew : Vec n F
  uerr : Vec n F
  ustiff : Vec n F

/-- `OdeIntegrator<Params, DormandPrince5>`. -/
abbrev St (F : Type) (n : Nat) (P : Type) := Integ F n P (Cache F n)

section Model
variable {F : Type} {n : Nat} {P : Type}
  [Add F] [Sub F] [Mul F] [Div F] [Neg F] [OfScientific F] [Fl F]

/-- `default_opts`, src/dorm_prince/dp5/algorithm.rs:9-19. -/
def default_opts [FlInf F] : Opts F :=
  { (Opts.new : Opts F) with
    reltol := 1e-3
    abstol := 1e-7
    beta := 0.04
    facr := 10.0
    facl := 0.2
    max_stiff := 1000
    max_steps := 100000 }

/-- `new_cache`, src/dorm_prince/dp5/algorithm.rs:20-54. -/
def new_cache (b : Builder F n P) : Res (Builder F n P × Cache F n × List (Call F n)) :=
  let zeros : Vec n F := fun _ => 0.0
  let du := b.dudt b.params zeros b.u b.t
  .ok (b,
    { n_stiff := 0
      n_nonstiff := 0
      reject := false
      last := false
      facold := 0.0
      dtlamb := 0.0
      k2 := zeros
      k3 := zeros
      k4 := zeros
      k5 := zeros
      k6 := zeros
      rcont1 := zeros
      rcont2 := zeros
      rcont3 := zeros
      rcont4 := zeros
      rcont5 := zeros
      unew := zeros
      du := du
      dunew := zeros
      uerr := zeros
      ustiff := zeros },
    [Call.rhs b.t b.u])

/-- `compute_stages`, src/dorm_prince/dp5/stages.rs:7-106. `unew` is reused for the intermediate stage
arguments in the source (8, 18, 31, 45, 78); here each assignment has its own name. -/
def compute_stages (s : St F n P) : St F n P :=
  let c := s.cache
  let dt := s.dt
  let unew2 : Vec n F := fun i => s.u i + dt * A21 * c.du i
  let t2 := s.t + C2 * dt
  let k2 := s.dudt s.params c.k2 unew2 t2
  let unew3 : Vec n F := fun i => s.u i + dt * (A31 * c.du i + A32 * k2 i)
  let t3 := s.t + C3 * dt
  let k3 := s.dudt s.params c.k3 unew3 t3
  let unew4 : Vec n F := fun i => s.u i + dt * (A41 * c.du i + A42 * k2 i + A43 * k3 i)
  let t4 := s.t + C4 * dt
  let k4 := s.dudt s.params c.k4 unew4 t4
  let unew5 : Vec n F := fun i => s.u i + dt * (A51 * c.du i + A52 * k2 i + A53 * k3 i + A54 * k4 i)
  let t5 := s.t + C5 * dt
  let k5 := s.dudt s.params c.k5 unew5 t5
  let ustiff : Vec n F := fun i =>
    s.u i + dt * (A61 * c.du i + A62 * k2 i + A63 * k3 i + A64 * k4 i + A65 * k5 i)
  let tph := s.t + dt
  let k6 := s.dudt s.params c.k6 ustiff tph
  let unew : Vec n F := fun i =>
    s.u i + dt * (A71 * c.du i + A73 * k3 i + A74 * k4 i + A75 * k5 i + A76 * k6 i)
  let dunew := s.dudt s.params c.dunew unew tph
  let uerr : Vec n F := fun i =>
    dt * (E1 * c.du i + E3 * k3 i + E4 * k4 i + E5 * k5 i + E6 * k6 i + E7 * dunew i)
  { s with
    cache := { c with
      k2 := k2, k3 := k3, k4 := k4, k5 := k5, k6 := k6
      ustiff := ustiff, unew := unew, dunew := dunew, uerr := uerr }
    stats := { s.stats with function_evals := s.stats.function_evals + 6 }
    trace := s.trace ++ [Call.rhs t2 unew2, Call.rhs t3 unew3, Call.rhs t4 unew4, Call.rhs t5 unew5,
      Call.rhs tph ustiff, Call.rhs tph unew] }

/-- `error`, src/dorm_prince/dp5/error.rs:6-17. -/
def error (s : St F n P) : F :=
  let err := sumLoop n 0.0 fun i =>
    let sk := s.opts.abstol + s.opts.reltol * Fl.max (Fl.abs (s.u i)) (Fl.abs (s.cache.unew i))
    let sqr := s.cache.uerr i / sk
    sqr * sqr
  Fl.sqrt (err / Fl.ofNat n)

/-- `prepare_dense`, src/dorm_prince/dp5/dense.rs:8-32. -/
def prepare_dense (s : St F n P) : St F n P :=
  let c := s.cache
  let rcont1 : Vec n F := s.u
  let rcont2 : Vec n F := fun i => c.unew i - s.u i
  let rcont3 : Vec n F := fun i => s.dt * c.du i - rcont2 i
  let rcont4 : Vec n F := fun i => rcont2 i - s.dt * c.dunew i - rcont3 i
  let rcont5 : Vec n F := fun i =>
    s.dt * (D1 * c.du i + D3 * c.k3 i + D4 * c.k4 i + D5 * c.k5 i + D6 * c.k6 i + D7 * c.dunew i)
  { s with cache := { c with
      rcont1 := rcont1, rcont2 := rcont2, rcont3 := rcont3, rcont4 := rcont4, rcont5 := rcont5 } }

/-- `dense_output`, src/dorm_prince/dp5/dense.rs:35-50. -/
def dense_output (s : St F n P) (t dt : F) : Vec n F :=
  let x := (t - s.tprev) / dt
  let x1 := 1.0 - x
  fun i => s.cache.rcont1 i + x * (s.cache.rcont2 i + x1 * (s.cache.rcont3 i
    + x * (s.cache.rcont4 i + x1 * s.cache.rcont5 i)))

/-- The body of the stiffness test, src/dorm_prince/dp5/prepare.rs:36-58. -/
def stiffness (s : St F n P) : St F n P :=
  let c := s.cache
  let stnum := sumLoop n 0.0 fun i => let sqr := c.k2 i - c.k6 i; sqr * sqr
  let stden := sumLoop n 0.0 fun i => let sqr := c.unew i - c.ustiff i; sqr * sqr
  let c := if Fl.gt stden 0.0 then { c with dtlamb := s.dt * Fl.sqrt (stnum / stden) } else c
  let c :=
    if Fl.gt c.dtlamb 3.25 then
      { c with n_nonstiff := 0, n_stiff := c.n_stiff + 1 }
    else
      let c := { c with n_nonstiff := c.n_nonstiff + 1 }
      if c.n_nonstiff = 6 then { c with n_stiff := 0 } else c
  { s with cache := c }

/-- `fac11`, src/dorm_prince/dp5/prepare.rs:9-19. -/
def fac11 (o : Opts F) (t_err : F) : F := Fl.powf t_err (0.2 - Fl.powf o.beta 0.75)

/-- The quotient `fac` of the old and the proposed step, src/dorm_prince/dp5/prepare.rs:9-23. -/
def stepFac (o : Opts F) (facold t_err : F) : F :=
  let fac1 := 1.0 / o.facl
  let fac2 := 1.0 / o.facr
  let fac := fac11 o t_err / Fl.powf facold o.beta
  Fl.max fac2 (Fl.min fac1 (fac / o.safe))

/-- The accepted branch, src/dorm_prince/dp5/prepare.rs:26-77 (the remainder of line 33 panics for
`max_stiff = 0`, see `prepare_next_step`). -/
def acceptStep (t_err dtnew : F) (s : St F n P) : St F n P :=
  let s := { s with
    cache := { s.cache with facold := Fl.max t_err 1e-4 }
    stats := { s.stats with accepts := s.stats.accepts + 1 } }
  let s :=
    if s.stats.accepts % s.opts.max_stiff = 0 ∨ s.cache.n_stiff > 0 then stiffness s else s
  let s := if s.opts.dense then prepare_dense s else s
  let s := { s with
    cache := { s.cache with du := s.cache.dunew }
    uprev := s.u
    u := s.cache.unew
    tprev := s.t
    t := s.t + s.dt }
  let dtnew := if Fl.gt (Fl.abs dtnew) s.opts.dtmax then s.tdir * s.opts.dtmax else dtnew
  let dtnew :=
    if s.cache.reject then s.tdir * Fl.min (Fl.abs dtnew) (Fl.abs s.dt) else dtnew
  { s with
    cache := { s.cache with reject := false }
    dtprev := s.dt
    dt := dtnew }

/-- The rejected branch, src/dorm_prince/dp5/prepare.rs:78-89. -/
def rejectStep (t_err : F) (s : St F n P) : St F n P :=
  let dtnew := s.dt / Fl.min (1.0 / s.opts.facl) (fac11 s.opts t_err / s.opts.safe)
  { s with
    cache := { s.cache with reject := true, last := false }
    stats := { s.stats with
      rejects := if s.stats.accepts ≥ 1 then s.stats.rejects + 1 else s.stats.rejects }
    dtprev := s.dt
    dt := dtnew }

/-- `prepare_next_step`, src/dorm_prince/dp5/prepare.rs:7-90. The remainder by `max_stiff` (line 33)
panics when `max_stiff` is zero. -/
def prepare_next_step (t_err : F) (s : St F n P) : Res (St F n P) :=
  let dtnew := s.dt / stepFac s.opts s.cache.facold t_err
  if Fl.le t_err 1.0 then
    if s.opts.max_stiff = 0 then .panic else .ok (acceptStep t_err dtnew s)
  else .ok (rejectStep t_err s)

/-- One pass through the loop body up to the break, src/dorm_prince/dp5/algorithm.rs:66-68. -/
def attempt (s : St F n P) : Res (St F n P) :=
  let s := compute_stages s
  let err := error s
  prepare_next_step err s

/-- The too-small-step test after a rejected attempt, src/dorm_prince/dp5/algorithm.rs:72-74. Note that
it does not leave the loop. -/
def checkDtMin (s : St F n P) : St F n P :=
  if Fl.le (Fl.abs s.dt) (Fl.abs s.t * Fl.eps) then
    { s with sol := { s.sol with retcode := .DtLessThanMin } }
  else s

/-- The loop, src/dorm_prince/dp5/algorithm.rs:65-75. -/
def attemptLoop : Nat → St F n P → Res (St F n P)
  | 0, _ => .timeout
  | fuel + 1, s =>
    (attempt s).bind fun s =>
      if !s.cache.reject then .ok s
      else attemptLoop fuel (checkDtMin s)

/-- The adjustment of the step to hit `tfinal`, src/dorm_prince/dp5/algorithm.rs:61-64. -/
def clampLast (s : St F n P) : St F n P :=
  if Fl.gt ((s.t + 1.01 * s.dt - s.tfinal) * s.tdir) 0.0 then
    { s with dt := s.tfinal - s.t, cache := { s.cache with last := true } }
  else s

/-- The end of a step: counting, recording, return code, src/dorm_prince/dp5/algorithm.rs:77-86. -/
def finishStep (s : St F n P) : St F n P :=
  let s := { s with
    stats := { s.stats with steps := s.stats.steps + 1 }
    sol := s.sol.push s.t s.u }
  let s := if s.stats.steps > s.opts.max_steps then
    { s with sol := { s.sol with retcode := .MaxIters } } else s
  if s.cache.last then { s with sol := { s.sol with retcode := .Success } } else s

/-- `OdeAlgorithm::step` for `DormandPrince5`, src/dorm_prince/dp5/algorithm.rs:57-87. -/
def step (fuel : Nat) (s : St F n P) : Res (St F n P) :=
  (attemptLoop fuel (clampLast s)).bind fun s => .ok (finishStep s)

/-- `impl OdeAlgorithm for DormandPrince5`, src/dorm_prince/dp5/algorithm.rs:7-88. -/
@[reducible] def alg [FlInf F] : Algorithm F n P where
  Cache := Cache F n
  default_opts := default_opts
  new_cache := new_cache
  step := step

end Model
end DP5
end Cyphus
