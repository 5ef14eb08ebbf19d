# Formal model of cyphus-diffeq in Lean 4

## Approach

The model is a function-by-function transcription of the Rust source into total Lean functions, **generic in the
arithmetic**. A number type `F` carries the operations the code uses (`+ - * /`, unary minus, decimal literals,
`abs sqrt max min powf powi copysign mul_add < <= > >= ==`, `as f64`, `EPSILON`, `INFINITY`) and *no laws*. A theorem is
stated at the strongest level at which it holds:

* **G**: for every `F` and every interpretation of the operations. Such a theorem holds for IEEE-754 `f64` with
  rounding, NaN, infinities, signed zeros and whatever `powf` the platform has, because nothing is assumed.
* **G + laws**: for every `F` that satisfies a small, named list of laws which `f64` satisfies (`NaNLaws`:
  NaN propagates; see `Verif/Spec/NaN.lean`).
* **X**: for `X` = real numbers with NaN and the two infinities (`Verif/Arith/X.lean`): exact arithmetic, IEEE special
  values (division by zero, comparisons with NaN, Rust's NaN-ignoring `max`/`min`), one zero, no rounding, no overflow.
* **F**: for every floating-point arithmetic satisfying `FloatLaws` (`Verif/Spec/Float.lean`): the basic operations are
  the exact ones followed by a monotone rounding; overflow, underflow and NaN included; of `powf` only that powers of
  numbers `>= 1` are `>= 1` (nonnegative exponent) or in `[0, 1]` (nonpositive exponent). `Verif/Arith/Binary64.lean`
  defines IEEE-754 doubles with round-to-nearest-even, gradual underflow and overflow (but one zero, and correctly
  rounded `powf`, `powi`) as the type `B64` and proves the laws for it; some theorems are about `B64` itself.
* **R**: statements about real numbers (or any field, or complex numbers) where no special value can occur, such as the
  LU routines run in a linear ordered field, the Runge-Kutta algebra, the order conditions and the constants; and
  statements about code without numbers.

`&mut` functions become state transformers returning the new value. Panics are an explicit result `Res.panic`. Loops
without a syntactic bound take fuel and return `Res.timeout` when it runs out, so termination and non-termination are
theorems and not assumptions: "returns" means "some fuel gives `ok`" (`StepReturns`, `IntegrateReturns`), "never
returns" means "every fuel gives `timeout`".

The user's right-hand side is a pure function `P → Vec → Vec → F → Vec` of the parameters, the *old* contents of its
output buffer, the state and the time (it may leave buffer entries untouched). Every call is appended to a ghost
trace, so the order and the arguments of the calls of the right-hand side and of the Jacobian are observable effects.
The callback is a function on the public fields of the integrator.

## Layout

* `Verif/Arith.lean`, `Verif/Arith/*` number interface and its instances (`X`, real numbers, doubles).
* `Verif/Ode/*`, `Verif/DP5/Model.lean`, `Verif/Linalg/Model.lean`, `Verif/Radau/Model.lean`, `Verif/Dae/Model.lean`,
  `Verif/Rodas/*` the model. Every definition cites the file and the lines it transcribes.
* `Verif/Spec/*` specifications which do not mention the model: last-write-wins (`Builder`), explicit Runge-Kutta steps
  (`RungeKutta`), rooted trees and order conditions (`OrderConditions`), runs and recorded points (`Problem`),
  determinant and linear systems (`Linear`), difference quotients (`Jacobian`), the Radau IIA method, its transformed
  Newton iteration, error estimate and continuous extension (`RadauIIA`), `NaN`, floating-point laws (`Float`),
  right-hand sides in double precision (`Double`), Rosenbrock methods (`Rosenbrock`),
  decaying components and dissipative systems (`Decay`); the others are named in the table below.
* `Verif/Proofs/*` lemmas. `Verif/Props/*` the property theorems (names start with the id of the property) with
  cases that meet their hypotheses (the ones for Radau5 are in `Props/RadauExamples.lean` and `Props/RadauDecay.lean`).
* `MANIFEST.json` lists the theorems of each property; `AXIOMS.md` lists level, file and axioms of each theorem;
  `seeded/LOG.jsonl` the mutation tests.

## Vocabulary of the statements

* `b.build alg = .ok s0`: `s0` is the integrator returned by `build()`.
* `StepReturns alg cb s o s'`: `step()` called on `s` returns `o` and leaves `s'`. `Steps alg cb k s s'`: `k` calls of
  `step()`. `SomeSteps`: `k` calls which all returned `Some`. `IntegrateReturns`.
* `Recorded s.sol l`: the recorded points are the finite points `l`.
* `DP5.Problem`/`Radau.RealProblem b f jac u0`: the right-hand side computes the real function `f` (and overwrites its
  output), the Jacobian used is `jac` (the user's one, or the difference quotients of `f`), the initial state is `u0`.
* `Radau.Timed C b`: the times and controller options of `b` are the finite numbers in `C : Radau.Clock`; `C.Sane`:
  `safe <= 1`, `facl >= 1`, `quot1 >= 1`.
* `Spec.FirstNotEigen`: excludes the matrices for which the LU routine does nothing (first column zero, see C35).

## Properties

| id | modelled | level, proof |
|----|----------|-------|
| C01 | builder, all setters, build | G, induction on the list of setters |
| C02 | build, new_cache of both algorithms | G, computation |
| C03 | Radau5 new_cache | X, real powers |
| C04 | all of both algorithms | G, simulation relation "equal up to the ignored fields" preserved by every function |
| C05 | step, integrate | G, induction on fuel |
| C06 C07 | step of both algorithms | G, invariants over step calls |
| C08 | solution iterators as state machines | G, induction |
| C09 | integrator iterators as state machines | G, induction on the run |
| C10 | step of both algorithms | G, invariant |
| C11 | step, integrate | G, counter invariants |
| C12 | Radau5 step with Newton and decomposition loops | G, measure max_steps - steps, bounds for inner loops |
| C13 | DP5 step | X, geometric decrease of dt, error estimate O(dt) for bounded right-hand sides |
| C14 | DP5 step | G + NaNLaws, every attempt is rejected |
| C15 C16 | DP5 step; Radau5 step | X, invariant du = f(t,u); float versions at level G for one step; error norms as real formulas |
| C17 | attempts of both algorithms | G, frame property |
| C18 | DP5 constants | R, all rooted trees up to order 5, order 6 fails |
| C19 C20 | DP5 stages and runs | R algebra for one step, X for runs |
| C21 C22 | DP5 runs | X, from C15 |
| C23 C57 | DP5 runs | X, simulation |
| C24 C25 C30 | DP5 runs | X, invariants |
| C26 | DP5 runs with tfinal < t0 | X, invariant |
| C27 C28 C29 C56 | controllers of both algorithms | X, case analysis over special values |
| C31 C32 | both algorithms | G, counter invariants |
| C33 | both algorithms | X |
| C34 C35 C36 | dec, sol | R (linear ordered field), elimination = row operations, triangular solves, determinant |
| C37 C38 | decc, solc | R, the same over complex numbers as pairs |
| C39 | dech, solh | R, band invariant |
| C40 | dechc, solhc | R, counterexample family; the pair works with the other solver |
| C41 C42 | jacobian_u, jacobian_t | G, loop invariant; X for affine right-hand sides |
| C43 | newton, linear_solve, constants | X, a pass solves the transformed system; R, accuracy of the constants |
| C44 | Radau5 step | X, which step size and Jacobian the factorization belongs to; run with a stale factorization |
| C45 | both algorithms | G, invariants |
| C46 C47 | dense output of both | X |
| C48 | DP5 prepare_next_step | G |
| C49 C50 | step with callback | G; X for the effect on the next step |
| C51 C52 | Radau5 runs | X, invariant affine subspaces |
| C53 | Radau5 runs | G |
| C54 | dae/problem.rs | decision logic |
| C55 | rodas/algorithm.rs | G, computation |
| C58 C59 | Radau5 runs | X, invariant over attempts, all failure branches |
| C60 | Radau5 step on linear problems | X + complex analysis of the stability function, uniform in the number of Newton passes |
| C61 | Radau5 runs on linear problems | X, telescoping of C60 |
| C62 | both algorithms | G, invariant "the step marked as the last one ends at tfinal"; F (doubles) for exactness and its failure |
| C63 | DP5 runs | F, invariant over attempts with monotone rounding; doubles |
| C64 | Radau5 runs | F, invariant over attempts, decompositions and Newton iterations with monotone rounding; doubles |
| C65 | DP5, Radau5 runs | X, finiteness propagated backwards from the accepted error (DP5) or increment norm (Radau5, through `sol`/`solc` with the pivots of C66) |
| C66 | `dec`, `decc`, `sol`, `solc`, Radau5 runs | G, invariant of the pivot vectors; relational argument for the solves |
| C67 | Radau5 runs, DP5 `step()` | X, the scale of the norm stays NaN or zero, resp. invariant over attempts |
| C68 | DP5 runs | X + R, Taylor expansion of the stages around the solution (local error of order six), Lipschitz bound of the step on a compact tube, discrete Gronwall along the recorded points |
| C69 | DP5 runs | X, invariant: every step but the last is at least `d`, because the error estimate is at most `h M / abstol`; on smooth problems the states stay in the tube of C68 |
| C70 | both integrators | G, relation between two runs: a step commutes with replacing `dense`, the dense coefficients and `max_steps` unless the limit is hit (`Proofs/Cut.lean`) |
| C71 | both integrators | F (so also doubles), the same relation with `tfinal` replaced, as long as neither run clamps a step; rounding is monotone, so the test is false for the later end as well |
| C72 | `decb`, `solb`, `decbc`, `solbc`, `elmhes` (`Linalg/Banded.lean`) | G, invariant of the outer loop for tridiagonal matrices; R for 2 × 2 and 3 × 3 matrices |
| C73 | `integrate`, `step` of `DormandPrince5` against the transition system `Spec/Adaptive.lean` | X, simulation in both directions |
| C74 | Radau5 `step`, `step_size_control` against the rules of `Spec/RadauLaw.lean` | X, invariant over attempts (each failed attempt is one of the published reductions), memory of the controller as an invariant over calls |
| C75 | `prepare_dense`, `dense_output` of `DormandPrince5` over runs | X + R, Taylor expansion of the stages (uniform local error of order five of the continuous extension), its Lipschitz bound in the state, and C68 |
| C76 | `newton`, `step`, `step_size_control` of `Radau5` over runs | X, the passes of the last iteration counted along the loop, the starting values followed back to the accepted attempt of the call before, interpolation by the stored divided differences |
| C77 | `Radau5` over forward runs | X + R, Taylor expansion of the solution in the collocation equations (stage order three, order five up to the digits of the constants), contraction of the simplified Newton iteration for small steps with any bounded Jacobian, bounds for the starting values along the run (C76), discrete Gronwall; the order of the step count `m` of passes is the order proved, the steps of C44 with a stale factorization are excluded |
| C78 | DP5 forward runs in double precision | F for the concrete doubles `B64`: error of each rounded operation (`Proofs/Round64`), of the decimal and quotient coefficients, of the arguments, stages and new state of a step (`Proofs/DP5Round`: one step is within `2 (t' - t) D + E` of the exact one), then the discrete Gronwall argument of C68; the step length is taken as the difference of the recorded times, so the rounding of the times enters through the Lipschitz constant in time |
| C79 | Radau5 forward runs with `use_ext_col = false` and `quot2 < quot1`, conditions in `Spec/RadauSuccess.lean` | X, invariant over calls: every step but the last is at least `d`. A step up to `hs` converges in one pass with a small error (`Proofs/RadauTry`), so it is accepted and does not shrink; a failed attempt shrinks the step by a factor between two bounds. Not covered: kept factorizations and extrapolated starting values, where a Newton failure is retried with the old factors |
| C80 | `new_cache`, `step` and everything it calls, of `Radau5` over runs; specification `Spec/RadauAlgorithm.lean` | X, refinement: a relation between the integrator and the abstract state is kept by every attempt (`Proofs/RadauTrial`) and every Newton pass (`Proofs/RadauSim`), then induction over the calls; the transition system is deterministic (`Proofs/RadauDet`). Three departures of the code from the published algorithm are part of the specification, marked (*): `caljac` is never set to true in the source, and src/radau/newton.rs:170 tests `if caljac` where the other failure branches test `if !caljac` |
| C81 | all functions of both algorithms that call user code, `build`, `step`, `integrate`; specification `Spec/Local.lean` | G and F: each function commutes with the exchange of the user functions provided they agree at the calls it adds to the trace (`Proofs/Local`), composed along the code, fuel induction for the loops; with C63 and C64 for double precision. No callback |
| C82 | Radau5 runs with tfinal < t0 | X: within a call of `step` every attempted step is the first one times a factor in (0, 1] (`Proofs/RadauBack`, either direction); then an invariant over the calls. `quot1 = 1` is needed: with `quot1 > 1` the proposal may pass `tfinal` and the test for the last step does not catch it |
| C83 | Radau5, whole runs; `Spec/Dissipative.lean` (matrices without growing modes) | X for `SingularMatrix`: the step stays positive through `newton`, `rejectStep` and the proposals (invariant `Fit` at the loop head), the cached Jacobian is the one at some recorded point, and `γ/h − J`, `(α + iβ)/h − J` are regular for `h > 0`, so the factorisations succeed; G for the other codes, from the four ways the loop ends |
| C84 | Both solvers, whole runs; `Spec/Units.lean` (the changed problem, what users see) | X for `c ≠ 0`, double precision for `c = -1`: every function of the model commutes with the change of units (`Proofs/Units.lean`, `Proofs/UnitsDP5.lean`) in any arithmetic with the laws `Scaling`/`Scaling2`, which are proved for `X` and for the change of sign in `B64`; the finite-difference Jacobian of Radau5 is not homogeneous (its increments have an absolute part), hence the user's Jacobian |
| C85 | Whole forward runs of Radau5, both sides; `Spec/Symmetry.lean` (the coordinates) | X: the textbook algorithm of C80 commutes with the change of coordinates (`Proofs/RadauSymmetry.lean`: eigenvalues, Newton passes, norms, extrapolation, error estimates, controller), it is deterministic, and both runs follow it (C80). Pivoting may differ in the two runs, but not the solutions of the linear systems. Not claimed: that both runs fail alike, since the smallest step size depends on the absolute time and the defect of the LU routine (C35) on the first column of the matrix; the hypothesis `FirstNotEigen` excludes the latter. For DormandPrince5 see C23 and C57 |
| C86 | Forward runs of DP5 on `u_i' = -lam_i (u_i - g_i)` with any rates | X: the stability polynomial R and the polynomial Q of the error estimate (C20) satisfy abs R ≤ 1 or 0.65 abs R ≤ Q on the whole negative axis (expansions with nonnegative coefficients on [0, 3.3] and [3.3, ∞)); with the error test of C16 one accepted step cannot leave the bound; induction over the recorded states. Only diagonal problems: coupled ones are in C88 |
| C87 | As C86; the exact solution is `Spec.relax` (shown to solve the equation) | X: 0.65 abs (R(x) - exp(-x)) ≤ Q(x) for all x ≥ 0 (alternating Taylor bounds of the exponential), so the true error of a step is at most its estimate / 0.65; the error test of C16, the bound of C86 and induction over the recorded states. Only diagonal problems; coupled ones, in another norm, are in C88 |
| C88 | Forward runs of DP5 on `u' = -A (u - g)` with `w · A w ≥ 0`; `y` is any solution of the equation with `y t0 = u0` | X: in the error estimate (C20) the terms of degree 5, 6, 7 in hA have signs such that its scalar product with the middle one bounds (13/40000) ‖(hA)^6 w‖; the step is the Taylor polynomial of degree 5 plus (hA)^6 w / 600; the Taylor polynomial differs from the exact solution by at most ‖(hA)^6 w‖ / 720 more than at the beginning of the step (energy estimate); induction over the recorded states. For symmetric A: orthonormal eigenvectors and the inequality of C87 in each of them |
| C89 | rodas/constants.rs (`Rodas/Constants.lean`) as decimals | `Spec/Rosenbrock.lean` (order conditions, transformed form); the inverse of the matrix of the C is given and checked, the conditions are evaluated by the kernel over the whole table. How the constants are combined into stages is not in the code and taken from the literature. BET2P to BET4P and the constants D21 to D35 of the continuous extension are not covered |

## Trusted base

* Lean's kernel (the build also replays every module through it).
* The axioms `propext`, `Classical.choice`, `Quot.sound` (per theorem: AXIOMS.md). No other axiom, no `sorry`, no
  `native_decide` or `bv_decide`, no `implemented_by`, no `unsafe`.
* The statements: the definitions in `Verif/Spec` and the model.
* The faithfulness of the transcription. Each definition cites the lines it models; simplifications are named there.

Modelled: all of `src/ode` (builder, options, statistics, solution and its iterators, integrator and its iterators,
callback, Jacobians), `src/dorm_prince/dp5`, `src/radau`, all of `src/linalg`,
`src/rodas/algorithm.rs`, `src/rodas/constants.rs`, `src/dae/problem.rs` (not compiled into the crate).

Not modelled: `ndarray` (shape mismatches, strides; vectors are functions on `Fin n`), user closures that keep state or
panic, overflow of `usize` counters, memory, performance, `Debug` output; files which are not compiled (`src/rodas/alg.rs`, `src/rodas/core.rs`,
`src/dorm_prince/dp8*`).

Simplifications: `f64` literals are their decimal values at level X and R (in Rust they are rounded to 53 bits);
`Array1::fill`/`assign` are plain replacement; the work arrays `z`, `f`, `cont` of Radau5, which are views of one array
in the source, are separate vectors; a callback may change the public fields only.

## Mutation tests

`seeded/LOG.jsonl` has one line per attempt: a definition of the model was edited in a scratch copy the way a wrong
program would differ, everything downstream was rebuilt (tolerating errors), and the theorems of MANIFEST.json that no
longer hold were listed. Where the claim of a property became false and its theorems still passed, they were tightened.
