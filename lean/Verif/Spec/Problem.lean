import Verif.Ode.Basic
import Verif.Arith.X
/-!
# Specification vocabulary: problems in exact arithmetic
-/

namespace Cyphus
open X
set_option autoImplicit false
noncomputable section
variable {n : ℕ} {P : Type}

/-- The user's right-hand side, given the parameters `p`, computes the real function `f` on finite
arguments and overwrites its output. -/
def Lifts (dudt : Rhs X n P) (p : P) (f : ℝ → (Fin n → ℝ) → Fin n → ℝ) : Prop :=
  ∀ buf t u, dudt p buf (fv u) (fin t) = fv (f t u)

/-- The recorded solution consists of exactly the points `l`, all of them finite. -/
def Recorded (sol : Solution X n) (l : List (ℝ × (Fin n → ℝ))) : Prop :=
  sol.ts = l.map (fun p => fin p.1) ∧ sol.us = l.map (fun p => fv p.2)

/-- `f` is bounded on some neighbourhood of `(t, u)`. -/
def LocallyBounded (f : ℝ → (Fin n → ℝ) → Fin n → ℝ) (t : ℝ) (u : Fin n → ℝ) : Prop :=
  ∃ δ > 0, ∃ M, ∀ t' u', |t' - t| ≤ δ → (∀ i, |u' i - u i| ≤ δ) → ∀ i, |f t' u' i| ≤ M

namespace DP5

/-- Options for which the error norm is a finite number. -/
structure Tol (o : Opts X) (a r : ℝ) : Prop where
  abstol : o.abstol = fin a
  reltol : o.reltol = fin r
  abs_pos : 0 < a
  rel_nonneg : 0 ≤ r

/-- The controller options are finite and positive, `dtmax` is positive (possibly infinite), the
stiffness test does not panic. -/
structure Ctl (o : Opts X) (sf fl fr be : ℝ) (mx : Option ℝ) : Prop where
  safe : o.safe = fin sf
  facl : o.facl = fin fl
  facr : o.facr = fin fr
  beta : o.beta = fin be
  safe_pos : 0 < sf
  facl_pos : 0 < fl
  facr_pos : 0 < fr
  beta_nonneg : 0 ≤ be
  dtmax : o.dtmax = match mx with | none => pinf | some m => fin m
  dtmax_pos : ∀ m ∈ mx, 0 < m
  stiff : o.max_stiff ≠ 0

/-- The exponent of the error in the controller. -/
def expo (be : ℝ) : ℝ := 0.2 - be ^ (0.75 : ℝ)

/-- The data of a problem: right-hand side, direction and end of integration, tolerances, controller
options. -/
structure Env (n : ℕ) where
  f : ℝ → (Fin n → ℝ) → Fin n → ℝ
  d : ℝ
  tf : ℝ
  a : ℝ
  r : ℝ
  sf : ℝ
  fl : ℝ
  fr : ℝ
  be : ℝ
  mx : Option ℝ

/-- Options for which the controller behaves as intended: the step is reduced after a rejected attempt. The
defaults satisfy this, see `default_sane`. -/
structure Env.Sane (E : Env n) : Prop where
  safe : E.sf ≤ 1
  facl : E.fl ≤ 1
  expo : 0 ≤ expo E.be

/-- The options a builder chain produces are those of `E`, the initial data and the right-hand side too. -/
structure Problem (E : Env n) (b : Builder X n P) (t0 : ℝ) (u0 : Fin n → ℝ) : Prop where
  rhs : Lifts b.dudt b.params E.f
  u : b.u = fv u0
  t : b.t = fin t0
  dt : b.dt = 1e-6
  tfinal : b.tfinal = fin E.tf
  dir : E.d = if 0 ≤ E.tf - t0 then 1 else -1
  tol : Tol b.opts E.a E.r
  ctl : Ctl b.opts E.sf E.fl E.fr E.be E.mx
  dim : n ≠ 0

/-- Component `i` of the new system is `w i` times component `σ i` of the old one. -/
def relabel {m : ℕ} (w : Fin m → ℝ) (σ : Fin m → Fin n) (u : Fin n → ℝ) : Fin m → ℝ := fun i => w i * u (σ i)

/-- `E'` is the problem `E` in other units: the time origin is moved by `c`, the components are relabelled by `σ`
(each old component occurs equally often, for instance once), all are rescaled by the same factor `lam > 0` up to
sign, and `abstol` is rescaled by `lam`. Everything else is the same. -/
structure Related {m : ℕ} (c lam : ℝ) (w : Fin m → ℝ) (σ : Fin m → Fin n) (E : Env n) (E' : Env m) : Prop where
  rhs : ∀ t u, E'.f (t + c) (relabel w σ u) = relabel w σ (E.f t u)
  scale : ∀ i, |w i| = lam
  pos : 0 < lam
  fibres : ∃ q, q ≠ 0 ∧ ∀ j, (Finset.univ.filter fun i => σ i = j).card = q
  abstol : E'.a = lam * E.a
  reltol : E'.r = E.r
  tfinal : E'.tf = E.tf + c
  safe : E'.sf = E.sf
  facl : E'.fl = E.fl
  facr : E'.fr = E.fr
  beta : E'.be = E.be
  dtmax : E'.mx = E.mx

end DP5

namespace Radau

/-- The times and the controller options of a problem for `Radau5`: start and end of the integration, `safe`,
`facl`, `facr`, `quot1`, `quot2` (any floating-point value) and `dtmax` (`none` for infinity). -/
structure Clock where
  t0 : ℝ
  tf : ℝ
  sf : ℝ
  fl : ℝ
  fr : ℝ
  q1 : ℝ
  q2 : X
  mx : Option ℝ

/-- The direction of the integration. -/
def Clock.d (C : Clock) : ℝ := if 0 ≤ C.tf - C.t0 then 1 else -1

/-- The controller options are finite and positive, `dtmax` is positive (possibly infinite). -/
structure Ctl (C : Clock) (o : Opts X) : Prop where
  safe : o.safe = fin C.sf
  facl : o.facl = fin C.fl
  facr : o.facr = fin C.fr
  quot1 : o.quot1 = fin C.q1
  quot2 : o.quot2 = C.q2
  safe_pos : 0 < C.sf
  facl_pos : 0 < C.fl
  facr_pos : 0 < C.fr
  quot1_pos : 0 < C.q1
  dtmax : o.dtmax = match C.mx with | none => pinf | some m => fin m
  dtmax_pos : ∀ m ∈ C.mx, 0 < m

/-- The times and the controller options of the builder `b` are those of `C`. Nothing is assumed about the
right-hand side, the Jacobian, the initial state or the tolerances. -/
structure Timed (C : Clock) (b : Builder X n P) : Prop where
  t : b.t = fin C.t0
  dt : b.dt = 1e-6
  tfinal : b.tfinal = fin C.tf
  ctl : Ctl C b.opts

/-- Options for which the step is not enlarged by a rejected attempt and which do not propose to jump over
`tfinal`. The defaults satisfy this. -/
structure Clock.Sane (C : Clock) : Prop where
  safe : C.sf ≤ 1
  facl : 1 ≤ C.fl
  quot1 : 1 ≤ C.q1

/-- `min(|y|, dtmax)`. -/
def capR (mx : Option ℝ) (y : ℝ) : ℝ :=
  match mx with
  | none => |y|
  | some m => min |y| m

/-- The step proposed after an accepted step `h` with step quotient `q`: `h / q` in the direction of the
integration, limited by `dtmax` and, if an attempt was rejected (`rej`), by the accepted step. -/
def Clock.proposal (C : Clock) (rej : Bool) (h q : ℝ) : ℝ :=
  let x := C.d * capR C.mx (h / q)
  if rej then C.d * min |x| |h| else x

/-- The step `h'` to be tried after a step `h` was accepted which led to time `t`, if `x` is the proposal: the
rest of the interval if the proposal (divided by `quot1`) reaches `tfinal`; possibly the old step, if the
proposal is between `quot1` and `quot2` times the old step; or the proposal. -/
inductive Clock.Next (C : Clock) (t h x : ℝ) : ℝ → Prop
  | toEnd : 0 ≤ (t + x / C.q1 - C.tf) * C.d → C.Next t h x (C.tf - t)
  | keep : (t + x / C.q1 - C.tf) * C.d < 0 → C.q1 ≤ x / h → Fl.le (fin (x / h)) C.q2 = true →
      C.Next t h x h
  | change : (t + x / C.q1 - C.tf) * C.d < 0 → C.Next t h x x

end Radau
end
end Cyphus
