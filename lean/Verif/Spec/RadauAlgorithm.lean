import Verif.Spec.RadauLaw
import Verif.Spec.RadauIIA
import Verif.Spec.RadauSuccess
import Verif.Spec.Extrapolate
/-!
# Specification: the algorithm of RADAU5 on the real numbers

The algorithm of the textbook (Hairer, Wanner, "Solving Ordinary Differential Equations II", section IV.8, code RADAU5) as a
transition system on real vectors and matrices: the simplified Newton iteration with its stopping rules, the reuse of the
Jacobian and of the matrices, the error test, the step sizes. Nothing here refers to the state of the crate's integrator.

The crate differs from the published code in three places, which are marked with (*).
-/

namespace Cyphus
namespace Spec
namespace Radau5
set_option autoImplicit false
noncomputable section
variable {n : ℕ}

/-! ### When a Newton iteration stops

`d k` is the norm of the correction of the `k`-th pass, `N` the largest number of passes. -/

/-- The convergence rate after the pass `k ≥ 2`: the quotient of the last two norms, from the third pass on the geometric
mean of the last two quotients. -/
def rate (ε : ℝ) (d : ℕ → ℝ) (k : ℕ) : ℝ :=
  if k = 2 then d 2 / max (d 1) ε else √(d k / max (d (k - 1)) ε * (d (k - 1) / max (d (k - 2)) ε))

/-- The last pass, of the first `k`, in which the rate is computed: it is computed neither in the first pass nor in the
pass `N`. (0 or 1 if there is none.) -/
def rated (N k : ℕ) : ℕ := min k (N - 1)

/-- The rate known after the pass `k`; `θ₀` if there is none. -/
def theta (ε θ₀ : ℝ) (N : ℕ) (d : ℕ → ℝ) (k : ℕ) : ℝ := if rated N k ≤ 1 then θ₀ else rate ε d (rated N k)

/-- The factor `η = θ / (1 - θ)` after the pass `k`; `η₁` if there is no rate. -/
def eta (ε η₁ : ℝ) (N : ℕ) (d : ℕ → ℝ) (k : ℕ) : ℝ :=
  if rated N k ≤ 1 then η₁ else rate ε d (rated N k) / (1 - rate ε d (rated N k))

/-- The error of the iterate predicted for the pass `N`, in units of the tolerance `φ`. -/
def predicted (ε η₁ φ : ℝ) (N : ℕ) (d : ℕ → ℝ) (k : ℕ) : ℝ :=
  eta ε η₁ N d k * d k * rate ε d k ^ (N - 1 - k) / φ

/-- The pass `k` gives no reason to abandon the iteration. -/
def Healthy (ε η₁ φ : ℝ) (N : ℕ) (d : ℕ → ℝ) (k : ℕ) : Prop :=
  2 ≤ k → k < N → rate ε d k < 0.99 ∧ predicted ε η₁ φ N d k < 1

/-- The iteration goes on after the pass `k`. -/
def GoesOn (ε η₁ φ : ℝ) (N : ℕ) (d : ℕ → ℝ) (k : ℕ) : Prop :=
  Healthy ε η₁ φ N d k ∧ φ < eta ε η₁ N d k * d k

/-- How an iteration ends: it converges; or the step is halved; or the step is multiplied by `w`. -/
inductive Ending
  | converged
  | halved
  | slowed (w : ℝ)

/-- `Ends … m η e`: the iteration ends with the pass `m` in the way `e`, and leaves the factor `η` for the next one. -/
inductive Ends (ε η₁ φ : ℝ) (N : ℕ) (d : ℕ → ℝ) : ℕ → ℝ → Ending → Prop
  /-- the estimated error of the iterate is below the tolerance -/
  | converged {m : ℕ} : 1 ≤ m → m ≤ N → (∀ k, 1 ≤ k → k < m → GoesOn ε η₁ φ N d k) → Healthy ε η₁ φ N d m →
      eta ε η₁ N d m * d m ≤ φ → Ends ε η₁ φ N d m (eta ε η₁ N d m) .converged
  /-- the iteration diverges -/
  | diverged {m : ℕ} : 2 ≤ m → m < N → (∀ k, 1 ≤ k → k < m → GoesOn ε η₁ φ N d k) → 0.99 ≤ rate ε d m →
      Ends ε η₁ φ N d m (eta ε η₁ N d (m - 1)) .halved
  /-- it is predicted to miss the tolerance -/
  | slow {m : ℕ} : 2 ≤ m → m < N → (∀ k, 1 ≤ k → k < m → GoesOn ε η₁ φ N d k) → rate ε d m < 0.99 →
      1 ≤ predicted ε η₁ φ N d m → Ends ε η₁ φ N d m (eta ε η₁ N d m)
        (.slowed (0.8 * min 20 (predicted ε η₁ φ N d m) ^ (-1 / (N + 3 - m) : ℝ)))
  /-- the tolerance is not reached within `N` passes -/
  | exhausted : (∀ k, 1 ≤ k → k ≤ N → GoesOn ε η₁ φ N d k) → Ends ε η₁ φ N d N (eta ε η₁ N d N) .halved

/-! ### The data of a problem -/

/-- A problem with its options: the right-hand side, the Jacobian (or what is used instead), the coefficients of the method,
the times and controller options `C`, the largest number `N` of Newton passes, the tolerance `φ` of the iteration, the bound
`θ₀` for the reuse of the Jacobian, the tolerances `a` (absolute) and `r` (relative), the rounding unit `ε`; `ext`: the
iteration starts with extrapolated values; `pred`: the predictive controller is used. -/
structure Problem (n : ℕ) where
  f : ℝ → (Fin n → ℝ) → Fin n → ℝ
  jac : ℝ → (Fin n → ℝ) → Fin n → Fin n → ℝ
  M : Transform
  c : Fin 3 → ℝ
  C : Radau.Clock
  N : ℕ
  φ : ℝ
  θ₀ : ℝ
  a : ℝ
  r : ℝ
  ε : ℝ
  ext : Bool
  pred : Bool

/-- The tolerances and the stopping tolerance of the iteration as the published code derives them from the tolerances `atol`,
`rtol` and the value `φ` given by the user (`φ ≤ 0`: not given). -/
structure Problem.Tolerances (A : Problem n) (atol rtol φ : ℝ) : Prop where
  r : A.r = 0.1 * rtol ^ (2 / 3 : ℝ)
  a : A.a = A.r * (atol / rtol)
  φ : A.φ = if φ ≤ 0 then max (10 * A.ε / A.r) (min 0.03 √A.r) else φ

/-- An accepted step: its beginning, its size, its error and its stage increments. -/
structure Past (n : ℕ) where
  t : ℝ
  h : ℝ
  e : ℝ
  u : Fin n → ℝ
  z : Fin 3 → Fin n → ℝ

/-- The state between two steps: the point `(t, u)`, the proposed step size `h`, the factor `η` left by the last Newton
iteration, the Jacobian `J`, and the step size `hf` and the Jacobian `Jf` of the matrices that were factored last. If `fresh`
is not set these matrices are used again. If `last` is set the next step is the last one. -/
structure State (n : ℕ) where
  t : ℝ
  u : Fin n → ℝ
  h : ℝ
  η : ℝ
  J : Fin n → Fin n → ℝ
  hf : ℝ
  Jf : Fin n → Fin n → ℝ
  fresh : Bool
  last : Bool
  past : Option (Past n)

/-- An attempt of a step. -/
structure Trial (n : ℕ) where
  h : ℝ
  η : ℝ
  J : Fin n → Fin n → ℝ
  hf : ℝ
  Jf : Fin n → Fin n → ℝ
  fresh : Bool
  last : Bool
  retried : Bool

/-- The step size in the matrices of an attempt. -/
def Trial.hm (x : Trial n) : ℝ := if x.fresh then x.h else x.hf
/-- The Jacobian in the matrices of an attempt. -/
def Trial.Jm (x : Trial n) : Fin n → Fin n → ℝ := if x.fresh then x.J else x.Jf

open Classical in
/-- The first attempt of a step. (*) In the published code the condition is `0 ≤ (t + 1.0001 h - tf) d`; the crate has lost
the parentheses. -/
def State.first (A : Problem n) (σ : State n) : Trial n where
  h := A.C.tried σ.t σ.h
  η := σ.η
  J := σ.J
  hf := σ.hf
  Jf := σ.Jf
  fresh := σ.fresh
  last := σ.last || decide (0 ≤ σ.t + σ.h * 1.0001 - A.C.tf * A.C.d)
  retried := false

/-! ### One attempt -/

/-- The increments `y₀` with which the Newton iteration for a step of size `h` starts. -/
def Start (A : Problem n) (σ : State n) (h : ℝ) (y₀ : Fin 3 → Fin n → ℝ) : Prop :=
  match A.ext, σ.past with
  | true, some p => Extrapolates A.c p.t p.h p.u p.z h y₀
  | _, _ => y₀ = 0

/-- The matrices of the Newton iteration with the Jacobian `J` and the step size `h` can be factored. -/
def Problem.Regular (A : Problem n) (J : Fin n → Fin n → ℝ) (h : ℝ) : Prop :=
  NotEigen J (A.M.γ / h) ∧ NotEigen (fun i j => (J i j : ℂ)) ⟨A.M.α / h, A.M.β / h⟩

/-- `m` passes of the iteration of the attempt `x`: the increments are `y 0, …, y m`, the transformed increments
`g 0, …, g m`, the corrections `Δ 0, …, Δ (m - 1)`. -/
structure Passes (A : Problem n) (σ : State n) (x : Trial n) (m : ℕ) (g y Δ : ℕ → Fin 3 → Fin n → ℝ) : Prop where
  start : Start A σ x.h (y 0)
  transf : ∀ k i, g 0 k i = ∑ l, A.M.TI k l * y 0 l i
  pass : ∀ j < m, NewtonPass A.M A.c A.f x.Jm σ.t x.h x.hm σ.u (g j) (y j) (Δ j) (y (j + 1))
  add : ∀ j < m, g (j + 1) = fun k i => g j k i + Δ j k i
  step : x.h ≠ 0
  factored : x.hm ≠ 0 ∧ A.Regular x.Jm x.hm

/-- The norm of the correction of the pass `k`. -/
def norms (A : Problem n) (σ : State n) (Δ : ℕ → Fin 3 → Fin n → ℝ) (k : ℕ) : ℝ := newtonNorm A.a A.r σ.u (Δ (k - 1))

/-- The factor with which an iteration starts. -/
def Problem.eta₁ (A : Problem n) (x : Trial n) : ℝ := max x.η A.ε ^ (0.8 : ℝ)

/-- The Newton iteration of the attempt `x` ends with the pass `m` in the way `e`; then the increments are `z`, the rate is
`θ`, and `η` is left for the next iteration. -/
def Iterates (A : Problem n) (σ : State n) (x : Trial n) (m : ℕ) (z : Fin 3 → Fin n → ℝ) (θ η : ℝ) (e : Ending) : Prop :=
  ∃ g y Δ, Passes A σ x m g y Δ ∧ z = y m ∧ θ = theta A.ε |A.θ₀| A.N (norms A σ Δ) m ∧
    Ends A.ε (A.eta₁ x) A.φ A.N (norms A σ Δ) m η e

/-- The error of the attempt `x` with the stage increments `z`: the norm of the estimate, at least `1e-10`. If it is not
below one and the attempt is in the first step of the integration or follows a failed one, the estimate is improved. -/
def Err (A : Problem n) (σ : State n) (x : Trial n) (z : Fin 3 → Fin n → ℝ) (err : ℝ) : Prop :=
  ∃ e, IsErrEstimate A.M.γ x.hm x.h x.Jm (A.f σ.t σ.u) z e ∧
    if scaledNorm A.a A.r σ.u e < 1 ∨ σ.past.isSome ∧ x.retried = false then err = max (scaledNorm A.a A.r σ.u e) 1e-10
    else ∃ e', IsErrEstimate A.M.γ x.hm x.h x.Jm (A.f σ.t (σ.u + e)) z e' ∧ err = max (scaledNorm A.a A.r σ.u e') 1e-10

/-- The attempt after an attempt `x` which failed: with the step size `h`, the factor `η` and the Jacobian `J`. -/
def Trial.again (x : Trial n) (h η : ℝ) (J : Fin n → Fin n → ℝ) (fresh : Bool) : Trial n where
  h := h
  η := η
  J := J
  hf := x.hm
  Jf := x.Jm
  fresh := fresh
  last := false
  retried := true

/-- An attempt fails and is followed by another one. (*) In the published code the Jacobian is computed again after every
failure, unless it was computed at the same point. The crate computes it again after every failure except after slow
convergence. (*) In the published code every failed attempt leads to a new factorization. In the crate, if the iteration fails
in an attempt with matrices from an earlier step, the further attempts use them as well. -/
inductive Fails (A : Problem n) (σ : State n) : Trial n → Trial n → Prop
  | singular {x : Trial n} : x.fresh = true → ¬ A.Regular x.J x.h →
      Fails A σ x { x with h := x.h / 2, J := A.jac σ.t σ.u, last := false, retried := true }
  | halved {x : Trial n} {m : ℕ} {z : Fin 3 → Fin n → ℝ} {θ η : ℝ} : Iterates A σ x m z θ η .halved →
      Fails A σ x (x.again (x.h / 2) η (A.jac σ.t σ.u) x.fresh)
  | slowed {x : Trial n} {m : ℕ} {z : Fin 3 → Fin n → ℝ} {θ η w : ℝ} : Iterates A σ x m z θ η (.slowed w) →
      Fails A σ x (x.again (x.h * w) η x.J x.fresh)
  | rejected {x : Trial n} {m : ℕ} {z : Fin 3 → Fin n → ℝ} {θ η err : ℝ} : Iterates A σ x m z θ η .converged →
      Err A σ x z err → 1 ≤ err →
      Fails A σ x (x.again (if σ.past.isSome then x.h / A.C.classic A.N m err else x.h / 10) η (A.jac σ.t σ.u) true)

/-! ### One step -/

/-- The size and the error of the step before, if the predictive controller uses them. -/
def State.memory (A : Problem n) (σ : State n) : Option (ℝ × ℝ) :=
  if A.pred then σ.past.map fun p => (p.h, p.e) else none

/-- The proposal for the step after an accepted attempt `x` with `m` Newton passes and the error `err`. -/
def proposal (A : Problem n) (σ : State n) (x : Trial n) (m : ℕ) (err : ℝ) : ℝ :=
  A.C.proposal x.retried x.h (A.C.stepQuot A.N m (σ.memory A) x.h err)

open Classical in
/-- The state after an accepted attempt `x` with `m` Newton passes, the stage increments `z`, the rate `θ`, the factor `η` and
the error `err`, if it was not the last step. The Jacobian is kept if the rate is at most `θ₀`; the matrices are kept if, in
addition, the proposed step is close to the old one. -/
def next (A : Problem n) (σ : State n) (x : Trial n) (m : ℕ) (z : Fin 3 → Fin n → ℝ) (θ η err : ℝ) : State n :=
  let t := σ.t + x.h
  let u := σ.u + z 2
  let p := proposal A σ x m err
  let toEnd := 0 ≤ (t + p / A.C.q1 - A.C.tf) * A.C.d
  let keep := ¬ toEnd ∧ θ ≤ A.θ₀ ∧ A.C.q1 ≤ p / x.h ∧ Fl.le (X.fin (p / x.h)) A.C.q2 = true
  { t := t
    u := u
    h := A.C.next (decide (θ ≤ A.θ₀)) t x.h p
    η := η
    J := if θ ≤ A.θ₀ then x.J else A.jac t u
    hf := x.hm
    Jf := x.Jm
    fresh := !decide keep
    last := decide toEnd
    past := some ⟨σ.t, x.h, err, σ.u, z⟩ }

/-- An accepted attempt `x`. -/
structure Accepts (A : Problem n) (σ : State n) (x : Trial n) (m : ℕ) (z : Fin 3 → Fin n → ℝ) (θ η err : ℝ) : Prop where
  tried : Relation.ReflTransGen (Fails A σ) (σ.first A) x
  newton : Iterates A σ x m z θ η .converged
  small : err < 1
  error : Err A σ x z err

/-- A step which is not the last one. -/
def Step (A : Problem n) (σ σ' : State n) : Prop :=
  ∃ x m z θ η err, Accepts A σ x m z θ η err ∧ x.last = false ∧ σ' = next A σ x m z θ η err

/-- The last step: it leads to the point `(t, u)`. -/
def Finish (A : Problem n) (σ : State n) (t : ℝ) (u : Fin n → ℝ) : Prop :=
  ∃ x m z θ η err, Accepts A σ x m z θ η err ∧ x.last = true ∧ t = σ.t + x.h ∧ u = σ.u + z 2

/-- The state at the beginning: `h₀` is the first step size. -/
def init (A : Problem n) (t₀ h₀ : ℝ) (u₀ : Fin n → ℝ) : State n where
  t := t₀
  u := u₀
  h := h₀
  η := 1
  J := A.jac t₀ u₀
  hf := h₀
  Jf := A.jac t₀ u₀
  fresh := true
  last := false
  past := none

/-- The states reached after `k` steps. -/
inductive Reach (A : Problem n) (σ₀ : State n) : ℕ → State n → Prop
  | zero : Reach A σ₀ 0 σ₀
  | succ {k : ℕ} {σ σ' : State n} : Reach A σ₀ k σ → Step A σ σ' → Reach A σ₀ (k + 1) σ'

end
end Radau5
end Spec
end Cyphus
