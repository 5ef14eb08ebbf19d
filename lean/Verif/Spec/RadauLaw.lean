import Verif.Spec.Problem
import Mathlib.Logic.Relation
/-!
# Specification: the step-size rules of `Radau5` on the real numbers

The rules of the textbook (Hairer, Wanner, "Solving Ordinary Differential Equations II", section IV.8, code RADAU5),
with the options of the record `Radau.Clock`. `N` is the largest number of Newton iterations.
-/

namespace Cyphus
namespace Radau
set_option autoImplicit false
noncomputable section

/-- A step quotient within its limits. -/
def Clock.clip (C : Clock) (x : ℝ) : ℝ := max C.fr (min C.fl x)

/-- The classical controller: the quotient after an attempt with the error `e` and `m` Newton iterations. -/
def Clock.classic (C : Clock) (N m : ℕ) (e : ℝ) : ℝ :=
  C.clip (e ^ (1 / 4 : ℝ) / min C.sf (C.sf * (1 + 2 * N) / (m + 2 * N)))

/-- The predictive controller (Gustafsson): the quotient after an accepted step `h` with the error `e`, if the accepted
step before was `hp` with the error `ep`. -/
def Clock.predictive (C : Clock) (hp ep h e : ℝ) : ℝ :=
  C.clip (hp / h * (e ^ 2 / max 1e-2 ep) ^ (1 / 4 : ℝ) / C.sf)

/-- The quotient after an accepted step. `prev` is the size and the error of the accepted step before, if the predictive
controller is used. -/
def Clock.stepQuot (C : Clock) (N m : ℕ) (prev : Option (ℝ × ℝ)) (h e : ℝ) : ℝ :=
  match prev with
  | none => C.classic N m e
  | some (hp, ep) => max (C.classic N m e) (C.predictive hp ep h e)

open Classical in
/-- The next step if the step `h` led to the time `t` and `x` is the proposal: the rest of the span, if the proposal
(divided by `quot1`) reaches `tfinal`; the old step, if the Newton iteration converged fast (`fast`) and the proposal
is between `quot1` and `quot2` times the old step; otherwise the proposal. -/
def Clock.next (C : Clock) (fast : Bool) (t h x : ℝ) : ℝ :=
  if 0 ≤ (t + x / C.q1 - C.tf) * C.d then C.tf - t
  else if fast = true ∧ C.q1 ≤ x / h ∧ Fl.le (X.fin (x / h)) C.q2 = true then h
  else x

open Classical in
/-- The step tried first by a call at time `t` with the proposed step `h`. (The reference code has the distance to
`tfinal` in the condition, `(t + 1.0001 h - tfinal) * tdir`; the crate has lost the parentheses.) -/
def Clock.tried (C : Clock) (t h : ℝ) : ℝ := if 0 ≤ t + h * 1.0001 - C.tf * C.d then C.tf - t else h

/-- The step `h'` which replaces a step `h` that failed; `first` tells whether no step was accepted yet. -/
inductive Clock.Retry (C : Clock) (N : ℕ) (first : Bool) (h : ℝ) : ℝ → Prop
  /-- the matrices are singular or the Newton iteration diverges: the half -/
  | half : C.Retry N first h (h / 2)
  /-- the Newton iteration converges too slowly: `q` is the predicted error of the iteration, limited by 20 -/
  | slow {q : ℝ} {j : ℕ} : 1 ≤ q → q ≤ 20 → j < N → C.Retry N first h (h * (0.8 * q ^ (-1 / (N + 3 - j) : ℝ)))
  /-- the error is too large, at the start of the integration: a tenth -/
  | start : first = true → C.Retry N first h (h / 10)
  /-- the error `e` is too large: the classical controller -/
  | error {e : ℝ} {m : ℕ} : first = false → 1 ≤ e → m ≤ N → C.Retry N first h (h / C.classic N m e)
  /-- the error is not a finite number: the largest quotient -/
  | invalid : first = false → C.Retry N first h (h / max C.fr C.fl)

/-- The step after one or more failed attempts. -/
def Clock.Retries (C : Clock) (N : ℕ) (first : Bool) : ℝ → ℝ → Prop := Relation.TransGen (C.Retry N first)

/-- One call which accepts a step that is not the last one: from `(t, h)`, the time and the proposed step before the
call, by the step `h1` to the proposed step `h'`. `e` and `m` are the error and the number of Newton iterations of the
accepted attempt, `fast` tells whether the Newton iteration converged fast, `prev` is the size and the error of the
accepted step before, if the predictive controller is used; `retried` tells whether an attempt failed. -/
structure StepLaw (C : Clock) (N : ℕ) (first : Bool) (t h h1 h' e : ℝ) (m : ℕ) (fast : Bool) (prev : Option (ℝ × ℝ))
    (retried : Bool) : Prop where
  /-- the first attempt has the proposed step size, the further ones are reduced by the rules -/
  once : retried = false → h1 = C.tried t h
  path : retried = true → C.Retries N first (C.tried t h) h1
  err : 1e-10 ≤ e ∧ e < 1
  newt : 1 ≤ m ∧ m ≤ N
  next : h' = C.next fast (t + h1) h1 (C.proposal retried h1 (C.stepQuot N m prev h1 e))

end
end Radau
end Cyphus
