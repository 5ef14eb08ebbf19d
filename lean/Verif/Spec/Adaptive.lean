import Verif.Spec.Problem
import Verif.Spec.RungeKutta
/-!
# Specification: the adaptive Dormand-Prince method on the real numbers

The adaptive method in the form of the textbook (Hairer, Nørsett, Wanner, "Solving Ordinary Differential Equations I",
sections II.4 and IV.2, code DOPRI5) as a transition system on the real numbers: nothing in this file refers to the model
of the code, except for the names of the return codes and the record `DP5.Env` of the data of a problem.

The crate departs from the published code in three places, which are written out here as the crate has them: the exponent
of the controller is `1/5 - beta^(3/4)` (published: `1/5 - 3/4 beta`), the first accepted step has no previous error
(published: 1e-4), and the first step size is 1e-6 (published: from a guess of the second derivative).
-/

namespace Cyphus.Spec.Adaptive
set_option autoImplicit false
noncomputable section
variable {n : ℕ} (E : DP5.Env n)

/-- A step of size `h` from `(t, u)` leads to `u'`, the scaled norm of its embedded error estimate is `e`. -/
def Trial (t : ℝ) (u : Fin n → ℝ) (h : ℝ) (u' : Fin n → ℝ) (e : ℝ) : Prop :=
  IsStep dopri5 E.f t u h u' ∧ ∃ v, IsErr dopri5 E.f t u h v ∧ e = errNorm E.a E.r u u' v

/-- The step tried after a step `h` with error `e` was rejected. -/
def reduced (h e : ℝ) : ℝ := h / min (1 / E.fl) (e ^ (0.2 - E.be ^ (0.75 : ℝ)) / E.sf)

/-- `Attempts t u h k tiny h' u' e`: starting with the step size `h`, after `k` rejected attempts the step `h'` is
accepted, it leads to `u'` with error `e`; `tiny` tells whether one of the reduced steps was so small that it is
lost in the rounding of `t`. -/
inductive Attempts (t : ℝ) (u : Fin n → ℝ) : ℝ → ℕ → Bool → ℝ → (Fin n → ℝ) → ℝ → Prop
  | accept {h u' e} : Trial E t u h u' e → e ≤ 1 → Attempts t u h 0 false h u' e
  | reject {h v d k tiny h' u' e} : Trial E t u h v d → 1 < d → Attempts t u (reduced E h d) k tiny h' u' e →
      Attempts t u h (k + 1) (decide (|reduced E h d| ≤ |t| * 2 ^ (-52 : ℤ)) || tiny) h' u' e

/-- Time, state, proposed step and the error of the last accepted step (but at least 1e-4; none at the start). -/
structure State (n : ℕ) where
  t : ℝ
  u : Fin n → ℝ
  h : ℝ
  err : Option ℝ

/-- The factor by which the step is divided after an accepted step with error `e`, if `g` is the error of the
accepted step before: the PI controller with its limits. Without a previous error, the step is divided by the
largest factor, except for `beta = 0`. -/
def quot (g : Option ℝ) (e : ℝ) : ℝ :=
  max (1 / E.fr) (match g with
    | some g => min (1 / E.fl) (e ^ (0.2 - E.be ^ (0.75 : ℝ)) / g ^ E.be / E.sf)
    | none => if E.be = 0 then min (1 / E.fl) (e ^ (0.2 - E.be ^ (0.75 : ℝ)) / E.sf) else 1 / E.fl)

/-- The proposal `x` after the accepted step `h`, limited by `dtmax` and, after a rejected attempt, by `h`. -/
def limit (rejected : Bool) (h x : ℝ) : ℝ :=
  let x := match E.mx with
    | none => x
    | some m => if m < |x| then E.d * m else x
  if rejected then E.d * min |x| |h| else x

/-- The proposed step (with one percent more) goes beyond the end. -/
def Reaches (x : State n) : Prop := 0 < (x.t + 1.01 * x.h - E.tf) * E.d

open Classical in
/-- One call: from the state `x` to the state `x'` with `k` rejected attempts; `last` tells whether the end was
reached. -/
inductive Advance (x : State n) : ℕ → Bool → Bool → State n → Prop
  | mk {k tiny h u' e} :
      Attempts E x.t x.u (if Reaches E x then E.tf - x.t else x.h) k tiny h u' e →
      Advance x k tiny (decide (Reaches E x) && decide (k = 0))
        ⟨x.t + h, u', limit E (decide (k ≠ 0)) h (h / quot E x.err e), some (max e 1e-4)⟩

/-- The code after call number `j`. -/
def code (maxSteps j : ℕ) (tiny last : Bool) : RetCode :=
  if last then .Success else if maxSteps < j then .MaxIters else if tiny then .DtLessThanMin else .Continue

/-- `Run N x0 j x l c`: after `j` calls from `x0`, the state is `x`, the points passed are `l`, the code is `c`. The
run goes on as long as the code is `Continue`; `N` is the option `max_steps`. -/
inductive Run (N : ℕ) (x0 : State n) : ℕ → State n → List (ℝ × (Fin n → ℝ)) → RetCode → Prop
  | start : Run N x0 0 x0 [(x0.t, x0.u)] .Continue
  | call {j x l k tiny last x'} : Run N x0 j x l .Continue → Advance E x k tiny last x' →
      Run N x0 (j + 1) x' (l ++ [(x'.t, x'.u)]) (code N (j + 1) tiny last)

end
end Cyphus.Spec.Adaptive
