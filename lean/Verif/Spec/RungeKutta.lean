import Mathlib.Data.Real.Sqrt
import Mathlib.Data.Fin.VecNotation
import Mathlib.Algebra.BigOperators.Fin
/-!
# Specification: Runge-Kutta methods

Nothing in this file refers to the model of the code.
-/

namespace Cyphus.Spec

/-- A Butcher tableau with `s` stages and a second row of weights `bhat` (the embedded method). -/
structure Tableau (s : ℕ) where
  A : Fin s → Fin s → ℝ
  b : Fin s → ℝ
  bhat : Fin s → ℝ
  c : Fin s → ℝ

variable {s n : ℕ}

/-- `k` are the stage derivatives of a Runge-Kutta step of size `h` from `(t, u)` for `u' = f t u`:
`k i = f (t + c i h, u + h ∑ j, A i j k j)`. -/
def IsStages (T : Tableau s) (f : ℝ → (Fin n → ℝ) → Fin n → ℝ) (t : ℝ) (u : Fin n → ℝ) (h : ℝ)
    (k : Fin s → Fin n → ℝ) : Prop :=
  ∀ i, k i = f (t + T.c i * h) (fun m => u m + h * ∑ j, T.A i j * k j m)

/-- `u'` is a result of a Runge-Kutta step of size `h` from `(t, u)`. -/
def IsStep (T : Tableau s) (f : ℝ → (Fin n → ℝ) → Fin n → ℝ) (t : ℝ) (u : Fin n → ℝ) (h : ℝ)
    (u' : Fin n → ℝ) : Prop :=
  ∃ k, IsStages T f t u h k ∧ ∀ m, u' m = u m + h * ∑ j, T.b j * k j m

/-- `e` is the difference between the two results of the embedded pair. -/
def IsErr (T : Tableau s) (f : ℝ → (Fin n → ℝ) → Fin n → ℝ) (t : ℝ) (u : Fin n → ℝ) (h : ℝ)
    (e : Fin n → ℝ) : Prop :=
  ∃ k, IsStages T f t u h k ∧ ∀ m, e m = h * ∑ j, (T.b j - T.bhat j) * k j m

/-- As `IsStages` for an explicit method, but the first stage derivative is `k1` and not `f (t, u)`. -/
def IsStagesFrom [NeZero s] (T : Tableau s) (f : ℝ → (Fin n → ℝ) → Fin n → ℝ) (t : ℝ) (u : Fin n → ℝ) (h : ℝ)
    (k1 : Fin n → ℝ) (k : Fin s → Fin n → ℝ) : Prop :=
  k 0 = k1 ∧ ∀ i ≠ 0, k i = f (t + T.c i * h) (fun m => u m + h * ∑ j, T.A i j * k j m)

/-- A step whose first stage derivative is `k1`. -/
def IsStepFrom [NeZero s] (T : Tableau s) (f : ℝ → (Fin n → ℝ) → Fin n → ℝ) (t : ℝ) (u : Fin n → ℝ) (h : ℝ)
    (k1 u' : Fin n → ℝ) : Prop :=
  ∃ k, IsStagesFrom T f t u h k1 k ∧ ∀ m, u' m = u m + h * ∑ j, T.b j * k j m

/-- The Dormand-Prince 5(4) pair, as published (J. R. Dormand, P. J. Prince, "A family of embedded
Runge-Kutta formulae", J. Comp. Appl. Math. 6 (1980), table 2; Hairer, Nørsett, Wanner, "Solving Ordinary
Differential Equations I", table II.5.2). -/
noncomputable def dopri5 : Tableau 7 where
  A := ![![0, 0, 0, 0, 0, 0, 0],
         ![1/5, 0, 0, 0, 0, 0, 0],
         ![3/40, 9/40, 0, 0, 0, 0, 0],
         ![44/45, -56/15, 32/9, 0, 0, 0, 0],
         ![19372/6561, -25360/2187, 64448/6561, -212/729, 0, 0, 0],
         ![9017/3168, -355/33, 46732/5247, 49/176, -5103/18656, 0, 0],
         ![35/384, 0, 500/1113, 125/192, -2187/6784, 11/84, 0]]
  b := ![35/384, 0, 500/1113, 125/192, -2187/6784, 11/84, 0]
  bhat := ![5179/57600, 0, 7571/16695, 393/640, -92097/339200, 187/2100, 1/40]
  c := ![0, 1/5, 3/10, 4/5, 8/9, 1, 1]

/-- The scaled root-mean-square norm used to compare an error `e` with the tolerances. -/
noncomputable def errNorm (abstol reltol : ℝ) (u u' e : Fin n → ℝ) : ℝ :=
  Real.sqrt ((∑ i, (e i / (abstol + reltol * max |u i| |u' i|)) ^ 2) / n)

end Cyphus.Spec
