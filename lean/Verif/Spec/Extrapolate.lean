import Mathlib.Data.Real.Basic
import Mathlib.Algebra.Polynomial.Eval.Degree
/-!
# Specification: extrapolated stage values
-/

namespace Cyphus
set_option autoImplicit false
noncomputable section
variable {n : ℕ}

/-- `y₀` are predicted stage increments for a step of size `h'` that follows a step of size `h` from `(t, u)` with the stage
increments `z`: in every component the cubic polynomial through the beginning and the stages of the step before, evaluated at
the new stages. The nodes are `c`, the last one is the end of the step. -/
def Spec.Extrapolates (c : Fin 3 → ℝ) (t h : ℝ) (u : Fin n → ℝ) (z : Fin 3 → Fin n → ℝ) (h' : ℝ) (y₀ : Fin 3 → Fin n → ℝ) :
    Prop :=
  ∀ i, ∃ q : Polynomial ℝ, q.degree ≤ 3 ∧ q.eval t = u i ∧ (∀ k, q.eval (t + c k * h) = u i + z k i) ∧
    ∀ k, u i + z 2 i + y₀ k i = q.eval (t + h + c k * h')

end
end Cyphus
