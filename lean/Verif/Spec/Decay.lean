import Mathlib.Analysis.SpecialFunctions.Exp
/-!
# Specification: decaying components and dissipative linear systems
-/

namespace Cyphus
set_option autoImplicit false
noncomputable section
variable {n : ℕ}

/-- The larger of the initial distance and a multiple of the tolerance. -/
def Spec.decayBound (n : ℕ) (a r g x : ℝ) : ℝ := max |x - g| (√n * (a + r * |g|) / (0.65 - √n * r))

/-- The exact solution of `y' = -lam (y - g)`, `y t0 = x`. -/
def Spec.relax (lam g t0 x t : ℝ) : ℝ := g + Real.exp (-(lam * (t - t0))) * (x - g)

/-- The Euclidean length of a vector. -/
def Spec.len (w : Fin n → ℝ) : ℝ := √(∑ i, w i ^ 2)

/-- `A` is symmetric and positive semidefinite. -/
structure Spec.Diffusive (A : Fin n → Fin n → ℝ) : Prop where
  symm : ∀ i j, A i j = A j i
  nonneg : ∀ w : Fin n → ℝ, 0 ≤ ∑ i, w i * ∑ j, A i j * w j

/-- `w · A w ≥ 0` for all `w`, so that the distance of two solutions of `u' = -A u` does not grow. -/
def Spec.Damped (A : Fin n → Fin n → ℝ) : Prop := ∀ w : Fin n → ℝ, 0 ≤ ∑ i, w i * ∑ j, A i j * w j

end
end Cyphus
