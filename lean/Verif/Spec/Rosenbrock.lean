import Mathlib.Data.Matrix.Mul
import Mathlib.LinearAlgebra.Matrix.NonsingularInverse
import Mathlib.Algebra.Field.Rat
import Mathlib.Algebra.Order.Ring.Rat
/-!
# Specification: Rosenbrock methods and their order

`k_i = f (u + h Σ alpha_ij k_j) + h J Σ gamma_ij k_j`, `u' = u + h Σ b_i k_i` (Hairer and Wanner, Solving Ordinary Differential
Equations II, section IV.7, table 7.1).
-/

namespace Cyphus
set_option autoImplicit false

/-- The coefficients of a Rosenbrock method with `s` stages. -/
structure Spec.Rosenbrock (s : ℕ) where
  alpha : Matrix (Fin s) (Fin s) ℚ
  gamma : Matrix (Fin s) (Fin s) ℚ
  b : Fin s → ℚ

namespace Spec.Rosenbrock
variable {s : ℕ} (M : Spec.Rosenbrock s)

/-- `beta_ij = alpha_ij + gamma_ij`. -/
def beta (i j : Fin s) : ℚ := M.alpha i j + M.gamma i j
/-- `alpha_i = Σ alpha_ij`. -/
def alphaSum (i : Fin s) : ℚ := ∑ j, M.alpha i j
/-- `gamma_i = Σ gamma_ij`. -/
def gammaSum (i : Fin s) : ℚ := ∑ j, M.gamma i j
/-- `beta_i = Σ beta_ij`. -/
def betaSum (i : Fin s) : ℚ := ∑ j, M.beta i j

/-- The weights `b` satisfy the conditions for order three up to `eps`. -/
structure OrderThree (b : Fin s → ℚ) (eps : ℚ) : Prop where
  one : |∑ i, b i - 1| ≤ eps
  two : |∑ i, b i * M.betaSum i - 1 / 2| ≤ eps
  square : |∑ i, b i * M.alphaSum i ^ 2 - 1 / 3| ≤ eps
  chain : |∑ i, b i * ∑ j, M.beta i j * M.betaSum j - 1 / 6| ≤ eps

/-- The weights `b` satisfy the conditions for order four up to `eps`. -/
structure OrderFour (b : Fin s → ℚ) (eps : ℚ) : Prop extends M.OrderThree b eps where
  cube : |∑ i, b i * M.alphaSum i ^ 3 - 1 / 4| ≤ eps
  fork : |∑ i, b i * M.alphaSum i * ∑ j, M.alpha i j * M.betaSum j - 1 / 8| ≤ eps
  late : |∑ i, b i * ∑ j, M.beta i j * M.alphaSum j ^ 2 - 1 / 12| ≤ eps
  chains : |∑ i, b i * ∑ j, M.beta i j * ∑ k, M.beta j k * M.betaSum k - 1 / 24| ≤ eps

/-- The method is written in the variables `U_i = Σ gamma_ij k_j`, with the diagonal element `g` of `gamma` and the coefficients
`a`, `c`, `m`: the form in which Rosenbrock methods are implemented (section IV.7, (7.25)). -/
structure Transformed (g : ℚ) (a c : Matrix (Fin s) (Fin s) ℚ) (m : Fin s → ℚ) : Prop where
  gamma : (g⁻¹ • (1 : Matrix (Fin s) (Fin s) ℚ) - c) * M.gamma = 1
  alpha : M.alpha = a * M.gamma
  b : M.b = fun j => ∑ i, m i * M.gamma i j

end Spec.Rosenbrock
end Cyphus
