import Mathlib.LinearAlgebra.Matrix.Determinant.Basic
import Mathlib.Data.Complex.Basic
/-!
# What solving a linear system means

Matrices and vectors are given by their entries; only indices below `n` matter.
-/

namespace Cyphus
namespace Spec
set_option autoImplicit false
variable {K : Type} [Field K]

/-- `A x = b` for the `n × n` matrix `A`. -/
def Solves (n : ℕ) (A : ℕ → ℕ → K) (x b : ℕ → K) : Prop :=
  ∀ i, i < n → ∑ j ∈ Finset.range n, A i j * x j = b i

/-- The determinant of the `n × n` matrix. -/
noncomputable def det (n : ℕ) (A : ℕ → ℕ → K) : K := (Matrix.of fun (i j : Fin n) => A i j).det

/-- The first column is zero. -/
def FirstColumnZero (n : ℕ) (A : ℕ → ℕ → K) : Prop := ∀ i, i < n → A i 0 = 0

/-- All entries below the `lb`-th subdiagonal are zero. -/
def LowerBand (n lb : ℕ) (A : ℕ → ℕ → K) : Prop := ∀ i j, i < n → j + lb < i → A i j = 0

/-- Put the real and imaginary parts of a matrix together. -/
def complexMatrix (ar ai : ℕ → ℕ → ℝ) : ℕ → ℕ → ℂ := fun i j => ⟨ar i j, ai i j⟩

/-- Put the real and imaginary parts of a vector together. -/
def complexVector (b : (ℕ → ℝ) × (ℕ → ℝ)) : ℕ → ℂ := fun i => ⟨b.1 i, b.2 i⟩

end Spec
end Cyphus
