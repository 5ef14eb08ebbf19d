import Mathlib.Data.Real.Sqrt
import Mathlib.Data.Fin.VecNotation
import Mathlib.Algebra.BigOperators.Fin
import Mathlib.LinearAlgebra.Matrix.Notation
/-!
# Specification: the Radau IIA method of order 5 and simplified Newton iterations

Nothing in this file refers to the model of the code.
-/

namespace Cyphus.Spec
noncomputable section

/-- The matrix of the Radau IIA method with three stages, as published (E. Hairer, G. Wanner, "Solving Ordinary
Differential Equations II", table IV.5.6). -/
def radauA : Matrix (Fin 3) (Fin 3) ℝ :=
  !![(88 - 7 * √6) / 360, (296 - 169 * √6) / 1800, (-2 + 3 * √6) / 225;
     (296 + 169 * √6) / 1800, (88 + 7 * √6) / 360, (-2 - 3 * √6) / 225;
     (16 - √6) / 36, (16 + √6) / 36, 1 / 9]

/-- The nodes of the method. -/
def radauC : Fin 3 → ℝ := ![(4 - √6) / 10, (4 + √6) / 10, 1]

variable {n : ℕ}

/-- `z` are the stage increments of a step of size `h` from `(t, u)` with the method with matrix `A` and nodes `c`:
`z k = h ∑ l, A k l f (t + c l h, u + z l)`. -/
def IsStageIncr (A : Matrix (Fin 3) (Fin 3) ℝ) (c : Fin 3 → ℝ) (f : ℝ → (Fin n → ℝ) → Fin n → ℝ) (t h : ℝ)
    (u : Fin n → ℝ) (z : Fin 3 → Fin n → ℝ) : Prop :=
  ∀ k i, z k i = h * ∑ l, A k l * f (t + c l * h) (u + z l) i

/-- The matrices of a simplified Newton iteration in transformed variables: `A` is replaced by `T Λ⁻¹ TI` where
`Λ = (γ, 0, 0; 0, α, -β; 0, β, α)`. -/
structure Transform where
  T : Matrix (Fin 3) (Fin 3) ℝ
  TI : Matrix (Fin 3) (Fin 3) ℝ
  γ : ℝ
  α : ℝ
  β : ℝ

/-- `Λ`. -/
def Transform.Lam (M : Transform) : Matrix (Fin 3) (Fin 3) ℝ := !![M.γ, 0, 0; 0, M.α, -M.β; 0, M.β, M.α]

/-- `Λ⁻¹`. -/
def Transform.LamInv (M : Transform) : Matrix (Fin 3) (Fin 3) ℝ :=
  !![1 / M.γ, 0, 0;
     0, M.α / (M.α ^ 2 + M.β ^ 2), M.β / (M.α ^ 2 + M.β ^ 2);
     0, -M.β / (M.α ^ 2 + M.β ^ 2), M.α / (M.α ^ 2 + M.β ^ 2)]

/-- The matrix of the method the transformation belongs to. -/
def Transform.A (M : Transform) : Matrix (Fin 3) (Fin 3) ℝ := M.T * M.LamInv * M.TI

/-- One pass of a simplified Newton iteration for the stage increments of a step of size `h` from `(t, u)`, with the
step size `hf` and the matrix `J` in the iteration matrix: from the increments `y` with transformed increments `g`, to
the increments `z`, by adding `Δ` to the transformed increments. The first equation is the linear system for `Δ`,
`Λ (g + Δ) - hf J Δ = hf TI f(u + y)`. -/
structure NewtonPass (M : Transform) (c : Fin 3 → ℝ) (f : ℝ → (Fin n → ℝ) → Fin n → ℝ) (J : Fin n → Fin n → ℝ)
    (t h hf : ℝ) (u : Fin n → ℝ) (g y Δ z : Fin 3 → Fin n → ℝ) : Prop where
  system : ∀ k i, ∑ l, M.Lam k l * (g l i + Δ l i) - hf * ∑ j, J i j * Δ k j =
    hf * ∑ l, M.TI k l * f (t + c l * h) (u + y l) i
  start : (∀ k i, y k i = ∑ l, M.T k l * g l i) ∨ ∀ k i, g k i = ∑ l, M.TI k l * y l i
  result : ∀ k i, z k i = ∑ l, M.T k l * (g l i + Δ l i)

/-- The pairs of transformed increments `g` and increments `y` reached by the iteration: it starts from some increments
with their transforms and goes on with passes. -/
inductive NewtonIter (M : Transform) (c : Fin 3 → ℝ) (f : ℝ → (Fin n → ℝ) → Fin n → ℝ) (J : Fin n → Fin n → ℝ)
    (t h hf : ℝ) (u : Fin n → ℝ) : (Fin 3 → Fin n → ℝ) → (Fin 3 → Fin n → ℝ) → Prop
  | start {g y : Fin 3 → Fin n → ℝ} : (∀ k i, g k i = ∑ l, M.TI k l * y l i) → NewtonIter M c f J t h hf u g y
  | pass {g y Δ z : Fin 3 → Fin n → ℝ} : NewtonIter M c f J t h hf u g y → NewtonPass M c f J t h hf u g y Δ z →
      NewtonIter M c f J t h hf u (fun k i => g k i + Δ k i) z

/-- The iteration with its first increments `y₀` and the number of its passes. -/
inductive NewtonRun (M : Transform) (c : Fin 3 → ℝ) (f : ℝ → (Fin n → ℝ) → Fin n → ℝ) (J : Fin n → Fin n → ℝ)
    (t h hf : ℝ) (u : Fin n → ℝ) (y₀ : Fin 3 → Fin n → ℝ) : ℕ → (Fin 3 → Fin n → ℝ) → (Fin 3 → Fin n → ℝ) → Prop
  | start {g : Fin 3 → Fin n → ℝ} : (∀ k i, g k i = ∑ l, M.TI k l * y₀ l i) → NewtonRun M c f J t h hf u y₀ 0 g y₀
  | pass {m : ℕ} {g y Δ z : Fin 3 → Fin n → ℝ} : NewtonRun M c f J t h hf u y₀ m g y →
      NewtonPass M c f J t h hf u g y Δ z → NewtonRun M c f J t h hf u y₀ (m + 1) (fun k i => g k i + Δ k i) z

theorem NewtonRun.iter {M : Transform} {c : Fin 3 → ℝ} {f : ℝ → (Fin n → ℝ) → Fin n → ℝ} {J : Fin n → Fin n → ℝ}
    {t h hf : ℝ} {u : Fin n → ℝ} {y₀ g y : Fin 3 → Fin n → ℝ} {m : ℕ} (H : NewtonRun M c f J t h hf u y₀ m g y) :
    NewtonIter M c f J t h hf u g y := by
  induction H with
  | start h => exact .start h
  | pass _ h ih => exact .pass ih h

/-- The scaled root-mean-square norm of a Newton increment. -/
def newtonNorm (abstol reltol : ℝ) (u : Fin n → ℝ) (Δ : Fin 3 → Fin n → ℝ) : ℝ :=
  √((∑ i, ∑ k, (Δ k i / (abstol + reltol * |u i|)) ^ 2) / (3 * n))

/-- The scaled root-mean-square norm of an error estimate. -/
def scaledNorm (abstol reltol : ℝ) (u e : Fin n → ℝ) : ℝ := √((∑ i, (e i / (abstol + reltol * |u i|)) ^ 2) / n)

/-- The weights of the published error estimate. -/
def radauE : Fin 3 → ℝ := ![-(13 + 7 * √6) / 3, (-13 + 7 * √6) / 3, -1 / 3]

/-- `e` is the error estimate of the published code for the stage increments `z` of a step of size `h` when the
derivative at the beginning of the step is `d`, the iteration matrix being `γ / hf - J`:
`(γ / hf - J) e = d + (e₁ z₁ + e₂ z₂ + e₃ z₃) / h`. -/
def IsErrEstimate (γ hf h : ℝ) (J : Fin n → Fin n → ℝ) (d : Fin n → ℝ) (z : Fin 3 → Fin n → ℝ) (e : Fin n → ℝ) : Prop :=
  ∀ i, γ / hf * e i - ∑ j, J i j * e j = d i + (∑ k, radauE k * z k i) / h

/-- The published continuous extension (function CONTR5), with nodes `c₁`, `c₂` and coefficients `κ`, at the point
`t + x h` relative to the end `t` of the step. -/
def contr5 (c₁ c₂ : ℝ) (κ : Fin 4 → ℝ) (x : ℝ) : ℝ :=
  κ 0 + x * (κ 1 + (x - (c₂ - 1)) * (κ 2 + (x - (c₁ - 1)) * κ 3))

end
end Cyphus.Spec
