import Verif.Arith.Binary64
import Mathlib.Order.Interval.Set.Defs
/-!
# Specification vocabulary: right-hand sides in double precision
-/

namespace Cyphus.Spec
open X Set
set_option autoImplicit false
variable {n : ℕ}

/-- `g` computes `f` in double precision: where the arguments are within the time span and near the solution (which is bounded by
`R`), its value is finite and differs from the exact one by at most `δ`. -/
def Evaluates (g : Vec n B64 → B64 → Vec n B64) (f : ℝ → (Fin n → ℝ) → Fin n → ℝ) (t0 tf R δ : ℝ) : Prop :=
  ∀ (u : Vec n B64) (t : B64) (υ : Fin n → ℝ) (τ : ℝ), (∀ i, (u i).x = fin (υ i)) → t.x = fin τ → τ ∈ Icc t0 tf →
    (∀ i, |υ i| ≤ R + 2) → ∀ i, ∃ w, (g u t i).x = fin w ∧ |w - f τ υ i| ≤ δ

/-- `N` is a Lipschitz constant of `f` with respect to the time. -/
def TimeLip (f : ℝ → (Fin n → ℝ) → Fin n → ℝ) (t0 tf R N : ℝ) : Prop :=
  ∀ t ∈ Icc t0 tf, ∀ s ∈ Icc t0 tf, ∀ u : Fin n → ℝ, (∀ i, |u i| ≤ R + 2) → ∀ i, |f t u i - f s u i| ≤ N * |t - s|

/-- The unit roundoff of double precision. -/
noncomputable def roundoff : ℝ := 2 ^ (-53 : ℤ)

end Cyphus.Spec
