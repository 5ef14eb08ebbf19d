import Verif.Spec.RadauSuccess
/-!
# Specification: Jacobians without growing modes
-/

namespace Cyphus
set_option autoImplicit false

/-- No eigenvalue of the real matrix `J` has a positive real part. -/
def Spec.NoGrowth {n : ℕ} (J : Fin n → Fin n → ℝ) : Prop :=
  ∀ lam : ℂ, 0 < lam.re → Spec.NotEigen (fun i j => (J i j : ℂ)) lam

/-- `J` is dissipative: `v · J v ≤ 0` for all `v`, so that no linear combination of the components grows. -/
def Spec.Dissipative {n : ℕ} (J : Fin n → Fin n → ℝ) : Prop := ∀ v : Fin n → ℝ, ∑ i, v i * ∑ j, J i j * v j ≤ 0

end Cyphus
