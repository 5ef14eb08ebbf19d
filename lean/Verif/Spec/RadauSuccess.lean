import Verif.Spec.Problem
import Verif.Radau.Model
import Mathlib.Data.Complex.Basic
/-!
# Specification: the conditions under which `Radau5` reaches `tfinal`
-/

namespace Cyphus
open X
set_option autoImplicit false
noncomputable section

/-- `lam` is not an eigenvalue of `J`. -/
def Spec.NotEigen {K : Type} [Field K] {n : ℕ} (J : Fin n → Fin n → K) (lam : K) : Prop :=
  ∀ v : Fin n → K, (∀ i, ∑ j, J i j * v j = lam * v i) → v = 0

namespace Radau
variable {n : ℕ}

/-- Neither `γ / h` nor `(α + iβ) / h` is an eigenvalue of `J`: the matrices of the Newton iteration are nonsingular. -/
def Regular (J : _root_.Fin n → _root_.Fin n → ℝ) (h : ℝ) : Prop :=
  Spec.NotEigen J (U1 / h) ∧ Spec.NotEigen (fun i j => (J i j : ℂ)) ⟨ALPHA / h, BETA / h⟩

/-- The problem is bounded and the matrices of the iteration are regular for steps up to `T`. -/
structure Mild (f : ℝ → (_root_.Fin n → ℝ) → _root_.Fin n → ℝ)
    (jac : ℝ → (_root_.Fin n → ℝ) → _root_.Fin n → _root_.Fin n → ℝ) (M B T : ℝ) : Prop where
  rhs : ∀ t u i, |f t u i| ≤ M
  rows : ∀ t u i, ∑ j, |jac t u i j| ≤ B
  regular : ∀ t u h, 0 < h → h ≤ T → Regular (jac t u) h

/-- Steps up to `hs` are small: for a right-hand side bounded by `M` and a Jacobian with row sums bounded by `B`, the first correction of
the Newton iteration is below `fnewt = φ` and the scaled error below `ε`, with the absolute tolerance `a`. -/
structure SmallStep (M B a φ ε hs : ℝ) : Prop where
  pos : 0 < hs
  jac : 30 * B * hs ≤ 1
  newt : 124 * M * hs ≤ a * φ
  err : 22 * M * hs ≤ a * ε
  ε0 : 1e-10 ≤ ε
  ε1 : ε < 1

/-- Bounds for the factor by which a failed attempt changes the step. -/
structure Shrink (C : Clock) (ρ σ : ℝ) : Prop where
  ρ0 : 0 < ρ
  ρ1 : ρ ≤ 0.1
  ρ2 : ρ * max C.fr C.fl ≤ 1
  σ1 : σ < 1
  σ2 : 0.8 ≤ σ
  σ3 : C.sf ≤ σ
  σ4 : 1 ≤ σ * C.fl

/-- The controller options: a failed attempt multiplies the step by a factor between `ρ` and `σ < 1`; a small error does not reduce
the step; a factorization is never kept for the next step (`quot2 < quot1`); the initial step `1e-6` does not exceed `dtmax`. -/
structure Lively (C : Clock) (ρ σ : ℝ) : Prop extends Shrink C ρ σ where
  facr : C.fr ≤ 1
  keep : Fl.le (fin C.q1) C.q2 = false
  dtmax : ∀ m ∈ C.mx, 1e-6 ≤ m

/-- `δ` is smaller than all step sizes that occur, but larger than the spacing of the doubles; at most `K` attempts fail in a row, and
`S` calls with `K + 1` attempts each are allowed. -/
structure Budget (C : Clock) (ρ σ hs δ : ℝ) (K S max_steps : ℕ) : Prop where
  pos : 0 < δ
  start : δ ≤ 1e-6
  small : δ ≤ ρ ^ 2 * hs
  span : δ ≤ C.tf - C.t0
  spacing : max |C.t0| |C.tf| * 2 ^ (-52 : ℤ) < 0.1 * (min 1e-4 (1 - σ) * δ)
  retries : σ ^ K * (C.tf - C.t0) ≤ hs
  calls : C.tf - C.t0 ≤ S * δ
  steps : S * (K + 1) < max_steps

end Radau
end
end Cyphus
