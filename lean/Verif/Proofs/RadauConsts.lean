import Verif.Proofs.RadauOrder
import Verif.Proofs.RadauNewton
import Verif.Props.RadauStep
/-!
# The constants of `Radau5` satisfy the order conditions up to `1e-16`
-/

namespace Cyphus
namespace Radau
set_option autoImplicit false
noncomputable section

theorem code_bounds : Conv.Consts codeTransform codeC 1e-16 where
  γ := code_ne.1
  αβ := code_ne.2
  T k l := by
    fin_cases k <;> fin_cases l <;> simp [codeTransform, T11, T12, T13, T21, T22, T23, T31] <;> norm_num [abs_le]
  TI k l := by
    fin_cases k <;> fin_cases l <;> simp [codeTransform, TI11, TI12, TI13, TI21, TI22, TI23, TI31, TI32, TI33] <;> norm_num [abs_le]
  LI k l := by
    fin_cases k <;> fin_cases l <;> simp [codeTransform, Spec.Transform.LamInv, U1, ALPHA, BETA] <;> norm_num [abs_le]
  A k l := by
    fin_cases k <;> fin_cases l <;>
    · simp [Spec.Transform.A, codeTransform, Spec.Transform.LamInv, Matrix.mul_apply, Fin.sum_univ_three,
        T11, T12, T13, T21, T22, T23, T31, TI11, TI12, TI13, TI21, TI22, TI23, TI31, TI32, TI33, U1, ALPHA, BETA]
      norm_num [abs_le]
  TL k l := by
    fin_cases k <;> fin_cases l <;>
    · simp [codeTransform, Spec.Transform.LamInv, Matrix.mul_apply, Fin.sum_univ_three,
        T11, T12, T13, T21, T22, T23, T31, U1, ALPHA, BETA]
      norm_num [abs_le]
  inv k l := (C43_constants.2.2.1 k l).trans (by norm_num)
  c0 k := by fin_cases k <;> simp [codeC, C1, C2] <;> norm_num
  c1 k := by fin_cases k <;> simp [codeC, C1, C2] <;> norm_num

/-- The matrix of the code. -/
theorem code_A : ∃ w : _root_.Fin 3 → _root_.Fin 3 → ℝ, codeTransform.A = w ∧
    (∀ k l, |w k l| ≤ 1) ∧ ∑ l, |w 2 l| ≤ 1.01 ∧ (∀ k, ∀ q < 3, |Conv.eps w codeC k q| ≤ 1e-16) ∧
    (∀ q < 5, |Conv.eps w codeC 2 q| ≤ 1e-16) ∧ |∑ l, w 2 l * Conv.eps w codeC l 3| ≤ 1e-16 := by
  refine ⟨_, rfl, fun k l => ?_, ?_, fun k q hq => ?_, fun q hq => ?_, ?_⟩
  · fin_cases k <;> fin_cases l <;>
    · simp [Spec.Transform.A, codeTransform, Spec.Transform.LamInv, Matrix.mul_apply, Fin.sum_univ_three,
        T11, T12, T13, T21, T22, T23, T31, TI11, TI12, TI13, TI21, TI22, TI23, TI31, TI32, TI33, U1, ALPHA, BETA]
      norm_num [abs_le]
  · simp [Spec.Transform.A, codeTransform, Spec.Transform.LamInv, Matrix.mul_apply, Fin.sum_univ_three,
      T11, T12, T13, T21, T22, T23, T31, TI11, TI12, TI13, TI21, TI22, TI23, TI31, TI32, TI33, U1, ALPHA, BETA]
    norm_num [abs_of_nonneg]
  · interval_cases q <;> fin_cases k <;>
    · simp [Conv.eps, codeC, C1, C2, Spec.Transform.A, codeTransform, Spec.Transform.LamInv, Matrix.mul_apply, Fin.sum_univ_three,
        T11, T12, T13, T21, T22, T23, T31, TI11, TI12, TI13, TI21, TI22, TI23, TI31, TI32, TI33, U1, ALPHA, BETA]
      norm_num [abs_le]
  · interval_cases q <;>
    · simp [Conv.eps, codeC, C1, C2, Spec.Transform.A, codeTransform, Spec.Transform.LamInv, Matrix.mul_apply, Fin.sum_univ_three,
        T11, T12, T13, T21, T22, T23, T31, TI11, TI12, TI13, TI21, TI22, TI23, TI31, TI32, TI33, U1, ALPHA, BETA]
      norm_num [abs_le]
  · simp [Conv.eps, codeC, C1, C2, Spec.Transform.A, codeTransform, Spec.Transform.LamInv, Matrix.mul_apply, Fin.sum_univ_three,
      T11, T12, T13, T21, T22, T23, T31, TI11, TI12, TI13, TI21, TI22, TI23, TI31, TI32, TI33, U1, ALPHA, BETA]
    norm_num [abs_le]

theorem code_method : Conv.Method codeTransform.A codeC 1e-16 := by
  obtain ⟨w, e, h1, h2, h3, h4, h5⟩ := code_A
  rw [e]
  exact ⟨code_bounds.c0, code_bounds.c1, by simp [codeC], h1, h2, h3, h4, h5, by norm_num, by norm_num⟩

end
end Radau
end Cyphus
