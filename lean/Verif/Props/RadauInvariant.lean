import Verif.Proofs.RadauRun
import Mathlib.Algebra.BigOperators.Field
/-!
# Conservation of linear invariants and of equilibria by `Radau5` (C51, C52)

Cases that meet the hypotheses of the theorems are in `Verif/Props/RadauExamples.lean`.
-/

namespace Cyphus
open X
set_option autoImplicit false
set_option linter.unusedSectionVars false

noncomputable section
variable {n : ℕ} {P : Type} {b : Builder X n P} {f : ℝ → (Fin n → ℝ) → Fin n → ℝ}
  {jac : ℝ → (Fin n → ℝ) → Fin n → Fin n → ℝ} {u0 : Fin n → ℝ} {C : Radau.Clock} {s0 s : Radau.St X n P}

/-- The first unit vector is not an eigenvector of `J` for an eigenvalue which is not zero (and positive, if `pos`).
Nothing is required of `1 × 1` matrices. For such matrices no iteration matrix `λ - J` has a first column of zeros
(in which case the factorization silently does nothing, see C35). -/
def Spec.FirstNotEigen (pos : Prop) (J : Fin n → Fin n → ℝ) : Prop :=
  ∀ h : 2 ≤ n, ∀ lam : ℝ, lam ≠ 0 → (pos → 0 < lam) → ∃ i : Fin n, J i ⟨0, by omega⟩ ≠ if i.val = 0 then lam else 0

/-- The general principle: if a subspace `V` is such that `f` takes values in `V` on `u0 + V`, and the Jacobians at
points of `u0 + V` map `V` into `V`, then `Radau5` records only finite points of `u0 + V`. -/
theorem C51_invariant_subspace_radau (R : Radau.RealProblem b f jac u0) (T : Radau.Timed C b)
    (V : Submodule ℝ (Fin n → ℝ)) (hf : ∀ t u, u - u0 ∈ V → f t u ∈ V)
    (hJ : ∀ t u, u - u0 ∈ V → ∀ v ∈ V, (fun i => ∑ j, jac t u i j * v j) ∈ V)
    (hc : ∀ t u, u - u0 ∈ V → Spec.FirstNotEigen (C.Sane ∧ C.t0 ≤ C.tf) (jac t u))
    (hb : b.build Radau.alg = .ok s0)
    (hs : (∃ k, SomeSteps Radau.alg none k s0 s) ∨ IntegrateReturns Radau.alg none s0 s) :
    ∃ l, Recorded s.sol l ∧ ∀ p ∈ l, p.2 - u0 ∈ V :=
  (R.run (V := V) T ⟨hf, fun t u hu => ⟨hJ t u hu, fun lam h1 h2 h3 => hc t u hu h3 lam h1 h2⟩⟩ hb hs).pts

/-- Difference quotients inherit a linear invariant of the right-hand side. -/
theorem jac_linear_invariant (R : Radau.RealProblem b f jac u0) {w : Fin n → ℝ}
    (hf : ∀ t u, ∑ i : Fin n, w i * f t u i = 0) (hJ : ∀ g, b.dfdu = some g → ∀ t u (j : Fin n), ∑ i, w i * jac t u i j = 0)
    (t : ℝ) (u : Fin n → ℝ) (j : Fin n) : ∑ i, w i * jac t u i j = 0 := by
  cases hd : b.dfdu with
  | some g => exact hJ g hd t u j
  | none =>
    have := R.jac
    rw [hd] at this
    change jac = _ at this
    rw [this]
    simp only [Spec.fdJacobian, mul_div_assoc', mul_sub]
    rw [← Finset.sum_div, Finset.sum_sub_distrib, hf, hf]
    simp

/-- **C51** Linear invariants: if `w · f(t, u) = 0` for all `t`, `u` and the user's Jacobian (if there is one) satisfies
`wᵀ J = 0`, then all points recorded by `Radau5` are finite and `w · u` is the same at all of them. (If `w 0 ≠ 0` the last
hypothesis is not needed, see `C51_linear_invariants_radau`.) -/
theorem C51_linear_invariants_general_radau (R : Radau.RealProblem b f jac u0) (T : Radau.Timed C b) (w : Fin n → ℝ)
    (hf : ∀ t u, ∑ i, w i * f t u i = 0)
    (hJ : ∀ g, b.dfdu = some g → ∀ t u j, ∑ i, w i * jac t u i j = 0)
    (hc : ∀ t u, Spec.FirstNotEigen (C.Sane ∧ C.t0 ≤ C.tf) (jac t u))
    (hb : b.build Radau.alg = .ok s0)
    (hs : (∃ k, SomeSteps Radau.alg none k s0 s) ∨ IntegrateReturns Radau.alg none s0 s) :
    ∃ l, Recorded s.sol l ∧ ∀ p ∈ l, ∑ i, w i * p.2 i = ∑ i, w i * u0 i := by
  have hJ' := jac_linear_invariant R hf hJ
  let φ : (Fin n → ℝ) →ₗ[ℝ] ℝ := ∑ i, w i • LinearMap.proj i
  have hφ : ∀ v, φ v = ∑ i, w i * v i := by
    intro v
    simp [φ, LinearMap.sum_apply]
  obtain ⟨l, h1, h2⟩ := C51_invariant_subspace_radau R T (LinearMap.ker φ)
    (fun t u _ => by rw [LinearMap.mem_ker, hφ, hf])
    (fun t u _ v _ => by
      rw [LinearMap.mem_ker, hφ]
      simp only [Finset.mul_sum]
      rw [Finset.sum_comm]
      refine Finset.sum_eq_zero fun j _ => ?_
      have := hJ' t u j
      simp only [← mul_assoc, ← Finset.sum_mul, this, zero_mul])
    (fun t u _ => hc t u) hb hs
  refine ⟨l, h1, fun p hp => ?_⟩
  have := h2 p hp
  rw [LinearMap.mem_ker, map_sub, hφ, hφ] at this
  linarith

/-- **C51** As before, if the first component takes part in the invariant, for example for the sum of all components. -/
theorem C51_linear_invariants_radau (R : Radau.RealProblem b f jac u0) (T : Radau.Timed C b) (w : Fin n → ℝ)
    (hf : ∀ t u, ∑ i, w i * f t u i = 0)
    (hJ : ∀ g, b.dfdu = some g → ∀ t u j, ∑ i, w i * jac t u i j = 0)
    (hw : ∀ h : 0 < n, w ⟨0, h⟩ ≠ 0)
    (hb : b.build Radau.alg = .ok s0)
    (hs : (∃ k, SomeSteps Radau.alg none k s0 s) ∨ IntegrateReturns Radau.alg none s0 s) :
    ∃ l, Recorded s.sol l ∧ ∀ p ∈ l, ∑ i, w i * p.2 i = ∑ i, w i * u0 i := by
  refine C51_linear_invariants_general_radau R T w hf hJ (fun t u h lam h1 _ => ?_) hb hs
  have hJ' := jac_linear_invariant R hf hJ t u
  by_contra hcon
  push Not at hcon
  have := hJ' ⟨0, by omega⟩
  simp only [hcon] at this
  rw [Finset.sum_eq_single (⟨0, by omega⟩ : Fin n)] at this
  · simp at this
    rcases this with h3 | h3
    · exact hw _ h3
    · exact h1 h3
  · intro i _ hi
    have : i.val ≠ 0 := fun h => hi (Fin.ext h)
    simp [this]
  · simp

/-- **C52** Equilibria: if `f(t, u0) = 0` for all `t`, every point `Radau5` records is `u0`. -/
theorem C52_equilibrium_radau (R : Radau.RealProblem b f jac u0) (T : Radau.Timed C b) (hf : ∀ t, f t u0 = 0)
    (hc : ∀ t, Spec.FirstNotEigen (C.Sane ∧ C.t0 ≤ C.tf) (jac t u0))
    (hb : b.build Radau.alg = .ok s0)
    (hs : (∃ k, SomeSteps Radau.alg none k s0 s) ∨ IntegrateReturns Radau.alg none s0 s) :
    ∃ l, Recorded s.sol l ∧ ∀ p ∈ l, p.2 = u0 := by
  obtain ⟨l, h1, h2⟩ := C51_invariant_subspace_radau R T ⊥
    (fun t u hu => by
      rw [Submodule.mem_bot, sub_eq_zero] at hu
      rw [hu, hf]; exact Submodule.zero_mem _)
    (fun t u _ v hv => by
      rw [Submodule.mem_bot] at hv
      subst hv
      rw [Submodule.mem_bot]
      funext i
      simp)
    (fun t u hu => by
      rw [Submodule.mem_bot, sub_eq_zero] at hu
      rw [hu]; exact hc t) hb hs
  refine ⟨l, h1, fun p hp => ?_⟩
  have := h2 p hp
  rwa [Submodule.mem_bot, sub_eq_zero] at this

end
end Cyphus
