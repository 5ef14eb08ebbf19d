import Mathlib.Analysis.Matrix.PosDef
import Verif.Props.DP5Tolerance
/-!
# C88: the tolerance of `DormandPrince5` controls the global error on diffusion problems

Linear systems `u' = -A (u - g)` with a symmetric positive semidefinite matrix, of any stiffness.
-/

namespace Cyphus
open X
set_option autoImplicit false
set_option linter.unusedSectionVars false
noncomputable section
variable {n : ℕ} {P : Type} {E : DP5.Env n} {b : Builder X n P} {t0 : ℝ} {u0 : Fin n → ℝ} {s0 : DP5.St X n P}

theorem DP5.len_eq (w : Fin n → ℝ) : Spec.len w = ‖(WithLp.toLp 2 w : EuclideanSpace ℝ (Fin n))‖ := by
  rw [EuclideanSpace.norm_eq]
  simp [Spec.len]

theorem DP5.len_add (v w : Fin n → ℝ) : Spec.len (fun i => v i + w i) ≤ Spec.len v + Spec.len w := by
  rw [DP5.len_eq, DP5.len_eq, DP5.len_eq]
  exact norm_add_le (WithLp.toLp 2 v : EuclideanSpace ℝ (Fin n)) (WithLp.toLp 2 w)

theorem DP5.len_mono {v w : Fin n → ℝ} (h : ∀ i, |v i| ≤ |w i|) : Spec.len v ≤ Spec.len w :=
  Real.sqrt_le_sqrt (Finset.sum_le_sum fun i _ => sq_le_sq.2 (h i))

/-- Coordinates in which the matrix is diagonal and lengths are the same. -/
theorem DP5.modes {A : Fin n → Fin n → ℝ} (hA : Spec.Diffusive A) : ∃ (φ : Fin n → (Fin n → ℝ) →ₗ[ℝ] ℝ) (lam : Fin n → ℝ),
    (∀ i, 0 ≤ lam i) ∧ (∀ i w, φ i (fun m => ∑ j, A m j * w j) = lam i * φ i w) ∧
      ∀ w, Spec.len (fun i => φ i w) = Spec.len w := by
  have hH : (Matrix.of A).IsHermitian := by
    ext i j
    simp [hA.symm j i]
  have hP : (Matrix.of A).PosSemidef := by
    refine Matrix.PosSemidef.of_dotProduct_mulVec_nonneg hH fun w => ?_
    have := hA.nonneg w
    simpa [dotProduct, Matrix.mulVec] using this
  refine ⟨fun i => dotProductBilin ℝ ℝ (WithLp.ofLp (hH.eigenvectorBasis i)), hH.eigenvalues, hP.eigenvalues_nonneg, fun i w => ?_, fun w => ?_⟩
  · have h1 := hH.mulVec_eigenvectorBasis i
    change (hH.eigenvectorBasis i).ofLp ⬝ᵥ (Matrix.of A).mulVec w = hH.eigenvalues i * ((hH.eigenvectorBasis i).ofLp ⬝ᵥ w)
    have hT : (Matrix.of A).transpose = Matrix.of A := by
      ext a c
      simp [hA.symm c a]
    rw [Matrix.dotProduct_mulVec, ← Matrix.mulVec_transpose, hT, h1, smul_dotProduct, smul_eq_mul]
  · have h1 := hH.eigenvectorBasis.sum_sq_norm_inner_right (WithLp.toLp 2 w)
    rw [DP5.len_eq w, ← Real.sqrt_sq (norm_nonneg _), ← h1, Spec.len]
    congr 1
    refine Finset.sum_congr rfl fun i _ => ?_
    rw [EuclideanSpace.inner_eq_star_dotProduct, Real.norm_eq_abs, sq_abs]
    change ((hH.eigenvectorBasis i).ofLp ⬝ᵥ w) ^ 2 = _
    rw [dotProduct_comm]
    rfl

/-- `w ↦ -A w`. -/
def DP5.diffMap (A : Fin n → Fin n → ℝ) : (Fin n → ℝ) →ₗ[ℝ] (Fin n → ℝ) where
  toFun w := fun i => -∑ j, A i j * w j
  map_add' u v := by
    funext i
    simp only [Pi.add_apply, mul_add, Finset.sum_add_distrib]
    ring
  map_smul' c u := by
    funext i
    simp only [Pi.smul_apply, smul_eq_mul, RingHom.id_apply, mul_neg, Finset.mul_sum]
    congr 1
    exact Finset.sum_congr rfl fun j _ => by ring

theorem DP5.diffMap_pow {A : Fin n → Fin n → ℝ} {φ : (Fin n → ℝ) →ₗ[ℝ] ℝ} {lam : ℝ}
    (hφ : ∀ w, φ (fun m => ∑ j, A m j * w j) = lam * φ w) (k : ℕ) (w : Fin n → ℝ) :
    φ ((DP5.diffMap A ^ k) w) = (-lam) ^ k * φ w := by
  induction k with
  | zero => simp
  | succ k ih =>
    rw [pow_succ', Module.End.mul_apply]
    change φ (-fun m => ∑ j, A m j * (DP5.diffMap A ^ k) w j) = _
    rw [map_neg, hφ, ih]
    ring

theorem DP5.diff_stages {A : Fin n → Fin n → ℝ} {g : Fin n → ℝ} {f : ℝ → (Fin n → ℝ) → Fin n → ℝ}
    (hf : ∀ t u i, f t u i = -∑ j, A i j * (u j - g j))
    {t h : ℝ} {u : Fin n → ℝ} {k : Fin 7 → Fin n → ℝ} (hk : Spec.IsStages Spec.dopri5 f t u h k) :
    Spec.IsStages Spec.dopri5 (fun _ w => DP5.diffMap A w) t (u - g) h k := by
  intro i
  rw [hk i]
  funext m
  rw [hf]
  change -_ = -∑ j, A m j * (u j - g j + _)
  congr 1
  exact Finset.sum_congr rfl fun j _ => by ring

theorem DP5.diff_step {A : Fin n → Fin n → ℝ} {g : Fin n → ℝ} {f : ℝ → (Fin n → ℝ) → Fin n → ℝ}
    (hf : ∀ t u i, f t u i = -∑ j, A i j * (u j - g j)) {φ : (Fin n → ℝ) →ₗ[ℝ] ℝ} {lam : ℝ}
    (hφ : ∀ w, φ (fun m => ∑ j, A m j * w j) = lam * φ w)
    {t h : ℝ} {u u' e : Fin n → ℝ} (h1 : Spec.IsStep Spec.dopri5 f t u h u') (h2 : Spec.IsErr Spec.dopri5 f t u h e) :
    φ (u' - g) = DP5.R (lam * h) * φ (u - g) ∧ φ e = DP5.Q (lam * h) * φ (u - g) := by
  obtain ⟨k, a1, a2⟩ := h1
  obtain ⟨k', b1, b2⟩ := h2
  have r1 := C20_linear_step (DP5.diffMap A) t (u - g) (u' - g) h ⟨k, DP5.diff_stages hf a1, fun m => by
    rw [Pi.sub_apply, Pi.sub_apply, a2]
    ring⟩
  have r2 := C20_linear_error (DP5.diffMap A) t (u - g) e h ⟨k', DP5.diff_stages hf b1, b2⟩
  constructor
  · rw [r1]
    simp only [DP5.stab, Finset.sum_range_succ, Finset.sum_range_zero, smul_pow, LinearMap.add_apply, LinearMap.smul_apply,
      map_add, map_smul, DP5.diffMap_pow hφ, smul_eq_mul, zero_add]
    norm_num [Nat.factorial]
    unfold DP5.R
    ring
  · rw [r2]
    simp only [smul_pow, LinearMap.add_apply, LinearMap.smul_apply, map_add, map_smul, DP5.diffMap_pow hφ, smul_eq_mul]
    unfold DP5.Q
    ring

/-- The length of an accepted error estimate. -/
theorem DP5.err_len (hn : n ≠ 0) {a r M : ℝ} (ha : 0 < a) (hr : 0 ≤ r) {u u' e : Fin n → ℝ} (h : Spec.errNorm a r u u' e ≤ 1)
    (hu : ∀ i, |u i| ≤ M) (hu' : ∀ i, |u' i| ≤ M) : Spec.len e ≤ √n * (a + r * M) := by
  have hn' : (0 : ℝ) < n := by positivity
  have hM : 0 ≤ M := (abs_nonneg _).trans (hu ⟨0, Nat.pos_of_ne_zero hn⟩)
  have hK : 0 < a + r * M := by
    have := mul_nonneg hr hM
    linarith
  have hsc : ∀ j, 0 < a + r * max |u j| |u' j| := fun j => by
    have : 0 ≤ r * max |u j| |u' j| := mul_nonneg hr ((abs_nonneg _).trans (le_max_left _ _))
    linarith
  unfold Spec.errNorm at h
  rw [Real.sqrt_le_left one_pos.le, one_pow, div_le_one hn'] at h
  have h1 : ∑ i, e i ^ 2 ≤ n * (a + r * M) ^ 2 := by
    refine le_trans ?_ (mul_le_mul_of_nonneg_right h (sq_nonneg _))
    rw [Finset.sum_mul]
    refine Finset.sum_le_sum fun i _ => ?_
    rw [div_pow, div_mul_eq_mul_div, le_div_iff₀ (pow_pos (hsc i) 2)]
    refine mul_le_mul_of_nonneg_left (pow_le_pow_left₀ (hsc i).le ?_ 2) (sq_nonneg _)
    linarith [mul_le_mul_of_nonneg_left (max_le (hu i) (hu' i)) hr]
  unfold Spec.len
  refine (Real.sqrt_le_sqrt h1).trans ?_
  rw [Real.sqrt_mul hn'.le, Real.sqrt_sq hK.le]

/-- In such coordinates the exact solution decays exponentially. -/
theorem DP5.mode_exact {A : Fin n → Fin n → ℝ} {g : Fin n → ℝ} {f : ℝ → (Fin n → ℝ) → Fin n → ℝ}
    (hf : ∀ t u i, f t u i = -∑ j, A i j * (u j - g j)) {φ : (Fin n → ℝ) →ₗ[ℝ] ℝ} {lam : ℝ}
    (hφ : ∀ w, φ (fun m => ∑ j, A m j * w j) = lam * φ w) {y : ℝ → Fin n → ℝ} (hy : ∀ t, HasDerivAt y (f t (y t)) t) (p q : ℝ) :
    φ (y q - g) = Real.exp (-(lam * (q - p))) * φ (y p - g) := by
  have h1 : ∀ t, HasDerivAt (fun t => φ (y t - g)) (-lam * φ (y t - g)) t := fun t => by
    have h2 := (LinearMap.toContinuousLinearMap φ).hasFDerivAt.comp_hasDerivAt t ((hy t).sub_const g)
    refine h2.congr_deriv ?_
    change φ (f t (y t)) = _
    have : f t (y t) = -fun m => ∑ j, A m j * (y t - g) j := by
      funext m
      rw [hf]
      rfl
    rw [this, map_neg, hφ]
    ring
  have h3 : ∀ t, HasDerivAt (fun t => Real.exp (lam * t) * φ (y t - g)) 0 t := fun t => by
    have h4 := (((hasDerivAt_id t).const_mul lam).exp).mul (h1 t)
    refine h4.congr_deriv ?_
    simp
    ring
  have h5 := is_const_of_deriv_eq_zero (fun t => (h3 t).differentiableAt) (fun t => (h3 t).deriv) q p
  have h6 : Real.exp (-(lam * (q - p))) = Real.exp (lam * p) * Real.exp (-(lam * q)) := by
    rw [← Real.exp_add]
    congr 1
    ring
  rw [h6]
  have h7 : Real.exp (lam * q) * Real.exp (-(lam * q)) = 1 := by
    rw [← Real.exp_add]
    simp
  linear_combination Real.exp (-(lam * q)) * h5 - φ (y q - g) * h7

/-- **C88** Integrate `u' = -A (u - g)` forwards, where `A` is symmetric and positive semidefinite (heat conduction, diffusion on
networks), of any stiffness. If the recorded values are at most `M`, the `j`-th recorded state differs from the exact solution `y`, in
the Euclidean norm, by at most `j` times `√n (abstol + reltol M) / 0.65`. -/
theorem C88_diffusion_dp5 (H : DP5.Problem E b t0 u0) (hS : E.Sane) (ht : t0 ≤ E.tf) (hb : b.build DP5.alg = .ok s0) {k : ℕ}
    {s : DP5.St X n P} (hs : Steps DP5.alg none k s0 s) {A : Fin n → Fin n → ℝ} (hA : Spec.Diffusive A) (g : Fin n → ℝ)
    (hf : ∀ t u i, E.f t u i = -∑ j, A i j * (u j - g j)) {y : ℝ → Fin n → ℝ} (hy0 : y t0 = u0)
    (hy : ∀ t, HasDerivAt y (E.f t (y t)) t) :
    ∃ l, Recorded s.sol l ∧ l.head? = some (t0, u0) ∧ l.length = k + 1 ∧ ∀ M, (∀ p ∈ l, ∀ i, |p.2 i| ≤ M) →
      ∀ j (hj : j < l.length), Spec.len (fun i => (l[j]).2 i - y (l[j]).1 i) ≤ j * (√n * (E.a + E.r * M) / 0.65) := by
  obtain ⟨l, h1, h2, h3, h4⟩ := C16_recorded_errors_dp5 H hb hs
  obtain ⟨l', -, -, -, -, -, -, g1, -, -, -, g2⟩ := DP5.forward_chain H hS ht hb hs
  obtain rfl := h1.unique g1
  refine ⟨l, h1, h2, h3, fun M hM j => ?_⟩
  rw [List.isChain_iff_getElem] at h4 g2
  obtain ⟨φ, lam, hl, hφ, hlen⟩ := DP5.modes hA
  induction j with
  | zero =>
    intro hj
    have e : l[0] = (t0, u0) := by
      rw [List.head?_eq_getElem?, List.getElem?_eq_getElem hj] at h2
      exact Option.some.inj h2
    rw [e]
    simp [hy0, Spec.len]
  | succ j ih =>
    intro hj
    have hj' : j < l.length := by omega
    obtain ⟨h, e, c1, c2, c3, c4⟩ := h4 j hj
    have hh : 0 ≤ h := by linarith [(g2 j hj).1]
    have b1 := DP5.err_len H.dim H.tol.abs_pos H.tol.rel_nonneg c4 (hM _ (List.getElem_mem hj')) (hM _ (List.getElem_mem hj))
    have b4 := ih hj'
    set p := l[j]
    set q := l[j + 1]
    have hq : ∀ i, φ i (q.2 - y q.1) = (DP5.R (lam i * h) - Real.exp (-(lam i * h))) * φ i (p.2 - g)
        + Real.exp (-(lam i * h)) * φ i (p.2 - y p.1) := fun i => by
      have e1 := (DP5.diff_step hf (hφ i) c2 c3).1
      have e3 := DP5.mode_exact hf (hφ i) hy p.1 q.1
      have e4 : q.1 - p.1 = h := by
        rw [c1]
        ring
      rw [e4] at e3
      simp only [map_sub] at e1 e3 ⊢
      linear_combination e1 - e3
    change Spec.len (q.2 - y q.1) ≤ _
    rw [← hlen (q.2 - y q.1), funext hq]
    refine (DP5.len_add _ _).trans ?_
    have k1 : Spec.len (fun i => (DP5.R (lam i * h) - Real.exp (-(lam i * h))) * φ i (p.2 - g)) ≤ √n * (E.a + E.r * M) / 0.65 := by
      rw [le_div_iff₀ (by norm_num)]
      refine le_trans ?_ b1
      rw [← hlen e]
      have : Spec.len (fun i => (DP5.R (lam i * h) - Real.exp (-(lam i * h))) * φ i (p.2 - g)) * 0.65 =
          Spec.len (fun i => 0.65 * ((DP5.R (lam i * h) - Real.exp (-(lam i * h))) * φ i (p.2 - g))) := by
        unfold Spec.len
        simp only [mul_pow _ _ 2, ← Finset.mul_sum]
        rw [Real.sqrt_mul (by norm_num) (∑ i, _), Real.sqrt_sq (by norm_num), mul_comm]
      rw [this]
      refine DP5.len_mono fun i => ?_
      rw [(DP5.diff_step hf (hφ i) c2 c3).2, abs_mul, abs_mul, abs_mul, ← mul_assoc]
      refine mul_le_mul_of_nonneg_right ?_ (abs_nonneg _)
      rw [abs_of_pos (by norm_num : (0 : ℝ) < 0.65)]
      exact (DP5.local_error (mul_nonneg (hl i) hh)).trans (le_abs_self _)
    have k2 : Spec.len (fun i => Real.exp (-(lam i * h)) * φ i (p.2 - y p.1)) ≤ Spec.len (fun i => p.2 i - y p.1 i) := by
      change _ ≤ Spec.len (p.2 - y p.1)
      rw [← hlen (p.2 - y p.1)]
      refine DP5.len_mono fun i => ?_
      rw [abs_mul, abs_of_pos (Real.exp_pos _)]
      refine mul_le_of_le_one_left (abs_nonneg _) (Real.exp_le_one_iff.2 ?_)
      have := mul_nonneg (hl i) hh
      linarith
    push_cast
    linarith

theorem DP5.some_bound (l : List (ℝ × (Fin n → ℝ))) : ∃ M : ℝ, ∀ p ∈ l, ∀ i, |p.2 i| ≤ M := by
  induction l with
  | nil => exact ⟨0, by simp⟩
  | cons x l ih =>
    obtain ⟨M, hM⟩ := ih
    refine ⟨max M (∑ i, |x.2 i|), fun p hp i => ?_⟩
    rcases List.mem_cons.1 hp with rfl | hp
    · exact le_max_of_le_right (Finset.single_le_sum (f := fun i => |p.2 i|) (fun i _ => abs_nonneg _) (Finset.mem_univ i))
    · exact le_max_of_le_left (hM p hp i)

/-- Exchange between two compartments with the rate `c`: all hypotheses on the problem hold, and `integrate` returns with at least one
accepted step. -/
example (c : ℝ) (hc : 0 ≤ c) : ∃ (A : Fin 2 → Fin 2 → ℝ) (E : DP5.Env 2) (b : Builder X 2 Unit) (s0 s : DP5.St X 2 Unit)
    (y : ℝ → Fin 2 → ℝ) (k : ℕ), Spec.Diffusive A ∧ A 0 0 = c ∧ A 0 1 = -c ∧ DP5.Problem E b 0 ![1, 0] ∧ E.Sane ∧ 0 ≤ E.tf ∧
    b.build DP5.alg = .ok s0 ∧ IntegrateReturns DP5.alg none s0 s ∧ Steps DP5.alg none (k + 1) s0 s ∧
    (∀ t u i, E.f t u i = -∑ j, A i j * (u j - (0 : Fin 2 → ℝ) j)) ∧ y 0 = ![1, 0] ∧ ∀ t, HasDerivAt y (E.f t (y t)) t := by
  let A : Fin 2 → Fin 2 → ℝ := ![![c, -c], ![-c, c]]
  let f : ℝ → (Fin 2 → ℝ) → Fin 2 → ℝ := fun _ u => ![-(c * (u 0 - u 1)), -(c * (u 1 - u 0))]
  have H := DP5.default_problem (P := Unit) two_ne_zero
    (dudt := fun _ _ u _ => ![-(fin c * (u 0 - u 1)), -(fin c * (u 1 - u 0))]) (p := ()) (f := f)
    (fun _ _ _ => by funext i; fin_cases i <;> simp [f]) 0 1 ![1, 0]
  obtain ⟨s0, hb⟩ : ∃ s0 : DP5.St X 2 Unit, (Builder.default DP5.alg (fun _ _ u _ => ![-(fin c * (u 0 - u 1)), -(fin c * (u 1 - u 0))])
    (fv ![1, 0]) (fin 0, fin 1) ()).build DP5.alg = .ok s0 := ⟨_, rfl⟩
  obtain ⟨s, hs⟩ := C13_integrate_returns_dp5 H (DP5.default_sane _ _ _) (by norm_num [DP5.defaultEnv])
    (by norm_num [DP5.defaultEnv]) (fun t u => by
      refine ⟨1, one_pos, c * (|u 0| + |u 1| + 2), fun t' u' _ hu i => ?_⟩
      have h0 := hu 0
      have h1 := hu 1
      have k0 := abs_sub_abs_le_abs_sub (u' 0) (u 0)
      have k1 := abs_sub_abs_le_abs_sub (u' 1) (u 1)
      have k2 := abs_sub (u' 0) (u' 1)
      have k3 : |u' 1 - u' 0| = |u' 0 - u' 1| := abs_sub_comm _ _
      have k4 : |f t' u' i| = c * |u' 0 - u' 1| := by
        fin_cases i
        · simp [f, abs_mul, abs_of_nonneg hc]
        · simp [f, abs_mul, abs_of_nonneg hc, k3]
      change |f t' u' i| ≤ _
      rw [k4]
      exact mul_le_mul_of_nonneg_left (by linarith) hc) hb
  obtain ⟨k, s1, h1, h2⟩ := (integrate_iff DP5.fuelMono).1 hs
  refine ⟨A, _, _, s0, s, fun t => ![1 / 2 + Real.exp (-(2 * c * t)) / 2, 1 / 2 - Real.exp (-(2 * c * t)) / 2], k, ⟨?_, ?_⟩, rfl, rfl, H,
    DP5.default_sane _ _ _, by norm_num [DP5.defaultEnv], hb, hs, .succ h1.steps h2, fun t u i => ?_, ?_, fun t => ?_⟩
  · intro i j
    fin_cases i <;> fin_cases j <;> rfl
  · intro w
    have : ∑ i, w i * ∑ j, A i j * w j = c * (w 0 - w 1) ^ 2 := by
      simp [A, Fin.sum_univ_two]
      ring
    rw [this]
    positivity
  · change f t u i = _
    fin_cases i <;> simp [f, A, Fin.sum_univ_two] <;> ring
  · funext i
    fin_cases i <;> norm_num
  · rw [hasDerivAt_pi]
    have h3 : HasDerivAt (fun t => Real.exp (-(2 * c * t)) / 2) (-(c * Real.exp (-(2 * c * t)))) t := by
      refine ((((hasDerivAt_id t).const_mul (2 * c)).neg.exp).div_const 2).congr_deriv ?_
      simp
      ring
    intro i
    fin_cases i
    · refine (h3.const_add (1 / 2)).congr_deriv ?_
      change _ = -(c * ((1 / 2 + Real.exp (-(2 * c * t)) / 2) - (1 / 2 - Real.exp (-(2 * c * t)) / 2)))
      ring
    · refine (h3.const_sub (1 / 2)).congr_deriv ?_
      change _ = -(c * ((1 / 2 - Real.exp (-(2 * c * t)) / 2) - (1 / 2 + Real.exp (-(2 * c * t)) / 2)))
      ring

end
end Cyphus
