import Verif.Proofs.Converge
/-!
# The error of the continuous extension of the Dormand-Prince method
-/

namespace Cyphus.Conv
open Asymptotics Filter Topology Set Metric
set_option autoImplicit false
set_option linter.unusedSectionVars false

variable {E : Type*} [NormedAddCommGroup E] [NormedSpace ℝ E]
variable {f : ℝ → E → E} {y : ℝ → E} {a b R M L : ℝ}

/-- The continuous extension of a step. -/
noncomputable def dense (f : ℝ → E → E) (t : ℝ) (u : E) (h θ : ℝ) : E :=
  u + θ • ((step f t u h - u) + (1 - θ) • ((h • k1 f t u - (step f t u h - u)) + θ •
    (((step f t u h - u) - h • k7 f t u h - (h • k1 f t u - (step f t u h - u))) + (1 - θ) • (h • dcomb f t u h))))

/-- **The local error of the continuous extension**, uniformly over the step. -/
theorem Setup.dense_error (S : Setup f y a b) : ∃ C > 0, ∃ h0 > 0, ∀ t h θ, a ≤ t → 0 ≤ h → t + h ≤ b → h ≤ h0 →
    0 ≤ θ → θ ≤ 1 → ‖dense f t (y t) h θ - y (t + θ * h)‖ ≤ C * h ^ 5 := by
  obtain ⟨m1, m2, m3⟩ := S.local_errors
  have o2 : Ord a b 5 fun p => (step f p.1 (y p.1) p.2 - y p.1) -
      (p.2 • S.Y 1 p.1 + (p.2 ^ 2 / 2) • S.Y 2 p.1 + (p.2 ^ 3 / 6) • S.Y 3 p.1 + (p.2 ^ 4 / 24) • S.Y 4 p.1) := by
    have := taylor (m := 5) (fun k hk => S.dY k (by omega)) (S.cY 5 (by omega)) (c := 1) (by norm_num) (by norm_num)
    refine ((m1.mono (m := 5) (by omega)).add this).congr (Eventually.of_forall fun p => ?_)
    simp only [one_mul, Finset.sum_range_succ, Finset.range_zero, Finset.sum_empty, Nat.factorial, S.zero]
    push_cast
    module
  have o7 : Ord a b 5 fun p => p.2 • k7 f p.1 (y p.1) p.2 -
      (p.2 • S.Y 1 p.1 + p.2 ^ 2 • S.Y 2 p.1 + (p.2 ^ 3 / 2) • S.Y 3 p.1 + (p.2 ^ 4 / 6) • S.Y 4 p.1) := by
    have := taylor (m := 4) (g := fun j => S.Y (j + 1)) (fun k hk => S.dY (k + 1) (by omega)) (S.cY 5 (by omega)) (c := 1)
      (by norm_num) (by norm_num)
    refine (((m2.mono (m := 4) (by omega)).add this).h1).congr (Eventually.of_forall fun p => ?_)
    simp only [one_mul, Finset.sum_range_succ, Finset.range_zero, Finset.sum_empty, Nat.factorial]
    push_cast
    module
  have o5 : Ord a b 5 fun p => p.2 • dcomb f p.1 (y p.1) p.2 - (p.2 ^ 4 / 24) • S.Y 4 p.1 := by
    refine m3.h1.congr (Eventually.of_forall fun p => ?_)
    module
  obtain ⟨C2, p2, h2, q2, b2⟩ := o2.bound
  obtain ⟨C7, p7, h7, q7, b7⟩ := o7.bound
  obtain ⟨C5, p5, h5, q5, b5⟩ := o5.bound
  obtain ⟨C0, b0⟩ := taylor_bound (m := 5) (fun k hk => S.dY k (by omega)) (S.cY 5 (by omega))
  refine ⟨4 * C2 + C7 + C5 + |C0|, by positivity, min h2 (min h7 h5), by positivity, ?_⟩
  intro t h θ i1 i2 i3 i4 i5 i6
  have c2 := b2 t h i1 i2 i3 (i4.trans (min_le_left _ _))
  have c7 := b7 t h i1 i2 i3 (i4.trans ((min_le_right _ _).trans (min_le_left _ _)))
  have c5 := b5 t h i1 i2 i3 (i4.trans ((min_le_right _ _).trans (min_le_right _ _)))
  have jh : θ * h ≤ h := mul_le_of_le_one_left i2 i6
  have c0 := b0 t (θ * h) i1 (mul_nonneg i5 i2) (by linarith)
  have c0' : C0 * (θ * h) ^ 5 ≤ |C0| * h ^ 5 :=
    mul_le_mul (le_abs_self _) (pow_le_pow_left₀ (mul_nonneg i5 i2) jh 5) (pow_nonneg (mul_nonneg i5 i2) 5) (abs_nonneg _)
  replace c0 := c0.trans c0'
  simp only [Finset.sum_range_succ, Finset.range_zero, Finset.sum_empty, Nat.factorial, S.zero] at c0
  have hk : k1 f t (y t) = S.Y 1 t := (S.ode _ ⟨i1, by linarith⟩).symm
  dsimp only at c2 c7 c5
  set δ2 := (step f t (y t) h - y t) -
    (h • S.Y 1 t + (h ^ 2 / 2) • S.Y 2 t + (h ^ 3 / 6) • S.Y 3 t + (h ^ 4 / 24) • S.Y 4 t) with e2
  set δ7 := h • k7 f t (y t) h - (h • S.Y 1 t + h ^ 2 • S.Y 2 t + (h ^ 3 / 2) • S.Y 3 t + (h ^ 4 / 6) • S.Y 4 t) with e7
  set δ5 := h • dcomb f t (y t) h - (h ^ 4 / 24) • S.Y 4 t with e5
  set δ0 := y (t + θ * h) - _ with e0
  have e : dense f t (y t) h θ - y (t + θ * h) = (θ - θ * (1 - θ) + 2 * (θ * θ * (1 - θ))) • δ2 + (-(θ * θ * (1 - θ))) • δ7 +
      (θ * θ * (1 - θ) * (1 - θ)) • δ5 - δ0 := by
    rw [e2, e7, e5, e0, dense, hk]
    push_cast
    module
  have k1 : 0 ≤ 1 - θ := by linarith
  have k2 : θ * θ ≤ 1 := by nlinarith
  have k3 : 0 ≤ θ * θ := mul_nonneg i5 i5
  have k4 : θ * θ * (1 - θ) ≤ 1 := by nlinarith
  have k5 : 0 ≤ θ * θ * (1 - θ) := mul_nonneg k3 k1
  have k6 : θ * (1 - θ) ≤ 1 := by nlinarith
  have k7 : 0 ≤ θ * (1 - θ) := mul_nonneg i5 k1
  have k8 : θ * θ * (1 - θ) * (1 - θ) ≤ 1 := by nlinarith
  have k9 : 0 ≤ θ * θ * (1 - θ) * (1 - θ) := mul_nonneg k5 k1
  have n2 : ‖(θ - θ * (1 - θ) + 2 * (θ * θ * (1 - θ))) • δ2‖ ≤ 4 * (C2 * h ^ 5) := by
    rw [norm_smul, Real.norm_eq_abs]
    exact mul_le_mul (abs_le.2 ⟨by linarith, by linarith⟩) c2 (norm_nonneg _) (by norm_num)
  have n7 : ‖(-(θ * θ * (1 - θ))) • δ7‖ ≤ 1 * (C7 * h ^ 5) := by
    rw [norm_smul, Real.norm_eq_abs]
    exact mul_le_mul (abs_le.2 ⟨by linarith, by linarith⟩) c7 (norm_nonneg _) (by norm_num)
  have n5 : ‖(θ * θ * (1 - θ) * (1 - θ)) • δ5‖ ≤ 1 * (C5 * h ^ 5) := by
    rw [norm_smul, Real.norm_eq_abs]
    exact mul_le_mul (abs_le.2 ⟨by linarith, by linarith⟩) c5 (norm_nonneg _) (by norm_num)
  rw [e]
  refine (norm_sub_le_of_le (norm_add_le_of_le (norm_add_le_of_le n2 n7) n5) c0).trans_eq (by ring)

/-- How the continuous extension changes with the state. -/
theorem dense_lip {t h θ : ℝ} {u v : E} (H : Bounds f a b R M L) (hu : ‖u‖ ≤ R - 1) (hv : ‖v‖ ≤ R - 1) (ht : a ≤ t) (h0 : 0 ≤ h)
    (hb : t + h ≤ b) (hM : 25 * M * h ≤ 1) (hL : 50 * L * h ≤ 1) (i5 : 0 ≤ θ) (i6 : θ ≤ 1) :
    ‖dense f t u h θ - dense f t v h θ‖ ≤ 3 * ‖u - v‖ := by
  obtain ⟨⟨a1, a3, a4, a5, a6, a7⟩, a8⟩ := step_lips H hu hv ht h0 hb hM hL
  set Δ := ‖u - v‖ with hΔ
  have hΔ0 : 0 ≤ Δ := norm_nonneg _
  have hLh : L * h * Δ ≤ Δ / 50 := by nlinarith
  have d2 : ‖(step f t u h - step f t v h) - (u - v)‖ ≤ Δ * (4 / 50) := by linarith
  have scale : ∀ {w : E}, ‖w‖ ≤ 2 * L * Δ → ‖h • w‖ ≤ Δ / 25 := fun {w} hw => by
    rw [norm_smul, Real.norm_eq_abs, abs_of_nonneg h0]
    have := mul_le_mul_of_nonneg_left hw h0
    linarith
  have c1 := comb1 (B := Δ / 25) 1 (scale a1)
  have c7 := comb1 (B := Δ / 25) 1 (scale a7)
  rw [one_smul, abs_one, one_mul] at c1 c7
  have c5 := comb5 (-12715105075 / 11282082432) (87487479700 / 32700410799) (-10690763975 / 1880347072)
    (701980252875 / 199316789632) (-1453857185 / 822651844) (scale a1) (scale a3) (scale a4) (scale a5) (scale a6)
  have c5' := norm_add_le_of_le c5 (comb1 (69997945 / 29380423) (scale a7))
  have c5'' : (|(-12715105075 / 11282082432 : ℝ)| + |(87487479700 / 32700410799 : ℝ)| + |(-10690763975 / 1880347072 : ℝ)| +
      |(701980252875 / 199316789632 : ℝ)| + |(-1453857185 / 822651844 : ℝ)|) * (Δ / 25) + |(69997945 / 29380423 : ℝ)| * (Δ / 25)
      ≤ Δ := by
    norm_num [abs_of_neg, abs_of_pos]
    linarith
  replace c5 := c5'.trans c5''
  set w2 := (step f t u h - step f t v h) - (u - v) with ew2
  set w1 := h • (k1 f t u - k1 f t v)
  set w7 := h • (k7 f t u h - k7 f t v h)
  set w5 := _ + (69997945 / 29380423 : ℝ) • w7
  have e : dense f t u h θ - dense f t v h θ = (u - v) + (θ - θ * (1 - θ) + 2 * (θ * θ * (1 - θ))) • w2 +
      (θ * (1 - θ) - θ * θ * (1 - θ)) • w1 + (-(θ * θ * (1 - θ))) • w7 + (θ * θ * (1 - θ) * (1 - θ)) • w5 := by
    simp only [w2, w1, w7, w5, dense, dcomb]
    module
  have k1 : 0 ≤ 1 - θ := by linarith
  have k2 : θ * θ ≤ 1 := by nlinarith
  have k3 : 0 ≤ θ * θ := mul_nonneg i5 i5
  have k4 : θ * θ * (1 - θ) ≤ 1 := by nlinarith
  have k5 : 0 ≤ θ * θ * (1 - θ) := mul_nonneg k3 k1
  have k6 : θ * (1 - θ) ≤ 1 := by nlinarith
  have k7 : 0 ≤ θ * (1 - θ) := mul_nonneg i5 k1
  have k8 : θ * θ * (1 - θ) * (1 - θ) ≤ 1 := by nlinarith
  have k9 : 0 ≤ θ * θ * (1 - θ) * (1 - θ) := mul_nonneg k5 k1
  have n2 : ‖(θ - θ * (1 - θ) + 2 * (θ * θ * (1 - θ))) • w2‖ ≤ 4 * (Δ * (4 / 50)) := by
    rw [norm_smul, Real.norm_eq_abs]
    exact mul_le_mul (abs_le.2 ⟨by linarith, by linarith⟩) d2 (norm_nonneg _) (by norm_num)
  have n1 : ‖(θ * (1 - θ) - θ * θ * (1 - θ)) • w1‖ ≤ 1 * (Δ / 25) := by
    rw [norm_smul, Real.norm_eq_abs]
    exact mul_le_mul (abs_le.2 ⟨by linarith, by linarith⟩) c1 (norm_nonneg _) (by norm_num)
  have n7 : ‖(-(θ * θ * (1 - θ))) • w7‖ ≤ 1 * (Δ / 25) := by
    rw [norm_smul, Real.norm_eq_abs]
    exact mul_le_mul (abs_le.2 ⟨by linarith, by linarith⟩) c7 (norm_nonneg _) (by norm_num)
  have n5 : ‖(θ * θ * (1 - θ) * (1 - θ)) • w5‖ ≤ 1 * Δ := by
    rw [norm_smul, Real.norm_eq_abs]
    exact mul_le_mul (abs_le.2 ⟨by linarith, by linarith⟩) c5 (norm_nonneg _) (by norm_num)
  rw [e]
  refine (norm_add_le_of_le (norm_add_le_of_le (norm_add_le_of_le (norm_add_le_of_le hΔ.ge n2) n1) n7) n5).trans ?_
  linarith

end Cyphus.Conv
