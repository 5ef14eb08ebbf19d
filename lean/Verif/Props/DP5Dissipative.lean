import Mathlib.Analysis.SpecialFunctions.Trigonometric.Deriv
import Verif.Props.Stats
import Verif.Props.Success
import Verif.Props.DP5Diffusion
/-!
# C88: the tolerance of `DormandPrince5` controls the global error on dissipative linear systems

Linear systems `u' = -A (u - g)` with `w · A w ≥ 0`: diffusion, advection, oscillations, all of any stiffness.
-/

namespace Cyphus
open X
set_option autoImplicit false
set_option linter.unusedSectionVars false
noncomputable section
variable {n : ℕ} {P : Type} {E : DP5.Env n} {b : Builder X n P} {t0 : ℝ} {u0 : Fin n → ℝ} {s0 : DP5.St X n P}

theorem DP5.len_nonneg (w : Fin n → ℝ) : 0 ≤ Spec.len w := Real.sqrt_nonneg _

theorem DP5.len_sq (w : Fin n → ℝ) : Spec.len w ^ 2 = ∑ i, w i ^ 2 := Real.sq_sqrt (Finset.sum_nonneg fun i _ => sq_nonneg (w i))

theorem DP5.dot_le (v w : Fin n → ℝ) : ∑ i, v i * w i ≤ Spec.len v * Spec.len w := by
  have h := Finset.sum_mul_sq_le_sq_mul_sq Finset.univ v w
  refine le_of_sq_le_sq ?_ (mul_nonneg (DP5.len_nonneg v) (DP5.len_nonneg w))
  rw [mul_pow, DP5.len_sq, DP5.len_sq]
  exact h

theorem DP5.diss_dot {A : Fin n → Fin n → ℝ} (hA : Spec.Damped A) (w : Fin n → ℝ) : ∑ i, w i * DP5.diffMap A w i ≤ 0 := by
  have h := hA w
  have : ∑ i, w i * DP5.diffMap A w i = -∑ i, w i * ∑ j, A i j * w j := by
    rw [← Finset.sum_neg_distrib]
    refine Finset.sum_congr rfl fun i _ => ?_
    change w i * -_ = _
    ring
  linarith

/-- The error estimate is at least as long as its middle term. -/
theorem DP5.err_middle {A : Fin n → Fin n → ℝ} (hA : Spec.Damped A) {h : ℝ} (hh : 0 ≤ h) {w e : Fin n → ℝ}
    (he : e = ((-97 / 120000 : ℝ) • (h • DP5.diffMap A) ^ 5 + (13 / 40000 : ℝ) • (h • DP5.diffMap A) ^ 6
      + (-1 / 24000 : ℝ) • (h • DP5.diffMap A) ^ 7) w) :
    13 / 40000 * Spec.len (((h • DP5.diffMap A) ^ 6) w) ≤ Spec.len e := by
  obtain ⟨v, hv⟩ : ∃ v, v = ((h • DP5.diffMap A) ^ 5) w := ⟨_, rfl⟩
  obtain ⟨z, hz⟩ : ∃ z, z = ((h • DP5.diffMap A) ^ 6) w := ⟨_, rfl⟩
  obtain ⟨x, hx⟩ : ∃ x, x = ((h • DP5.diffMap A) ^ 7) w := ⟨_, rfl⟩
  have hzv : z = h • DP5.diffMap A v := by
    rw [hz, hv, pow_succ' _ 5]
    rfl
  have hxz : x = h • DP5.diffMap A z := by
    rw [hx, hz, pow_succ' _ 6]
    rfl
  have hei : ∀ i, e i = -97 / 120000 * v i + 13 / 40000 * z i + -1 / 24000 * x i := fun i => by
    rw [he, hv, hz, hx]
    rfl
  rw [← hz]
  have d1 : ∑ i, v i * z i ≤ 0 := by
    have : ∑ i, v i * z i = h * ∑ i, v i * DP5.diffMap A v i := by
      rw [hzv, Finset.mul_sum]
      refine Finset.sum_congr rfl fun i _ => ?_
      simp only [Pi.smul_apply, smul_eq_mul]
      ring
    rw [this]
    exact mul_nonpos_of_nonneg_of_nonpos hh (DP5.diss_dot hA v)
  have d2 : ∑ i, z i * x i ≤ 0 := by
    have : ∑ i, z i * x i = h * ∑ i, z i * DP5.diffMap A z i := by
      rw [hxz, Finset.mul_sum]
      refine Finset.sum_congr rfl fun i _ => ?_
      simp only [Pi.smul_apply, smul_eq_mul]
      ring
    rw [this]
    exact mul_nonpos_of_nonneg_of_nonpos hh (DP5.diss_dot hA z)
  have d3 : ∑ i, e i * z i = -97 / 120000 * ∑ i, v i * z i + 13 / 40000 * ∑ i, z i ^ 2 + -1 / 24000 * ∑ i, z i * x i := by
    rw [Finset.mul_sum, Finset.mul_sum, Finset.mul_sum, ← Finset.sum_add_distrib, ← Finset.sum_add_distrib]
    refine Finset.sum_congr rfl fun i _ => ?_
    rw [hei]
    ring
  have d4 := DP5.dot_le e z
  rw [d3, ← DP5.len_sq] at d4
  rcases (DP5.len_nonneg z).eq_or_lt with h0 | h0
  · rw [← h0]
    simpa using DP5.len_nonneg e
  · refine le_of_mul_le_mul_right ?_ h0
    nlinarith

/-- The energy estimate. -/
theorem DP5.energy {G G' : ℝ → Fin n → ℝ} (hG : ∀ t, HasDerivAt G (G' t) t) {c : ℝ} {m : ℕ}
    (hd : ∀ t, 0 ≤ t → ∑ i, G t i * G' t i ≤ t ^ m * c * Spec.len (G t)) {h : ℝ} (hh : 0 ≤ h) (hc : 0 ≤ c) :
    Spec.len (G h) ≤ Spec.len (G 0) + h ^ (m + 1) / (m + 1) * c := by
  refine le_of_forall_pos_le_add fun ε hε => ?_
  have hpos : ∀ t, 0 < ∑ i, G t i ^ 2 + ε ^ 2 := fun t => by
    have : 0 ≤ ∑ i, G t i ^ 2 := Finset.sum_nonneg fun i _ => sq_nonneg _
    positivity
  have hN : ∀ t, HasDerivAt (fun t => ∑ i, G t i ^ 2 + ε ^ 2) (2 * ∑ i, G t i * G' t i) t := fun t => by
    have h1 : ∀ i ∈ Finset.univ, HasDerivAt (fun t => G t i ^ 2) (2 * (G t i * G' t i)) t := fun i _ => by
      refine ((hasDerivAt_pi.1 (hG t) i).pow 2).congr_deriv ?_
      norm_num
      ring
    refine ((HasDerivAt.fun_sum h1).add_const (ε ^ 2)).congr_deriv ?_
    rw [Finset.mul_sum]
  have hS : ∀ t, HasDerivAt (fun t => √(∑ i, G t i ^ 2 + ε ^ 2) - t ^ (m + 1) / (m + 1) * c)
      (2 * (∑ i, G t i * G' t i) / (2 * √(∑ i, G t i ^ 2 + ε ^ 2)) - t ^ m * c) t := fun t => by
    have h1 : HasDerivAt (fun t : ℝ => t ^ (m + 1) / (m + 1) * c) (t ^ m * c) t := by
      refine (((hasDerivAt_pow (m + 1) t).div_const ((m : ℝ) + 1)).mul_const c).congr_deriv ?_
      push_cast
      have : (m : ℝ) + 1 ≠ 0 := by positivity
      field_simp
    exact ((hN t).sqrt (hpos t).ne').sub h1
  have hm : AntitoneOn (fun t => √(∑ i, G t i ^ 2 + ε ^ 2) - t ^ (m + 1) / (m + 1) * c) (Set.Ici 0) := by
    refine antitoneOn_of_deriv_nonpos (convex_Ici 0) (fun y _ => (hS y).continuousAt.continuousWithinAt)
      (fun y _ => (hS y).differentiableAt.differentiableWithinAt) fun t ht => ?_
    rw [interior_Ici] at ht
    have ht : 0 ≤ t := le_of_lt ht
    rw [(hS t).deriv, sub_nonpos, mul_div_mul_left _ _ two_ne_zero, div_le_iff₀ (Real.sqrt_pos.2 (hpos t))]
    refine (hd t ht).trans (mul_le_mul_of_nonneg_left (Real.sqrt_le_sqrt ?_) (by positivity))
    have := sq_nonneg ε
    linarith
  have h1 := hm (Set.mem_Ici.2 le_rfl) (Set.mem_Ici.2 hh) hh
  simp only at h1
  have h2 : Spec.len (G h) ≤ √(∑ i, G h i ^ 2 + ε ^ 2) := Real.sqrt_le_sqrt (by linarith [sq_nonneg ε])
  have h3 : √(∑ i, G 0 i ^ 2 + ε ^ 2) ≤ Spec.len (G 0) + ε := by
    rw [Real.sqrt_le_left (by linarith [DP5.len_nonneg (G 0)]), ← DP5.len_sq]
    nlinarith [mul_nonneg (DP5.len_nonneg (G 0)) hε.le]
  have h4 : (0 : ℝ) ^ (m + 1) / ((m : ℝ) + 1) * c = 0 := by simp
  rw [h4] at h1
  linarith

/-- The Taylor polynomial of degree five of the flow. -/
def DP5.flowT (B : (Fin n → ℝ) →ₗ[ℝ] (Fin n → ℝ)) (w : Fin n → ℝ) (t : ℝ) : Fin n → ℝ :=
  fun i => w i + t * B w i + t ^ 2 / 2 * (B ^ 2) w i + t ^ 3 / 6 * (B ^ 3) w i + t ^ 4 / 24 * (B ^ 4) w i + t ^ 5 / 120 * (B ^ 5) w i

theorem DP5.flowT_deriv (B : (Fin n → ℝ) →ₗ[ℝ] (Fin n → ℝ)) (w : Fin n → ℝ) (t : ℝ) :
    HasDerivAt (DP5.flowT B w) (B (DP5.flowT B w t) - (t ^ 5 / 120) • (B ^ 6) w) t := by
  have e : B (DP5.flowT B w t) = fun i => B w i + t * (B ^ 2) w i + t ^ 2 / 2 * (B ^ 3) w i + t ^ 3 / 6 * (B ^ 4) w i
      + t ^ 4 / 24 * (B ^ 5) w i + t ^ 5 / 120 * (B ^ 6) w i := by
    have : DP5.flowT B w t = w + t • B w + (t ^ 2 / 2) • (B ^ 2) w + (t ^ 3 / 6) • (B ^ 3) w + (t ^ 4 / 24) • (B ^ 4) w
        + (t ^ 5 / 120) • (B ^ 5) w := by
      funext i
      rfl
    rw [this]
    simp only [map_add, map_smul]
    have hp : ∀ k, B ((B ^ k) w) = (B ^ (k + 1)) w := fun k => by
      rw [pow_succ']
      rfl
    have hp1 : B (B w) = (B ^ 2) w := by
      have := hp 1
      rwa [pow_one] at this
    rw [hp, hp, hp, hp, hp1]
    rfl
  rw [hasDerivAt_pi]
  intro i
  have h1 : HasDerivAt (fun t : ℝ => t * B w i) (B w i) t := by simpa using (hasDerivAt_id t).mul_const (B w i)
  have hk : ∀ (k : ℕ) (d x : ℝ), HasDerivAt (fun t : ℝ => t ^ (k + 1) / d * x) (((k : ℝ) + 1) * t ^ k / d * x) t := fun k d x => by
    refine (((hasDerivAt_pow (k + 1) t).div_const d).mul_const x).congr_deriv ?_
    push_cast
    rfl
  refine ((((((h1.const_add (w i)).add (hk 1 2 _)).add (hk 2 6 _)).add (hk 3 24 _)).add (hk 4 120 _))).congr_deriv ?_
  rw [e]
  simp only [Pi.sub_apply, Pi.smul_apply, smul_eq_mul]
  norm_num
  ring

/-- One accepted step: the distance to the exact solution grows at most by a multiple of the tolerance. -/
theorem DP5.diss_step (hn : n ≠ 0) {A : Fin n → Fin n → ℝ} (hA : Spec.Damped A) {g : Fin n → ℝ} {f : ℝ → (Fin n → ℝ) → Fin n → ℝ}
    (hf : ∀ t u i, f t u i = -∑ j, A i j * (u j - g j)) {y : ℝ → Fin n → ℝ} (hy : ∀ t, HasDerivAt y (f t (y t)) t) {a r M h : ℝ}
    (ha : 0 < a) (hr : 0 ≤ r) (hh : 0 ≤ h) {p q : ℝ × (Fin n → ℝ)} {e : Fin n → ℝ} (c1 : q.1 = p.1 + h)
    (c2 : Spec.IsStep Spec.dopri5 f p.1 p.2 h q.2) (c3 : Spec.IsErr Spec.dopri5 f p.1 p.2 h e) (c4 : Spec.errNorm a r p.2 q.2 e ≤ 1)
    (hp : ∀ i, |p.2 i| ≤ M) (hq : ∀ i, |q.2 i| ≤ M) :
    Spec.len (fun i => q.2 i - y q.1 i) ≤ Spec.len (fun i => p.2 i - y p.1 i) + 9.41 * (√n * (a + r * M)) := by
  have b1 := DP5.err_len hn ha hr c4 hp hq
  obtain ⟨κ, a1, a2⟩ := c2
  obtain ⟨κ', a3, a4⟩ := c3
  have r1 := C20_linear_step (DP5.diffMap A) p.1 (p.2 - g) (q.2 - g) h ⟨κ, DP5.diff_stages hf a1, fun m => by
    rw [Pi.sub_apply, Pi.sub_apply, a2]
    ring⟩
  have r2 := C20_linear_error (DP5.diffMap A) p.1 (p.2 - g) e h ⟨κ', DP5.diff_stages hf a3, a4⟩
  have b2 := DP5.err_middle hA hh r2
  obtain ⟨w, hw⟩ : ∃ w, w = p.2 - g := ⟨_, rfl⟩
  rw [← hw] at r1 b2
  have hB6 : ((h • DP5.diffMap A) ^ 6) w = fun i => h ^ 6 * ((DP5.diffMap A) ^ 6) w i := by
    rw [smul_pow]
    rfl
  have hlenB : Spec.len (((h • DP5.diffMap A) ^ 6) w) = h ^ 6 * Spec.len (((DP5.diffMap A) ^ 6) w) := by
    rw [hB6]
    unfold Spec.len
    simp only [mul_pow _ _ 2, ← Finset.mul_sum]
    rw [Real.sqrt_mul (sq_nonneg _), Real.sqrt_sq (by positivity)]
  -- the exact solution against the Taylor polynomial through the recorded state
  have k1 : Spec.len (fun i => DP5.flowT (DP5.diffMap A) w h i - (y (p.1 + h) i - g i)) ≤
      Spec.len (fun i => p.2 i - y p.1 i) + h ^ 6 / 6 * (1 / 120 * Spec.len (((DP5.diffMap A) ^ 6) w)) := by
    have hder : ∀ t, HasDerivAt (fun t => DP5.flowT (DP5.diffMap A) w t - (y (p.1 + t) - g))
        (DP5.diffMap A (DP5.flowT (DP5.diffMap A) w t - (y (p.1 + t) - g)) - (t ^ 5 / 120) • ((DP5.diffMap A) ^ 6) w) t := fun t => by
      have hy1 : HasDerivAt (fun t => y (p.1 + t) - g) (DP5.diffMap A (y (p.1 + t) - g)) t := by
        have h5 := (HasDerivAt.comp_const_add p.1 t (hy (p.1 + t))).sub_const g
        refine h5.congr_deriv ?_
        funext i
        rw [hf]
        rfl
      refine ((DP5.flowT_deriv (DP5.diffMap A) w t).sub hy1).congr_deriv ?_
      simp only [map_sub]
      abel
    have h6 := DP5.energy hder (c := 1 / 120 * Spec.len (((DP5.diffMap A) ^ 6) w)) (m := 5) (fun t ht => by
      set G := DP5.flowT (DP5.diffMap A) w t - (y (p.1 + t) - g)
      have d1 := DP5.diss_dot hA G
      have d2 := DP5.dot_le (fun i => -G i) (((DP5.diffMap A) ^ 6) w)
      have d3 : Spec.len (fun i => -G i) = Spec.len G := by simp [Spec.len]
      have d4 : ∑ i, G i * (DP5.diffMap A G - (t ^ 5 / 120) • ((DP5.diffMap A) ^ 6) w) i =
          ∑ i, G i * DP5.diffMap A G i + t ^ 5 / 120 * ∑ i, (-G i) * ((DP5.diffMap A) ^ 6) w i := by
        rw [Finset.mul_sum, ← Finset.sum_add_distrib]
        refine Finset.sum_congr rfl fun i _ => ?_
        simp only [Pi.sub_apply, Pi.smul_apply, smul_eq_mul]
        ring
      rw [d4]
      rw [d3] at d2
      have d5 := mul_le_mul_of_nonneg_left d2 (by positivity : 0 ≤ t ^ 5 / 120)
      linarith) hh (mul_nonneg (by norm_num) (DP5.len_nonneg _))
    have e0 : DP5.flowT (DP5.diffMap A) w 0 - (y (p.1 + 0) - g) = fun i => p.2 i - y p.1 i := by
      funext i
      simp [DP5.flowT, hw]
    rw [e0] at h6
    norm_num at h6 ⊢
    exact h6
  have k2 : (fun i => q.2 i - y q.1 i) = fun i => (DP5.flowT (DP5.diffMap A) w h i - (y (p.1 + h) i - g i))
      + 1 / 600 * ((h • DP5.diffMap A) ^ 6) w i := by
    funext i
    have := congrFun r1 i
    rw [Pi.sub_apply] at this
    rw [c1, sub_eq_iff_eq_add.1 this, hB6]
    simp only [DP5.stab, DP5.flowT, Finset.sum_range_succ, Finset.sum_range_zero, smul_pow, LinearMap.add_apply, LinearMap.smul_apply,
      Pi.add_apply, Pi.smul_apply, smul_eq_mul, zero_add]
    norm_num [Nat.factorial]
    ring
  have k3 : Spec.len (fun i => 1 / 600 * ((h • DP5.diffMap A) ^ 6) w i) = 1 / 600 * Spec.len (((h • DP5.diffMap A) ^ 6) w) := by
    unfold Spec.len
    simp only [mul_pow _ _ 2, ← Finset.mul_sum]
    rw [Real.sqrt_mul (sq_nonneg _), Real.sqrt_sq (by norm_num)]
  rw [k2]
  refine (DP5.len_add _ _).trans ?_
  rw [k3]
  rw [hlenB] at b2 ⊢
  have k4 := DP5.len_nonneg e
  linarith

/-- **C88** Integrate `u' = -A (u - g)` forwards, where `w · A w ≥ 0` for all `w`, of any stiffness. If the recorded values are at most
`M`, the `j`-th recorded state differs from the exact solution `y`, in the Euclidean norm, by at most `j` times
`9.41 √n (abstol + reltol M)`. -/
theorem C88_dissipative_dp5 (H : DP5.Problem E b t0 u0) (hS : E.Sane) (ht : t0 ≤ E.tf) (hb : b.build DP5.alg = .ok s0) {k : ℕ}
    {s : DP5.St X n P} (hs : Steps DP5.alg none k s0 s) {A : Fin n → Fin n → ℝ} (hA : Spec.Damped A) (g : Fin n → ℝ)
    (hf : ∀ t u i, E.f t u i = -∑ j, A i j * (u j - g j)) {y : ℝ → Fin n → ℝ} (hy0 : y t0 = u0)
    (hy : ∀ t, HasDerivAt y (E.f t (y t)) t) :
    ∃ l, Recorded s.sol l ∧ l.head? = some (t0, u0) ∧ l.length = k + 1 ∧ ∀ M, (∀ p ∈ l, ∀ i, |p.2 i| ≤ M) →
      ∀ j (hj : j < l.length), Spec.len (fun i => (l[j]).2 i - y (l[j]).1 i) ≤ j * (9.41 * (√n * (E.a + E.r * M))) := by
  obtain ⟨l, h1, h2, h3, h4⟩ := C16_recorded_errors_dp5 H hb hs
  obtain ⟨l', -, -, -, -, -, -, g1, -, -, -, g2⟩ := DP5.forward_chain H hS ht hb hs
  obtain rfl := h1.unique g1
  refine ⟨l, h1, h2, h3, fun M hM j => ?_⟩
  rw [List.isChain_iff_getElem] at h4 g2
  induction j with
  | zero =>
    intro hj
    have e : l[0] = (t0, u0) := by
      rw [List.head?_eq_getElem?, List.getElem?_eq_getElem hj] at h2
      exact Option.some.inj h2
    rw [e]
    simp [hy0, Spec.len]
  | succ j ih =>
    intro hj
    have hj' : j < l.length := by omega
    obtain ⟨h, e, c1, c2, c3, c4⟩ := h4 j hj
    have hh : 0 ≤ h := by linarith [(g2 j hj).1]
    have b1 := DP5.diss_step H.dim hA hf hy H.tol.abs_pos H.tol.rel_nonneg hh c1 c2 c3 c4 (hM _ (List.getElem_mem hj'))
      (hM _ (List.getElem_mem hj))
    have b4 := ih hj'
    push_cast
    linarith

/-- **C88** With `reltol = 0` no bound of the recorded values is needed. -/
theorem C88_absolute_dp5 (H : DP5.Problem E b t0 u0) (hS : E.Sane) (ht : t0 ≤ E.tf) (hb : b.build DP5.alg = .ok s0) {k : ℕ}
    {s : DP5.St X n P} (hs : Steps DP5.alg none k s0 s) {A : Fin n → Fin n → ℝ} (hA : Spec.Damped A) (g : Fin n → ℝ)
    (hf : ∀ t u i, E.f t u i = -∑ j, A i j * (u j - g j)) {y : ℝ → Fin n → ℝ} (hy0 : y t0 = u0)
    (hy : ∀ t, HasDerivAt y (E.f t (y t)) t) (hr : E.r = 0) :
    ∃ l, Recorded s.sol l ∧ l.head? = some (t0, u0) ∧ l.length = k + 1 ∧
      ∀ j (hj : j < l.length), Spec.len (fun i => (l[j]).2 i - y (l[j]).1 i) ≤ j * (9.41 * (√n * E.a)) := by
  obtain ⟨l, h1, h2, h3, h4⟩ := C88_dissipative_dp5 H hS ht hb hs hA g hf hy0 hy
  refine ⟨l, h1, h2, h3, fun j hj => ?_⟩
  obtain ⟨M, hM⟩ := DP5.some_bound l
  simpa [hr] using h4 M hM j hj

theorem DP5.abs_le_len (w : Fin n → ℝ) (i : Fin n) : |w i| ≤ Spec.len w := by
  unfold Spec.len
  rw [← Real.sqrt_sq_eq_abs]
  exact Real.sqrt_le_sqrt (Finset.single_le_sum (f := fun i => w i ^ 2) (fun j _ => sq_nonneg _) (Finset.mem_univ i))

/-- The exact solution does not move away from the equilibrium. -/
theorem DP5.diss_exact {A : Fin n → Fin n → ℝ} (hA : Spec.Damped A) {g : Fin n → ℝ} {f : ℝ → (Fin n → ℝ) → Fin n → ℝ}
    (hf : ∀ t u i, f t u i = -∑ j, A i j * (u j - g j)) {y : ℝ → Fin n → ℝ} (hy : ∀ t, HasDerivAt y (f t (y t)) t) {t0 t : ℝ}
    (ht : t0 ≤ t) : Spec.len (fun i => y t i - g i) ≤ Spec.len (fun i => y t0 i - g i) := by
  have hder : ∀ x, HasDerivAt (fun x => y (t0 + x) - g) (DP5.diffMap A (y (t0 + x) - g)) x := fun x => by
    refine ((HasDerivAt.comp_const_add t0 x (hy (t0 + x))).sub_const g).congr_deriv ?_
    funext i
    rw [hf]
    rfl
  have h := DP5.energy hder (c := 0) (m := 0) (fun x _ => by simpa using DP5.diss_dot hA (y (t0 + x) - g)) (sub_nonneg.2 ht) le_rfl
  simp only [add_sub_cancel, add_zero, mul_zero] at h
  exact h

/-- **C88** The bound in terms of the data alone: with `K = 9.41 √n`, `K reltol < 1` and `|g i| ≤ G`, the `j`-th recorded state is within
`j K (abstol + reltol (G + |u0 - g|)) / (1 - K reltol) ^ j` of the exact solution. -/
theorem C88_apriori_dp5 (H : DP5.Problem E b t0 u0) (hS : E.Sane) (ht : t0 ≤ E.tf) (hb : b.build DP5.alg = .ok s0) {k : ℕ}
    {s : DP5.St X n P} (hs : Steps DP5.alg none k s0 s) {A : Fin n → Fin n → ℝ} (hA : Spec.Damped A) (g : Fin n → ℝ)
    (hf : ∀ t u i, E.f t u i = -∑ j, A i j * (u j - g j)) {y : ℝ → Fin n → ℝ} (hy0 : y t0 = u0)
    (hy : ∀ t, HasDerivAt y (E.f t (y t)) t) {G K : ℝ} (hG : ∀ i, |g i| ≤ G) (hK : K = 9.41 * √n) (hr : K * E.r < 1) :
    ∃ l, Recorded s.sol l ∧ l.head? = some (t0, u0) ∧ l.length = k + 1 ∧
      ∀ j (hj : j < l.length), Spec.len (fun i => (l[j]).2 i - y (l[j]).1 i) ≤
        j * (K * (E.a + E.r * (G + Spec.len (fun i => u0 i - g i)))) / (1 - K * E.r) ^ j := by
  obtain ⟨l, h1, h2, h3, h4⟩ := C16_recorded_errors_dp5 H hb hs
  obtain ⟨l', -, -, -, -, -, -, g1, -, -, -, g2⟩ := DP5.forward_chain H hS ht hb hs
  obtain rfl := h1.unique g1
  refine ⟨l, h1, h2, h3, ?_⟩
  rw [List.isChain_iff_getElem] at h4 g2
  set Y := G + Spec.len (fun i => u0 i - g i) with hYd
  have hY : ∀ t, t0 ≤ t → ∀ i, |y t i| ≤ Y := fun t ht i => by
    have q1 := DP5.diss_exact hA hf hy ht
    rw [hy0] at q1
    have q2 := DP5.abs_le_len (fun i => y t i - g i) i
    have q3 := abs_add_le (y t i - g i) (g i)
    rw [sub_add_cancel] at q3
    have := hG i
    linarith
  have hY0 : 0 ≤ Y := (abs_nonneg _).trans (hY t0 le_rfl ⟨0, Nat.pos_of_ne_zero H.dim⟩)
  have hK0 : 0 ≤ K := by
    rw [hK]
    positivity
  have hT : 0 ≤ K * (E.a + E.r * Y) := mul_nonneg hK0 (add_nonneg H.tol.abs_pos.le (mul_nonneg H.tol.rel_nonneg hY0))
  have hKr : 0 ≤ K * E.r := mul_nonneg hK0 H.tol.rel_nonneg
  set T := K * (E.a + E.r * Y) with hTd
  have hd : 0 < 1 - K * E.r := by linarith
  have key : ∀ j (hj : j < l.length), t0 ≤ (l[j]).1 ∧ Spec.len (fun i => (l[j]).2 i - y (l[j]).1 i) ≤ j * T / (1 - K * E.r) ^ j := by
    intro j
    induction j with
    | zero =>
      intro hj
      have e : l[0] = (t0, u0) := by
        rw [List.head?_eq_getElem?, List.getElem?_eq_getElem hj] at h2
        exact Option.some.inj h2
      rw [e]
      simp [hy0, Spec.len]
    | succ j ih =>
      intro hj
      have hj' : j < l.length := by omega
      obtain ⟨h, e, c1, c2, c3, c4⟩ := h4 j hj
      have hle := (g2 j hj).1
      have hh : 0 ≤ h := by linarith
      obtain ⟨i1, i2⟩ := ih hj'
      set p := l[j]
      set q := l[j + 1]
      refine ⟨i1.trans hle, ?_⟩
      set d := Spec.len (fun i => p.2 i - y p.1 i)
      set d' := Spec.len (fun i => q.2 i - y q.1 i)
      have hp : ∀ i, |p.2 i| ≤ Y + max d d' := fun i => by
        have q2 := DP5.abs_le_len (fun i => p.2 i - y p.1 i) i
        have q3 := abs_add_le (p.2 i - y p.1 i) (y p.1 i)
        rw [sub_add_cancel] at q3
        have := hY _ i1 i
        have := le_max_left d d'
        linarith
      have hq : ∀ i, |q.2 i| ≤ Y + max d d' := fun i => by
        have q2 := DP5.abs_le_len (fun i => q.2 i - y q.1 i) i
        have q3 := abs_add_le (q.2 i - y q.1 i) (y q.1 i)
        rw [sub_add_cancel] at q3
        have := hY _ (i1.trans hle) i
        have := le_max_right d d'
        linarith
      have b1 := DP5.diss_step H.dim hA hf hy H.tol.abs_pos H.tol.rel_nonneg hh c1 c2 c3 c4 hp hq
      have b2 : d' ≤ d + T + K * E.r * max d d' := by
        have : 9.41 * (√n * (E.a + E.r * (Y + max d d'))) = T + K * E.r * max d d' := by
          rw [hTd, hK]
          ring
        linarith
      have hpow : 0 < (1 - K * E.r) ^ j := pow_pos hd j
      have hpow1 : (1 - K * E.r) ^ j ≤ 1 := pow_le_one₀ hd.le (by linarith)
      rw [le_div_iff₀ (pow_pos hd _)]
      rw [le_div_iff₀ hpow] at i2
      have hd0 : 0 ≤ d := DP5.len_nonneg _
      have hd0' : 0 ≤ d' := DP5.len_nonneg _
      have b3 : d' * (1 - K * E.r) ≤ d + T := by
        rcases le_total d' d with hm | hm
        · have : d' * (1 - K * E.r) ≤ d' * 1 := mul_le_mul_of_nonneg_left (by linarith) hd0'
          linarith
        · rw [max_eq_right hm] at b2
          linarith
      have b4 := mul_le_mul_of_nonneg_right b3 hpow.le
      have b5 := mul_le_mul_of_nonneg_left hpow1 hT
      rw [pow_succ]
      push_cast
      linarith
  exact fun j hj => (key j hj).2

/-- **C88** What the user sees at the end: when `integrate()` returns with `Success`, the final state `u` is within
`accepts * 9.41 √n (abstol + reltol M)` of the exact solution at `tfinal`, where `accepts` is the counter of accepted steps in the
statistics and `M` bounds the recorded values. -/
theorem C88_success_dp5 (H : DP5.Problem E b t0 u0) (hS : E.Sane) (ht : t0 ≤ E.tf) (hb : b.build DP5.alg = .ok s0)
    {s : DP5.St X n P} (hs : IntegrateReturns DP5.alg none s0 s) (hc : s.sol.retcode = .Success) {A : Fin n → Fin n → ℝ}
    (hA : Spec.Damped A) (g : Fin n → ℝ) (hf : ∀ t u i, E.f t u i = -∑ j, A i j * (u j - g j)) {y : ℝ → Fin n → ℝ} (hy0 : y t0 = u0)
    (hy : ∀ t, HasDerivAt y (E.f t (y t)) t) :
    ∃ l u, Recorded s.sol l ∧ s.u = fv u ∧ ∀ M, (∀ p ∈ l, ∀ i, |p.2 i| ≤ M) →
      Spec.len (fun i => u i - y E.tf i) ≤ s.stats.accepts * (9.41 * (√n * (E.a + E.r * M))) := by
  obtain ⟨k, s1, h1, h2⟩ := (integrate_iff DP5.fuelMono).1 hs
  have hk : Steps DP5.alg none (k + 1) s0 s := .succ h1.steps h2
  obtain ⟨l, a1, -, a3, a4⟩ := C88_dissipative_dp5 H hS ht hb hk hA g hf hy0 hy
  obtain ⟨l', t, u, h, Q, -, -, g1, -, g2, -⟩ := DP5.forward_chain H hS ht hb hk
  obtain rfl := a1.unique g1
  have htf : t = E.tf := by
    have := (C25_success_dp5 H hb hs hc).1
    rw [Q.good.num.t] at this
    exact X.fin.inj this
  refine ⟨l, u, a1, Q.good.num.u, fun M hM => ?_⟩
  have hj : k + 1 < l.length := by omega
  have e : l[k + 1] = (t, u) := by
    rw [List.getLast?_eq_getElem?, a3] at g2
    have g3 : l[k + 1]? = some (t, u) := g2
    rw [List.getElem?_eq_getElem hj] at g3
    exact Option.some.inj g3
  have := a4 M hM (k + 1) hj
  rw [e, htf] at this
  rw [(C31_statistics_dp5 hb hk).2.1]
  exact this

/-- An oscillator with the frequency `c`: all hypotheses on the problem hold, and `integrate` returns with at least one accepted step. -/
example (c : ℝ) (hc : 0 ≤ c) : ∃ (A : Fin 2 → Fin 2 → ℝ) (E : DP5.Env 2) (b : Builder X 2 Unit) (s0 s : DP5.St X 2 Unit)
    (y : ℝ → Fin 2 → ℝ) (k : ℕ), Spec.Damped A ∧ A 0 1 = c ∧ A 1 0 = -c ∧ DP5.Problem E b 0 ![1, 0] ∧ E.Sane ∧ 0 ≤ E.tf ∧
    b.build DP5.alg = .ok s0 ∧ IntegrateReturns DP5.alg none s0 s ∧ Steps DP5.alg none (k + 1) s0 s ∧
    (∀ t u i, E.f t u i = -∑ j, A i j * (u j - (0 : Fin 2 → ℝ) j)) ∧ y 0 = ![1, 0] ∧ ∀ t, HasDerivAt y (E.f t (y t)) t := by
  let A : Fin 2 → Fin 2 → ℝ := ![![0, c], ![-c, 0]]
  let f : ℝ → (Fin 2 → ℝ) → Fin 2 → ℝ := fun _ u => ![-(c * u 1), c * u 0]
  have H := DP5.default_problem (P := Unit) two_ne_zero
    (dudt := fun _ _ u _ => ![-(fin c * u 1), fin c * u 0]) (p := ()) (f := f)
    (fun _ _ _ => by funext i; fin_cases i <;> simp [f]) 0 1 ![1, 0]
  obtain ⟨s0, hb⟩ : ∃ s0 : DP5.St X 2 Unit, (Builder.default DP5.alg (fun _ _ u _ => ![-(fin c * u 1), fin c * u 0])
    (fv ![1, 0]) (fin 0, fin 1) ()).build DP5.alg = .ok s0 := ⟨_, rfl⟩
  obtain ⟨s, hs⟩ := C13_integrate_returns_dp5 H (DP5.default_sane _ _ _) (by norm_num [DP5.defaultEnv])
    (by norm_num [DP5.defaultEnv]) (fun t u => by
      refine ⟨1, one_pos, c * (|u 0| + |u 1| + 1), fun t' u' _ hu i => ?_⟩
      have h0 := hu 0
      have h1 := hu 1
      have k0 := abs_sub_abs_le_abs_sub (u' 0) (u 0)
      have k1 := abs_sub_abs_le_abs_sub (u' 1) (u 1)
      have k2 := abs_nonneg (u 0)
      have k3 := abs_nonneg (u 1)
      change |f t' u' i| ≤ _
      fin_cases i
      · change |-(c * u' 1)| ≤ _
        rw [abs_neg, abs_mul, abs_of_nonneg hc]
        exact mul_le_mul_of_nonneg_left (by linarith) hc
      · change |c * u' 0| ≤ _
        rw [abs_mul, abs_of_nonneg hc]
        exact mul_le_mul_of_nonneg_left (by linarith) hc) hb
  obtain ⟨k, s1, h1, h2⟩ := (integrate_iff DP5.fuelMono).1 hs
  refine ⟨A, _, _, s0, s, fun t => ![Real.cos (c * t), Real.sin (c * t)], k, ?_, rfl, rfl, H,
    DP5.default_sane _ _ _, by norm_num [DP5.defaultEnv], hb, hs, .succ h1.steps h2, fun t u i => ?_, ?_, fun t => ?_⟩
  · intro w
    have : ∑ i, w i * ∑ j, A i j * w j = 0 := by
      simp [A, Fin.sum_univ_two]
      ring
    rw [this]
  · change f t u i = _
    fin_cases i <;> simp [f, A, Fin.sum_univ_two]
  · funext i
    fin_cases i <;> simp
  · rw [hasDerivAt_pi]
    have h3 : HasDerivAt (fun t => c * t) c t := by simpa using (hasDerivAt_id t).const_mul c
    intro i
    fin_cases i
    · refine h3.cos.congr_deriv ?_
      change _ = -(c * Real.sin (c * t))
      ring
    · refine h3.sin.congr_deriv ?_
      change _ = c * Real.cos (c * t)
      ring

/-- A run which ends with `Success`: `u' = -u` on `[0, 1]` (C69). -/
example : ∃ (s0 s : DP5.St X 1 Unit) (l : List (ℝ × (Fin 1 → ℝ))) (u : Fin 1 → ℝ), (DP5.decayBuilder (10 ^ 12)).build DP5.alg = .ok s0 ∧
    IntegrateReturns DP5.alg none s0 s ∧ s.sol.retcode = .Success ∧ Recorded s.sol l ∧ s.u = fv u ∧
    ∀ M, (∀ p ∈ l, ∀ i, |p.2 i| ≤ M) → Spec.len (fun i => u i - Real.exp (-1)) ≤ s.stats.accepts * (9.41 * (√1 * (1e-7 + 1e-3 * M))) := by
  obtain ⟨s0, s, u, hb, hs, hc, -⟩ := DP5.decay_success
  have hS := DP5.default_sane (n := 1) (fun _ u i => -u i) 0 1
  obtain ⟨l, u, h1, h2, h3⟩ := C88_success_dp5 (DP5.decay_problem (10 ^ 12)) ⟨hS.safe, hS.facl, hS.expo⟩ (by norm_num [DP5.decayEnv, DP5.defaultEnv])
    hb hs hc (A := fun _ _ => 1) (fun w => by simp [mul_self_nonneg]) 0
    (fun t u i => by simp [DP5.decayEnv, DP5.defaultEnv, Subsingleton.elim i 0]) (y := fun t _ => Real.exp (-t)) (by simp)
    (fun t => hasDerivAt_pi.2 fun i => by
      refine (hasDerivAt_id t).neg.exp.congr_deriv ?_
      simp [DP5.decayEnv, DP5.defaultEnv])
  refine ⟨s0, s, l, u, hb, hs, hc, h1, h2, fun M hM => ?_⟩
  have := h3 M hM
  simpa [DP5.decayEnv, DP5.defaultEnv] using this

end
end Cyphus
