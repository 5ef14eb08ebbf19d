import Verif.Spec.Decay
import Verif.Props.DP5Algebra
import Verif.Props.Convergence
/-!
# C86: `DormandPrince5` does not blow up on decaying components, however stiff they are
-/

namespace Cyphus
open X
set_option autoImplicit false
set_option linter.unusedSectionVars false
noncomputable section
variable {n : ℕ} {P : Type} {E : DP5.Env n} {b : Builder X n P} {t0 : ℝ} {u0 : Fin n → ℝ} {s0 : DP5.St X n P}

/-- The stability polynomial of the method at `-x`. -/
def DP5.R (x : ℝ) : ℝ := 1 - x + x ^ 2 / 2 - x ^ 3 / 6 + x ^ 4 / 24 - x ^ 5 / 120 + x ^ 6 / 600

/-- The polynomial of the error estimate at `-x`. -/
def DP5.Q (x : ℝ) : ℝ := 97 / 120000 * x ^ 5 + 13 / 40000 * x ^ 6 + 1 / 24000 * x ^ 7

/-- Where the method amplifies, the error estimate sees it. -/
theorem DP5.amplified {x : ℝ} (hx : 0 ≤ x) : |DP5.R x| ≤ 1 ∨ 0.65 * |DP5.R x| ≤ DP5.Q x := by
  by_cases h : x ≤ 3.3
  · left
    have hy : 0 ≤ 3.3 - x := by linarith
    rw [abs_le]
    constructor
    · have : 1 + DP5.R x = (2 * (3.3 - x) ^ 6 + 6 * 1.45 * x * (3.3 - x) ^ 5 + 15 * 1.263 * x ^ 2 * (3.3 - x) ^ 4
          + 20 * 1.139525 * x ^ 3 * (3.3 - x) ^ 3 + 15 * 1.1095225 * x ^ 4 * (3.3 - x) ^ 2 + 6 * 0.988815375 * x ^ 5 * (3.3 - x)
          + 1.988001365 * x ^ 6) / 3.3 ^ 6 := by
        unfold DP5.R
        ring
      have h2 : 0 ≤ 1 + DP5.R x := by
        rw [this]
        positivity
      linarith
    · have : 1 - DP5.R x = (6 * 0.55 * x * (3.3 - x) ^ 5 + 15 * 0.737 * x ^ 2 * (3.3 - x) ^ 4
          + 20 * 0.860475 * x ^ 3 * (3.3 - x) ^ 3 + 15 * 0.8904775 * x ^ 4 * (3.3 - x) ^ 2 + 6 * 1.011184625 * x ^ 5 * (3.3 - x)
          + 0.011998635 * x ^ 6) / 3.3 ^ 6 := by
        unfold DP5.R
        ring
      have h2 : 0 ≤ 1 - DP5.R x := by
        rw [this]
        positivity
      linarith
  · right
    obtain ⟨y, rfl⟩ : ∃ y, x = 3.3 + y := ⟨x - 3.3, by ring⟩
    have hy : 0 ≤ y := by linarith
    have e1 : DP5.R (3.3 + y) = 0.988001365 + 1.8167018 * y + 1.5425525 * y ^ 2 + 2.0212 / 3 * y ^ 3 + 2.117 / 12 * y ^ 4
        + 0.074 / 3 * y ^ 5 + y ^ 6 / 600 := by
      unfold DP5.R
      ring
    have e2 : DP5.Q (3.3 + y) - 0.65 * DP5.R (3.3 + y) = 0.2714474751625 + 0.438271888625 * y + 0.20840280125 * y ^ 2
        + 1.3593155 / 24 * y ^ 3 + 0.199850 / 48 * y ^ 4 + 0.00073875 * y ^ 5 + 0.00245 / 12 * y ^ 6 + 1 / 24000 * y ^ 7 := by
      unfold DP5.R DP5.Q
      ring
    have h1 : 0 ≤ DP5.R (3.3 + y) := by
      rw [e1]
      positivity
    have h2 : 0 ≤ DP5.Q (3.3 + y) - 0.65 * DP5.R (3.3 + y) := by
      rw [e2]
      positivity
    rw [abs_of_nonneg h1]
    linarith

/-- `w i ↦ -lam i * w i`. -/
def DP5.decayMap (lam : Fin n → ℝ) : (Fin n → ℝ) →ₗ[ℝ] (Fin n → ℝ) where
  toFun w := fun i => -lam i * w i
  map_add' u v := by
    funext i
    simp only [Pi.add_apply]
    ring
  map_smul' c u := by
    funext i
    simp only [Pi.smul_apply, smul_eq_mul, RingHom.id_apply]
    ring

theorem DP5.decayMap_pow (lam : Fin n → ℝ) (k : ℕ) (w : Fin n → ℝ) (i : Fin n) :
    (DP5.decayMap lam ^ k) w i = (-lam i) ^ k * w i := by
  induction k with
  | zero => simp
  | succ k ih =>
    rw [pow_succ', Module.End.mul_apply]
    change -lam i * (DP5.decayMap lam ^ k) w i = _
    rw [ih]
    ring

/-- The distance to the equilibrium is integrated like a linear problem. -/
theorem DP5.decay_stages {lam g : Fin n → ℝ} {f : ℝ → (Fin n → ℝ) → Fin n → ℝ} (hf : ∀ t u i, f t u i = -lam i * (u i - g i))
    {t h : ℝ} {u : Fin n → ℝ} {k : Fin 7 → Fin n → ℝ} (hk : Spec.IsStages Spec.dopri5 f t u h k) :
    Spec.IsStages Spec.dopri5 (fun _ w => DP5.decayMap lam w) t (u - g) h k := by
  intro i
  rw [hk i]
  funext m
  rw [hf]
  change _ = -lam m * (u m - g m + _)
  ring

theorem DP5.decay_step {lam g : Fin n → ℝ} {f : ℝ → (Fin n → ℝ) → Fin n → ℝ} (hf : ∀ t u i, f t u i = -lam i * (u i - g i))
    {t h : ℝ} {u u' e : Fin n → ℝ} (h1 : Spec.IsStep Spec.dopri5 f t u h u') (h2 : Spec.IsErr Spec.dopri5 f t u h e) (i : Fin n) :
    u' i - g i = DP5.R (lam i * h) * (u i - g i) ∧ e i = DP5.Q (lam i * h) * (u i - g i) := by
  obtain ⟨k, a1, a2⟩ := h1
  obtain ⟨k', b1, b2⟩ := h2
  have r1 := C20_linear_step (DP5.decayMap lam) t (u - g) (u' - g) h ⟨k, DP5.decay_stages hf a1, fun m => by
    rw [Pi.sub_apply, Pi.sub_apply, a2]
    ring⟩
  have r2 := C20_linear_error (DP5.decayMap lam) t (u - g) e h ⟨k', DP5.decay_stages hf b1, b2⟩
  have r1 := congrFun r1 i
  have r2 := congrFun r2 i
  constructor
  · rw [Pi.sub_apply] at r1
    rw [r1]
    simp only [DP5.stab, Finset.sum_range_succ, Finset.sum_range_zero, smul_pow, LinearMap.add_apply, LinearMap.smul_apply,
      Pi.add_apply, Pi.smul_apply, DP5.decayMap_pow, smul_eq_mul, Pi.sub_apply, zero_add]
    norm_num [Nat.factorial]
    unfold DP5.R
    ring
  · rw [r2]
    simp only [smul_pow, LinearMap.add_apply, LinearMap.smul_apply,
      Pi.add_apply, Pi.smul_apply, DP5.decayMap_pow, smul_eq_mul, Pi.sub_apply]
    unfold DP5.Q
    ring

theorem DP5.err_component (hn : n ≠ 0) {a r : ℝ} (ha : 0 < a) (hr : 0 ≤ r) {u u' e : Fin n → ℝ} (h : Spec.errNorm a r u u' e ≤ 1)
    (i : Fin n) : |e i| ≤ √n * (a + r * max |u i| |u' i|) := by
  have hsc : ∀ j, 0 < a + r * max |u j| |u' j| := fun j => by
    have : 0 ≤ r * max |u j| |u' j| := mul_nonneg hr ((abs_nonneg _).trans (le_max_left _ _))
    linarith
  have hn' : (0 : ℝ) < n := by positivity
  unfold Spec.errNorm at h
  rw [Real.sqrt_le_left one_pos.le, one_pow, div_le_one hn'] at h
  have h1 : (e i / (a + r * max |u i| |u' i|)) ^ 2 ≤ n :=
    (Finset.single_le_sum (f := fun j => (e j / (a + r * max |u j| |u' j|)) ^ 2) (fun j _ => sq_nonneg _) (Finset.mem_univ i)).trans h
  have h2 := Real.abs_le_sqrt h1
  rwa [abs_div, abs_of_pos (hsc i), div_le_iff₀ (hsc i)] at h2

/-- **C86** One accepted step, of any size, for components that decay with the rates `lam i` towards `g i`: the distance to `g i`
does not grow, or it is of the size of the tolerance afterwards. -/
theorem C86_decay_step {lam g : Fin n → ℝ} {f : ℝ → (Fin n → ℝ) → Fin n → ℝ} (hn : n ≠ 0)
    (hf : ∀ t u i, f t u i = -lam i * (u i - g i)) (hl : ∀ i, 0 ≤ lam i) {t h a r : ℝ} (hh : 0 ≤ h) (ha : 0 < a) (hr : 0 ≤ r)
    (hnr : √n * r < 0.65) {u u' e : Fin n → ℝ} (h1 : Spec.IsStep Spec.dopri5 f t u h u')
    (h2 : Spec.IsErr Spec.dopri5 f t u h e) (h3 : Spec.errNorm a r u u' e ≤ 1) (i : Fin n) :
    |u' i - g i| ≤ max |u i - g i| (√n * (a + r * |g i|) / (0.65 - √n * r)) := by
  obtain ⟨e1, e2⟩ := DP5.decay_step hf h1 h2 i
  rcases DP5.amplified (mul_nonneg (hl i) hh) with hR | hR
  · refine le_max_of_le_left ?_
    rw [e1, abs_mul]
    exact mul_le_of_le_one_left (abs_nonneg _) hR
  rcases le_total |u' i - g i| |u i - g i| with h0 | h0
  · exact le_max_of_le_left h0
  · refine le_max_of_le_right ?_
    have hq : 0 < 0.65 - √n * r := by linarith
    have hs : 0 ≤ √(n : ℝ) := Real.sqrt_nonneg _
    rw [le_div_iff₀ hq]
    have h4 := DP5.err_component hn ha hr h3 i
    have h5 : max |u i| |u' i| ≤ |g i| + |u' i - g i| := by
      refine max_le ?_ ?_
      · have := abs_add_le (u i - g i) (g i)
        rw [sub_add_cancel] at this
        linarith
      · have := abs_add_le (u' i - g i) (g i)
        rw [sub_add_cancel] at this
        linarith
    have h6 : 0.65 * |u' i - g i| ≤ |e i| := by
      rw [e1, e2, abs_mul, abs_mul, ← mul_assoc]
      exact mul_le_mul_of_nonneg_right (hR.trans (le_abs_self _)) (abs_nonneg _)
    have h7 : √n * (a + r * max |u i| |u' i|) ≤ √n * (a + r * (|g i| + |u' i - g i|)) :=
      mul_le_mul_of_nonneg_left (by linarith [mul_le_mul_of_nonneg_left h5 hr]) hs
    nlinarith

/-- **C86** Let every component decay towards `g i` with a rate `lam i ≥ 0`, which can be arbitrarily large. In a forward run with
`√n reltol < 0.65` no recorded state is farther from `g` than the initial state or, if this is more,
`√n (abstol + reltol |g i|) / (0.65 - √n reltol)`, whatever step sizes are tried. -/
theorem C86_decay_dp5 (H : DP5.Problem E b t0 u0) (hS : E.Sane) (ht : t0 ≤ E.tf) (hb : b.build DP5.alg = .ok s0) {k : ℕ}
    {s : DP5.St X n P} (hs : Steps DP5.alg none k s0 s) (lam g : Fin n → ℝ) (hl : ∀ i, 0 ≤ lam i)
    (hf : ∀ t u i, E.f t u i = -lam i * (u i - g i)) (hr : √n * E.r < 0.65) :
    ∃ l, Recorded s.sol l ∧ l.head? = some (t0, u0) ∧ l.length = k + 1 ∧
      ∀ p ∈ l, ∀ i, |p.2 i - g i| ≤ Spec.decayBound n E.a E.r (g i) (u0 i) := by
  obtain ⟨l, h1, h2, h3, h4⟩ := C16_recorded_errors_dp5 H hb hs
  obtain ⟨l', -, -, -, -, -, -, g1, -, -, -, g2⟩ := DP5.forward_chain H hS ht hb hs
  obtain rfl := h1.unique g1
  refine ⟨l, h1, h2, h3, ?_⟩
  have hc : l.IsChain fun p q => ∀ i, |p.2 i - g i| ≤ Spec.decayBound n E.a E.r (g i) (u0 i) →
      |q.2 i - g i| ≤ Spec.decayBound n E.a E.r (g i) (u0 i) := by
    rw [List.isChain_iff_getElem] at h4 g2 ⊢
    intro j hj i hp
    obtain ⟨h, e, c1, c2, c3, c4⟩ := h4 j hj
    have hh : 0 ≤ h := by linarith [(g2 j hj).1]
    exact (C86_decay_step H.dim hf hl hh H.tol.abs_pos H.tol.rel_nonneg hr c2 c3 c4 i).trans (max_le hp (le_max_right _ _))
  clear h1 h3 h4 g1 g2
  have key : ∀ (l : List (ℝ × (Fin n → ℝ))) p0, l.head? = some p0 → (l.IsChain fun p q => ∀ i,
      |p.2 i - g i| ≤ Spec.decayBound n E.a E.r (g i) (u0 i) → |q.2 i - g i| ≤ Spec.decayBound n E.a E.r (g i) (u0 i)) →
      (∀ i, |p0.2 i - g i| ≤ Spec.decayBound n E.a E.r (g i) (u0 i)) →
      ∀ p ∈ l, ∀ i, |p.2 i - g i| ≤ Spec.decayBound n E.a E.r (g i) (u0 i) := by
    intro l
    induction l with
    | nil => simp
    | cons x l ih =>
      intro p0 hd hc h0 p hp
      simp only [List.head?_cons, Option.some.injEq] at hd
      subst hd
      rcases List.mem_cons.1 hp with rfl | hp
      · exact h0
      · cases l with
        | nil => simp at hp
        | cons y l =>
          rw [List.isChain_cons_cons] at hc
          exact ih y rfl hc.2 (fun i => hc.1 i (h0 i)) p hp
  exact key l _ h2 hc fun i => le_max_left _ _

/-- With the default tolerances, for one component: no recorded value of `u' = -lam u`, `u 0 = 1`, on `[0, 1]` is larger than 1 in
absolute value, for any `lam ≥ 0`, for instance `10 ^ 9`. -/
theorem C86_default_tolerances {lam : ℝ} (hl : 0 ≤ lam) {s0 s : DP5.St X 1 Unit} {k : ℕ}
    (hb : (Builder.default DP5.alg (fun _ _ u _ => fun i => fin (-lam) * u i) (fv fun _ => 1) (fin 0, fin 1) ()).build DP5.alg = .ok s0)
    (hs : Steps DP5.alg none k s0 s) : ∃ l, Recorded s.sol l ∧ l.length = k + 1 ∧ ∀ p ∈ l, |p.2 0| ≤ 1 := by
  have H := DP5.default_problem (P := Unit) one_ne_zero (dudt := fun _ _ u _ => fun i => fin (-lam) * u i) (p := ())
    (f := fun _ u i => -lam * u i) (fun _ _ _ => by funext i; simp) 0 1 (fun _ => 1)
  obtain ⟨l, h1, -, h2, h3⟩ := C86_decay_dp5 H (DP5.default_sane _ _ _) (by norm_num [DP5.defaultEnv]) hb hs (fun _ => lam) (fun _ => 0)
    (fun _ => hl) (fun t u i => by simp [DP5.defaultEnv]) (by norm_num [DP5.defaultEnv])
  refine ⟨l, h1, h2, fun p hp => ?_⟩
  have := h3 p hp 0
  norm_num [Spec.decayBound, DP5.defaultEnv] at this
  exact this

/-- The hypotheses can be met: `integrate` returns for `u' = -10 ^ 9 u`, with at least one accepted step. -/
theorem DP5.decay_returns : ∃ (s0 s : DP5.St X 1 Unit) (l : List (ℝ × (Fin 1 → ℝ))),
    (Builder.default DP5.alg (fun _ _ u _ => fun i => fin (-10 ^ 9) * u i) (fv fun _ => 1) (fin 0, fin 1) ()).build DP5.alg = .ok s0 ∧
    IntegrateReturns DP5.alg none s0 s ∧ Recorded s.sol l ∧ 2 ≤ l.length ∧ ∀ p ∈ l, |p.2 0| ≤ 1 := by
  obtain ⟨s0, hb⟩ : ∃ s0 : DP5.St X 1 Unit, (Builder.default DP5.alg (fun _ _ u _ => fun i => fin (-10 ^ 9) * u i)
    (fv fun _ => 1) (fin 0, fin 1) ()).build DP5.alg = .ok s0 := ⟨_, rfl⟩
  have H := DP5.default_problem (P := Unit) one_ne_zero (dudt := fun _ _ u _ => fun i => fin (-10 ^ 9) * u i) (p := ())
    (f := fun _ u i => -10 ^ 9 * u i) (fun _ _ _ => by funext i; simp) 0 1 (fun _ => 1)
  obtain ⟨s, hs⟩ := C13_integrate_returns_dp5 H (DP5.default_sane _ _ _) (by norm_num [DP5.defaultEnv])
    (by norm_num [DP5.defaultEnv]) (fun t u => by
      refine ⟨1, one_pos, 10 ^ 9 * (|u 0| + 1), fun t' u' _ hu i => ?_⟩
      have h1 : |u' i| ≤ |u 0| + 1 := by
        have h2 := hu i
        have : i = 0 := Subsingleton.elim _ _
        subst this
        have := abs_sub_abs_le_abs_sub (u' 0) (u 0)
        linarith
      change |-10 ^ 9 * u' i| ≤ _
      rw [abs_mul]
      norm_num
      linarith) hb
  obtain ⟨k, s1, h1, h2⟩ := (integrate_iff DP5.fuelMono).1 hs
  obtain ⟨l, h3, h4, h5⟩ := C86_default_tolerances (lam := 10 ^ 9) (by norm_num) hb (.succ h1.steps h2)
  exact ⟨s0, s, l, hb, hs, h3, by omega, h5⟩

end
end Cyphus
