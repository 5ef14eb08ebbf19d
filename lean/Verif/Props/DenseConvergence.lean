import Verif.Props.Convergence
import Verif.Props.DP5Dense
import Verif.Proofs.OrderDense
/-!
# C75: the dense output of DormandPrince5 converges
-/

namespace Cyphus
open X Set
set_option autoImplicit false
set_option linter.unusedSectionVars false
noncomputable section

variable {n : ℕ} {P : Type}

namespace DP5

theorem denseR_conv (f : ℝ → (Fin n → ℝ) → Fin n → ℝ) (t : ℝ) (u : Fin n → ℝ) (h θ : ℝ) :
    denseR f t u h θ = Conv.dense f t u h θ := by
  have hk := isStages f t u h
  obtain ⟨e0, -, e2, e3, e4, e5, e6⟩ := DP5.stages hk
  have e := DP5.step_of_isStep (f := f) (t := t) (u := u) (h := h) ((DP5.isStep_iff f t u h _).2 rfl)
  simp only [Matrix.cons_val] at e0 e2 e3 e4 e5 e6
  have e6' : K7 f t u h = Conv.k7 f t u h := by rw [e6, Conv.k7, one_mul]
  funext i
  simp only [denseR, Conv.dense, Conv.dcomb, Pi.add_apply, Pi.sub_apply, Pi.smul_apply, smul_eq_mul]
  rw [e, e0, e2, e3, e4, e5, e6', D1_val, D3_val, D4_val, D5_val, D6_val, D7_val]

/-- The last step of a forward run and its continuous extension. -/
theorem last_step {E : DP5.Env n} {b : Builder X n P} {t0 : ℝ} {u0 : Fin n → ℝ} {s0 s : DP5.St X n P}
    (H : DP5.Problem E b t0 u0) (hS : E.Sane) (ht : t0 ≤ E.tf) (hd : b.opts.dense = true) (hb : b.build DP5.alg = .ok s0) {k : ℕ}
    (hs : Steps DP5.alg none (k + 1) s0 s) {l : List (ℝ × (Fin n → ℝ))} (hl : Recorded s.sol l) :
    ∃ l1 t u q, l = l1 ++ [(t, u), (t + q, unewR E.f t u q)] ∧ t0 ≤ t ∧ 0 ≤ q ∧ t + q ≤ E.tf ∧ s.tprev = fin t ∧ s.dtprev = fin q ∧
      s.t = fin (t + q) ∧ (q ≠ 0 → ∀ θ, DP5.dense_output s (fin (t + θ * q)) s.dtprev = fv (denseR E.f t u q θ)) := by
  obtain ⟨l', t', u', h', Q', -, -, hl', hd', -, hle', hc'⟩ := DP5.forward_chain H hS ht hb hs
  obtain rfl := hl.unique hl'
  have hbh := Q'.behind
  rw [show E.d = 1 by rw [H.dir, if_pos (by linarith)], mul_one] at hbh
  obtain ⟨s1, o, h1, h2⟩ := Steps.cases_snoc hs
  obtain ⟨l1, t, u, h0, Q, -, -, hl1, hd1, hlast, -, -⟩ := DP5.forward_chain H hS ht hb h1
  have G := Q.good
  have ho : s1.opts.dense = true := by rw [(DP5.run_fields hb h1).1]; exact hd
  obtain ⟨⟨fuel, h3⟩, -⟩ := stepReturns_none_iff.1 h2
  obtain ⟨j, s2, hk, hr, he, hm, rfl, sp⟩ := step_spec h3
  obtain ⟨q, r1, G1⟩ := G.clampLast.rejs hr
  have ho2 : s2.opts.dense = true := by
    rw [hr.spec.frame.opts, (Frame.clampLast s1).opts]; exact ho
  obtain ⟨-, -, -, -, -, -, hu, hdu, -⟩ := G1.num.stages
  have et : (finishStep (accepted s2)).t = fin (t + q) := by simp [G1.num.t, G1.num.dt]
  have eu : (finishStep (accepted s2)).u = fv (unewR E.f t u q) := by simp [hu]
  have hrec : Recorded (finishStep (accepted s2)).sol (l1 ++ [(t + q, unewR E.f t u q)]) := by
    refine ⟨?_, ?_⟩
    · rw [sp.ts, hl1.1, et]; simp
    · rw [sp.us, hl1.2, eu]; simp
  obtain rfl := hl.unique hrec
  obtain ⟨l2, rfl⟩ : ∃ l2, l1 = l2 ++ [(t, u)] := by
    have := List.dropLast_append_getLast? _ hlast
    exact ⟨_, this.symm⟩
  have hge : ∀ p ∈ l2 ++ [(t, u)], t0 ≤ p.1 := by
    have hpw : (l2 ++ [(t, u)]).Pairwise fun p q => p.1 ≤ q.1 := by
      have hm' : (l2 ++ [(t, u)]).IsChain fun p q => p.1 ≤ q.1 := (List.isChain_append.1 hc').1.imp fun p q h => h.1
      haveI : IsTrans (ℝ × (Fin n → ℝ)) fun p q => p.1 ≤ q.1 := ⟨fun _ _ _ h1 h2 => le_trans h1 h2⟩
      exact List.isChain_iff_pairwise.1 hm'
    generalize l2 ++ [(t, u)] = m at hd1 hpw
    rcases m with _ | ⟨x, m⟩
    · simp
    · simp only [List.head?_cons, Option.some.injEq] at hd1
      subst hd1
      intro p hp
      rcases List.mem_cons.1 hp with rfl | hp
      · exact le_rfl
      · exact List.rel_of_pairwise_cons hpw hp
  have hq := ((List.isChain_append.1 hc').2.2 (t, u) (by simp) (t + q, unewR E.f t u q) (by simp)).1
  refine ⟨l2, t, u, q, by simp, hge (t, u) (by simp), by simpa using hq, ?_, ?_, ?_, et, fun hq θ => ?_⟩
  · have := hle' (t + q, unewR E.f t u q) (by simp)
    simp only at this
    linarith
  · simp [G1.num.t]
  · simp [G1.num.dt]
  · have : (finishStep (accepted s2)).dtprev = fin q := by simp [G1.num.dt]
    rw [this]
    exact G1.num.dense ho2 hq θ

end DP5

/-- **C75** The dense output of DormandPrince5 is accurate between the recorded points: for a problem whose right-hand side has five
continuous derivatives and whose solution exists on the whole span there are `C` and `hmax > 0` such that after every step of every
forward run with dense output, whatever the tolerances and the other options, if no recorded step is longer than `h ≤ hmax`, the
continuous extension at every point `x` of the last step is within `C h^5` of the solution at `x`. (This is asked of steps of nonzero
size: for others the formula divides zero by zero.) -/
theorem C75_dense_order_dp5 {f : ℝ → (Fin n → ℝ) → Fin n → ℝ} (hf : ContDiff ℝ 5 (Function.uncurry f)) {t0 tf : ℝ} (ht : t0 < tf)
    {y : ℝ → Fin n → ℝ} (hy : Spec.IsSolution f t0 tf y) :
    ∃ C hmax : ℝ, 0 < hmax ∧ ∀ (P : Type) (E : DP5.Env n) (b : Builder X n P) (s0 s : DP5.St X n P) (k : ℕ)
      (l : List (ℝ × (Fin n → ℝ))) (h : ℝ), E.f = f → E.tf = tf → DP5.Problem E b t0 (y t0) → E.Sane → b.opts.dense = true →
      b.build DP5.alg = .ok s0 → Steps DP5.alg none (k + 1) s0 s → Recorded s.sol l →
      0 ≤ h → h ≤ hmax → l.IsChain (fun p q => q.1 - p.1 ≤ h) →
      ∃ t t', s.tprev = fin t ∧ s.t = fin t' ∧ t0 ≤ t ∧ t ≤ t' ∧ t' ≤ tf ∧ (t < t' → ∀ x ∈ Icc t t',
        ∃ D : Fin n → ℝ, DP5.dense_output s (fin x) s.dtprev = fv D ∧ ∀ i, |D i - y x i| ≤ C * h ^ 5) := by
  obtain ⟨S⟩ := Conv.exists_setup hf ht hy
  obtain ⟨C1, hC1, h1, hh1, hd1⟩ := S.dense_error
  obtain ⟨C2, hmax, hmax0, key⟩ := C68_order_five_dp5 hf ht hy
  obtain ⟨-, R, M, L, B⟩ := C68_local_order_dp5 hf ht hy
  have hM := B.M0
  have hL := B.L0
  refine ⟨3 * C2 + C1, min (min hmax h1) (min 1 (min (1 / (25 * M + 1)) (min (1 / (50 * L + 1)) (1 / (|C2| + 1))))), by positivity, ?_⟩
  rintro P E b s0 s k l h rfl rfl H hS hd hb hs hl h0 hh hch
  have g0 : h ≤ hmax := hh.trans ((min_le_left _ _).trans (min_le_left _ _))
  have g1 : h ≤ h1 := hh.trans ((min_le_left _ _).trans (min_le_right _ _))
  have hh := hh.trans (min_le_right _ _)
  have g2 : h ≤ 1 := hh.trans (min_le_left _ _)
  have hh := hh.trans (min_le_right _ _)
  have g3 : h ≤ 1 / (25 * M + 1) := hh.trans (min_le_left _ _)
  have hh := hh.trans (min_le_right _ _)
  have g4 : h ≤ 1 / (50 * L + 1) := hh.trans (min_le_left _ _)
  have g5 := hh.trans (min_le_right _ _)
  rw [le_div_iff₀ (by positivity)] at g3 g4 g5
  have h5 : h ^ 5 ≤ h := by simpa using pow_le_pow_of_le_one h0 g2 (show 1 ≤ 5 by norm_num)
  have herr := key P E b s0 s (k + 1) l h rfl rfl H hS hb hs hl h0 g0 hch
  obtain ⟨l1, t, u, q, rfl, ht0, hq0, hqf, e1, e2, e3, e4⟩ := DP5.last_step H hS ht.le hd hb hs hl
  have hqh : q ≤ h := by
    have := (List.isChain_append.1 hch).2.1
    simp at this
    linarith
  refine ⟨t, t + q, e1, e3, ht0, by linarith, hqf, fun hlt x hx => ?_⟩
  have hq : 0 < q := by linarith
  obtain ⟨θ, hθ⟩ : ∃ θ, x = t + θ * q := ⟨(x - t) / q, by field_simp; ring⟩
  have hθ0 : 0 ≤ θ := by
    by_contra hn
    have := mul_neg_of_neg_of_pos (not_le.1 hn) hq
    linarith [hx.1]
  have hθ1 : θ ≤ 1 := by
    by_contra hn
    have := mul_lt_mul_of_pos_right (not_le.1 hn) hq
    linarith [hx.2]
  refine ⟨_, by rw [hθ]; exact e4 hq.ne' θ, fun i => ?_⟩
  rw [DP5.denseR_conv]
  refine (norm_le_pi_norm (Conv.dense E.f t u q θ - y x) i).trans ?_
  have hC2 : 0 ≤ C2 * h ^ 5 := by
    have := herr (t, u) (by simp) i
    exact (abs_nonneg _).trans this
  have hu : ‖u - y t‖ ≤ C2 * h ^ 5 := (pi_norm_le_iff_of_nonneg hC2).2 fun i => herr (t, u) (by simp) i
  have hu1 : C2 * h ^ 5 ≤ 1 := by
    have := mul_le_mul_of_nonneg_right (le_abs_self C2) (pow_nonneg h0 5)
    nlinarith [mul_le_mul_of_nonneg_left h5 (abs_nonneg C2)]
  have hyR : ‖y t‖ ≤ R := (pi_norm_le_iff_of_nonneg B.R0).2 (B.sol t ⟨ht0, by linarith⟩)
  have huR : ‖u‖ ≤ R + 2 - 1 := by
    have := norm_add_le_of_le (hu.trans hu1) hyR
    rw [sub_add_cancel] at this
    linarith
  have d1 := Conv.dense_lip (θ := θ) B.conv huR (hyR.trans (by linarith)) ht0 hq0 hqf
    (by nlinarith [mul_le_mul_of_nonneg_left hqh hM]) (by nlinarith [mul_le_mul_of_nonneg_left hqh hL]) hθ0 hθ1
  have d2 := hd1 t q θ ht0 hq0 hqf (hqh.trans g1) hθ0 hθ1
  rw [← hθ] at d2
  have d3 : C1 * q ^ 5 ≤ C1 * h ^ 5 := mul_le_mul_of_nonneg_left (pow_le_pow_left₀ hq0 hqh 5) hC1.le
  have := norm_add_le_of_le d1 (d2.trans d3)
  rw [sub_add_sub_cancel] at this
  linarith

/-- With `dtmax = m` small enough every run has short steps: `h = 1.01 max(m, 1e-6)` bounds them all. -/
theorem C75_dense_dtmax_dp5 {f : ℝ → (Fin n → ℝ) → Fin n → ℝ} (hf : ContDiff ℝ 5 (Function.uncurry f)) {t0 tf : ℝ} (ht : t0 < tf)
    {y : ℝ → Fin n → ℝ} (hy : Spec.IsSolution f t0 tf y) :
    ∃ C hmax : ℝ, 0 < hmax ∧ ∀ (P : Type) (E : DP5.Env n) (b : Builder X n P) (s0 s : DP5.St X n P) (k : ℕ) (m h : ℝ),
      E.f = f → E.tf = tf → DP5.Problem E b t0 (y t0) → E.Sane → b.opts.dense = true → E.mx = some m → h = 1.01 * max m 1e-6 →
      h ≤ hmax → b.build DP5.alg = .ok s0 → Steps DP5.alg none (k + 1) s0 s →
      ∃ t t', s.tprev = fin t ∧ s.t = fin t' ∧ t0 ≤ t ∧ t ≤ t' ∧ t' ≤ tf ∧ (t < t' → ∀ x ∈ Icc t t',
        ∃ D : Fin n → ℝ, DP5.dense_output s (fin x) s.dtprev = fv D ∧ ∀ i, |D i - y x i| ≤ C * h ^ 5) := by
  obtain ⟨C, hmax, h0, key⟩ := C75_dense_order_dp5 hf ht hy
  refine ⟨C, hmax, h0, ?_⟩
  rintro P E b s0 s k m h rfl rfl H hS hd hm hh hle hb hs
  obtain ⟨l, t, u, h', Q, -, -, hl, -, -, -, hc⟩ := DP5.forward_chain H hS ht.le hb hs
  have hB : 0 < max m 1e-6 := lt_of_lt_of_le (by norm_num) (le_max_right _ _)
  exact key P E b s0 s k l h rfl rfl H hS hd hb hs hl (by rw [hh]; positivity) hle
    (hc.imp fun p q h => by rw [hh]; exact h.2.2 m hm)

/-- The hypotheses hold for the nonlinear problem `u' = -u^2` on `[0, 1]`, and for `u' = -u` with dense output there are runs of any
length. -/
example : ∃ C hmax : ℝ, 0 < hmax ∧ ∀ (P : Type) (E : DP5.Env 1) (b : Builder X 1 P) (s0 s : DP5.St X 1 P) (k : ℕ) (m h : ℝ),
    E.f = (fun _ u i => -(u i * u i)) → E.tf = 1 → DP5.Problem E b 0 (fun _ => 1 / (1 + 0)) → E.Sane → b.opts.dense = true →
    E.mx = some m → h = 1.01 * max m 1e-6 → h ≤ hmax → b.build DP5.alg = .ok s0 → Steps DP5.alg none (k + 1) s0 s →
    ∃ t t', s.tprev = fin t ∧ s.t = fin t' ∧ 0 ≤ t ∧ t ≤ t' ∧ t' ≤ 1 ∧ (t < t' → ∀ x ∈ Icc t t',
      ∃ D : Fin 1 → ℝ, DP5.dense_output s (fin x) s.dtprev = fv D ∧ ∀ i, |D i - 1 / (1 + x)| ≤ C * h ^ 5) :=
  C75_dense_dtmax_dp5 DP5.square_smooth one_pos DP5.square_solves

example (N k : ℕ) : ∃ (E : DP5.Env 1) (b : Builder X 1 Unit) (s0 s : DP5.St X 1 Unit), E.f = (fun _ u i => -u i) ∧ E.tf = 1 ∧
    DP5.Problem E b 0 (fun _ => Real.exp (-0)) ∧ E.Sane ∧ b.opts.dense = true ∧ b.build DP5.alg = .ok s0 ∧
    Steps DP5.alg none (k + 1) s0 s := by
  have hlb : ∀ t u, LocallyBounded (n := 1) (fun _ u i => -u i) t u := fun t u =>
    ⟨1, one_pos, |u 0| + 1, fun _ u' _ h i => by
      have := h i
      have h2 := abs_add_le (u' i - u i) (u i)
      rw [sub_add_cancel] at h2
      rw [Subsingleton.elim i 0] at *
      rw [abs_neg]
      linarith⟩
  have H := DP5.decay_problem N
  have H' : DP5.Problem DP5.decayEnv ((DP5.decayBuilder N).set (.dense true)) 0 (fun _ => Real.exp (-0)) :=
    ⟨H.rhs, H.u, H.t, H.dt, H.tfinal, H.dir, ⟨H.tol.1, H.tol.2, H.tol.3, H.tol.4⟩,
      ⟨H.ctl.1, H.ctl.2, H.ctl.3, H.ctl.4, H.ctl.5, H.ctl.6, H.ctl.7, H.ctl.8, H.ctl.9, H.ctl.10, H.ctl.11⟩, H.dim⟩
  have hdn : ((DP5.decayBuilder N).set (.dense true)).opts.dense = true := rfl
  generalize (DP5.decayBuilder N).set (.dense true) = b at H' hdn
  obtain ⟨s0, hb⟩ : ∃ s0 : DP5.St X 1 Unit, b.build DP5.alg = .ok s0 := ⟨_, rfl⟩
  obtain ⟨s, hs⟩ : ∃ s, Steps DP5.alg none (k + 1) s0 s := by
    generalize k + 1 = k
    induction k with
    | zero => exact ⟨s0, .zero _⟩
    | succ k ih =>
      obtain ⟨s, hs⟩ := ih
      obtain ⟨o, s', h1⟩ := C13_step_returns_dp5 H' DP5.decay_sane (by norm_num [DP5.decayEnv, DP5.defaultEnv])
        (by norm_num [DP5.decayEnv, DP5.defaultEnv]) hb hs fun t u _ _ => hlb t u
      exact ⟨s', .succ hs h1⟩
  exact ⟨DP5.decayEnv, b, s0, s, rfl, rfl, H', DP5.decay_sane, hdn, hb, hs⟩

end
end Cyphus
