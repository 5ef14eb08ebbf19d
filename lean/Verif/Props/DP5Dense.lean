import Verif.Props.DP5Algebra
import Verif.Props.Tableau
import Verif.Props.DP5Control
import Mathlib.Analysis.Calculus.Deriv.Pi
import Mathlib.Analysis.Calculus.Deriv.Pow
/-!
# C46: the continuous extension of `DormandPrince5`
-/

namespace Cyphus
open X Polynomial
set_option linter.unusedSectionVars false
set_option autoImplicit false
noncomputable section
variable {n : ℕ} {P : Type} {E : DP5.Env n} {b : Builder X n P} {t0 : ℝ} {u0 : Fin n → ℝ}
  {s0 : DP5.St X n P}

namespace DP5

theorem accepted_rcont {F : Type} [Add F] [Sub F] [Mul F] [Div F] [Neg F] [OfScientific F] [Fl F]
    (s : St F n P) (h : s.opts.dense = true) :
    (accepted s).cache.rcont1 = (prepare_dense (compute_stages s)).cache.rcont1 ∧
    (accepted s).cache.rcont2 = (prepare_dense (compute_stages s)).cache.rcont2 ∧
    (accepted s).cache.rcont3 = (prepare_dense (compute_stages s)).cache.rcont3 ∧
    (accepted s).cache.rcont4 = (prepare_dense (compute_stages s)).cache.rcont4 ∧
    (accepted s).cache.rcont5 = (prepare_dense (compute_stages s)).cache.rcont5 := by
  have h' : (compute_stages s).opts.dense = true := h
  unfold accepted
  generalize compute_stages s = s1 at *
  simp only [acceptStep, stiffness]
  repeat' split
  all_goals first | exact ⟨rfl, rfl, rfl, rfl, rfl⟩ | simp_all

/-- The continuous extension as a function of `θ ∈ [0, 1]`. -/
def denseR (f : ℝ → (Fin n → ℝ) → Fin n → ℝ) (t : ℝ) (u : Fin n → ℝ) (h θ : ℝ) : Fin n → ℝ := fun i =>
  let c2 := unewR f t u h i - u i
  let c3 := h * K1 f t u i - c2
  let c4 := c2 - h * K7 f t u h i - c3
  let c5 := h * (D1 * K1 f t u i + D3 * K3 f t u h i + D4 * K4 f t u h i + D5 * K5 f t u h i + D6 * K6 f t u h i
    + D7 * K7 f t u h i)
  u i + θ * (c2 + (1 - θ) * (c3 + θ * (c4 + (1 - θ) * c5)))

theorem Num.dense {s : St X n P} {f : ℝ → (Fin n → ℝ) → Fin n → ℝ} {t : ℝ} {u : Fin n → ℝ} {h : ℝ}
    (H : Num s f t u h) (hd : s.opts.dense = true) (hh : h ≠ 0) (θ : ℝ) :
    dense_output (DP5.finishStep (DP5.accepted s)) (fin (t + θ * h)) (fin h) = fv (denseR f t u h θ) := by
  obtain ⟨k2, k3, k4, k5, k6, ks, hu, hdu, -⟩ := H.stages
  obtain ⟨r1, r2, r3, r4, r5⟩ := accepted_rcont s hd
  have ht : (DP5.finishStep (DP5.accepted s)).tprev = fin t := by simp [H.t]
  have e1 : (1.0 : X) = fin 1 := by rw [X.sci]; norm_num
  have ed : (compute_stages s).dt = fin h := H.dt
  have eu : (compute_stages s).u = fv u := H.u
  have edu : (compute_stages s).cache.du = fv (f t u) := H.du
  unfold dense_output
  rw [ht, finishStep_cache, r1, r2, r3, r4, r5]
  have ex : (fin (t + θ * h) - fin t) / fin h = fin θ := by
    rw [sub_fin, div_fin hh]; congr 1; field_simp; ring
  rw [ex]
  simp only [prepare_dense, k3, k4, k5, k6, hu, hdu, ed, eu, edu, e1, fv_apply, D1_fin, D3_fin, D4_fin, D5_fin,
    D6_fin, D7_fin, mul_fin, add_fin, sub_fin]
  rfl

/-- The weights of the continuous extension, as coefficients of `θ, θ², θ³, θ⁴`. -/
def dRat : Fin 7 → ℚ := ![-12715105075 / 11282082432, 0, 87487479700 / 32700410799, -10690763975 / 1880347072,
  701980252875 / 199316789632, -1453857185 / 822651844, 69997945 / 29380423]
def betaRat : Fin 4 → Fin 7 → ℚ := fun m j =>
  let e1 : ℚ := if j = 0 then 1 else 0
  let e7 : ℚ := if j = 6 then 1 else 0
  let bj := b_rat j
  let d := dRat j
  ![e1, 3 * bj - 2 * e1 - e7 + d, -2 * bj + e7 + e1 - 2 * d, d] m

def beta (θ : ℝ) (j : Fin 7) : ℝ := ∑ m : Fin 4, (betaRat m j : ℝ) * θ ^ (m.val + 1)

theorem denseR_eq (f : ℝ → (Fin n → ℝ) → Fin n → ℝ) (t : ℝ) (u : Fin n → ℝ) (h θ : ℝ) (i : Fin n) :
    denseR f t u h θ i = u i + h * ∑ j, beta θ j *
      ![K1 f t u, K2 f t u h, K3 f t u h, K4 f t u h, K5 f t u h, K6 f t u h, K7 f t u h] j i := by
  simp only [denseR, beta, Fin.sum_univ_seven, Fin.sum_univ_four, betaRat, dRat, b_rat, Matrix.cons_val,
    unewR, A71_val, A73_val, A74_val, A75_val, A76_val, D1_val, D3_val, D4_val, D5_val, D6_val, D7_val]
  generalize K1 f t u i = y1
  generalize K3 f t u h i = y3
  generalize K4 f t u h i = y4
  generalize K5 f t u h i = y5
  generalize K6 f t u h i = y6
  generalize K7 f t u h i = y7
  simp
  ring

theorem beta_order (t : Spec.Tree) (ht : t.order ≤ 4) (θ : ℝ) :
    ∑ j, beta θ j * t.weight codeTableau.A j = θ ^ t.order / t.gamma := by
  have key : ∀ t ∈ Spec.treesUpTo 4, ∀ m : Fin 4, ∑ j, betaRat m j * t.weight A_rat j =
      if m.val + 1 = t.order then 1 / (t.gamma : ℚ) else 0 := by decide +kernel
  have := key t (Spec.mem_treesUpTo ht)
  have hpos : 1 ≤ t.order := by obtain ⟨l⟩ := t; simp [Spec.Tree.order]
  have e : ∀ m : Fin 4, ∑ j, (betaRat m j : ℝ) * t.weight codeTableau.A j =
      if m.val + 1 = t.order then 1 / (t.gamma : ℝ) else 0 := by
    intro m
    rw [codeTableau_A]
    simp only [Spec.weight_cast]
    have := congrArg (fun q : ℚ => (q : ℝ)) (this m)
    push_cast at this
    rw [this]
    split <;> simp
  calc ∑ j, beta θ j * t.weight codeTableau.A j
      = ∑ m : Fin 4, θ ^ (m.val + 1) * ∑ j, (betaRat m j : ℝ) * t.weight codeTableau.A j := by
        simp only [beta, Finset.sum_mul, Finset.mul_sum]
        rw [Finset.sum_comm]
        refine Finset.sum_congr rfl fun m _ => Finset.sum_congr rfl fun j _ => by ring
    _ = _ := by
        simp only [e, Fin.sum_univ_four]
        obtain h | h | h | h : t.order = 1 ∨ t.order = 2 ∨ t.order = 3 ∨ t.order = 4 := by omega
        all_goals rw [h]; simp; ring

theorem hermite_deriv (a c2 c3 c4 c5 θ : ℝ) :
    HasDerivAt (fun θ => a + θ * (c2 + (1 - θ) * (c3 + θ * (c4 + (1 - θ) * c5))))
      ((c2 + c3) + (-c3 + c4 + c5) * (2 * θ) + (-c4 - 2 * c5) * (3 * θ ^ 2) + c5 * (4 * θ ^ 3)) θ := by
  have h := ((((hasDerivAt_id θ).const_mul (c2 + c3)).add ((hasDerivAt_pow 2 θ).const_mul (-c3 + c4 + c5))).add
    ((hasDerivAt_pow 3 θ).const_mul (-c4 - 2 * c5))).add ((hasDerivAt_pow 4 θ).const_mul c5)
  have h := h.const_add a
  refine (h.congr_deriv (by norm_num)).congr_of_eventuallyEq (Filter.Eventually.of_forall fun x => ?_)
  simp
  ring

end DP5

open DP5

/-- **C46** With dense output enabled, after every step the continuous extension `D` interpolates the two last
recorded points, has the right-hand side as derivative at both ends, and is given by weights `β θ` which do not
depend on the problem and satisfy the order conditions up to order four at every point of the step. -/
theorem C46_dense_output_dp5 : ∃ β : ℝ → Fin 7 → ℝ,
    (∀ t : Spec.Tree, t.order ≤ 4 → ∀ θ, ∑ j, β θ j * t.weight Spec.dopri5.A j = θ ^ t.order / t.gamma) ∧
    ∀ {n : ℕ} {P : Type} {E : DP5.Env n} {b : Builder X n P} {t0 : ℝ} {u0 : Fin n → ℝ} {s0 s : DP5.St X n P}
      {k : ℕ}, DP5.Problem E b t0 u0 → b.opts.dense = true → b.build DP5.alg = .ok s0 →
      Steps DP5.alg none (k + 1) s0 s →
      ∃ t u h u' K, ∃ D : ℝ → Fin n → ℝ,
        s.tprev = fin t ∧ s.uprev = fv u ∧ s.dtprev = fin h ∧ s.t = fin (t + h) ∧ s.u = fv u' ∧
        (h ≠ 0 → ∀ θ, DP5.dense_output s (fin (t + θ * h)) s.dtprev = fv (D θ)) ∧
        D 0 = u ∧ D 1 = u' ∧ HasDerivAt D (h • E.f t u) 0 ∧ HasDerivAt D (h • E.f (t + h) u') 1 ∧
        Spec.IsStages Spec.dopri5 E.f t u h K ∧ ∀ θ i, D θ i = u i + h * ∑ j, β θ j * K j i := by
  refine ⟨DP5.beta, fun t ht θ => by rw [← codeTableau_eq]; exact DP5.beta_order t ht θ, ?_⟩
  intro n P E b t0 u0 s0 s k H hd hb hs
  obtain ⟨s1, o, h1, h2⟩ := Steps.cases_snoc hs
  obtain ⟨t, u, h0, G⟩ := H.good hb h1
  have ho : s1.opts.dense = true := by rw [(DP5.run_fields hb h1).1]; exact hd
  obtain ⟨⟨fuel, h3⟩, -⟩ := stepReturns_none_iff.1 h2
  obtain ⟨j, s2, hk, hr, he, hm, rfl, sp⟩ := step_spec h3
  obtain ⟨h, r1, G1⟩ := G.clampLast.rejs hr
  have ho2 : s2.opts.dense = true := by
    rw [hr.spec.frame.opts, (Frame.clampLast s1).opts]; exact ho
  obtain ⟨-, -, -, -, -, -, hu, hdu, -⟩ := G1.num.stages
  refine ⟨t, u, h, unewR E.f t u h, _, denseR E.f t u h, ?_, ?_, ?_, ?_, ?_, ?_, ?_, ?_, ?_, ?_, isStages E.f t u h, denseR_eq E.f t u h⟩
  · simp [G1.num.t]
  · simp [G1.num.u]
  · simp [G1.num.dt]
  · simp [G1.num.t, G1.num.dt]
  · simp [hu]
  · intro hh θ
    have : (finishStep (accepted s2)).dtprev = fin h := by simp [G1.num.dt]
    rw [this]
    exact G1.num.dense ho2 hh θ
  · funext i; simp [denseR]
  · funext i; simp [denseR]
  · rw [hasDerivAt_pi]
    intro i
    refine (hermite_deriv _ _ _ _ _ 0).congr_deriv ?_
    simp [K1]
  · rw [hasDerivAt_pi]
    intro i
    refine (hermite_deriv _ _ _ _ _ 1).congr_deriv ?_
    simp [K7]; ring

/-- A run with dense output enabled: `u' = 1` with the default options. -/
example : ∃ (E : DP5.Env 1) (b : Builder X 1 Unit) (s0 s : DP5.St X 1 Unit), DP5.Problem E b 0 (fun _ => 0) ∧
    b.opts.dense = true ∧ b.build DP5.alg = .ok s0 ∧ Steps DP5.alg none 1 s0 s := by
  have H := DP5.sample_problem 1
  have H' : DP5.Problem _ ((DP5.sampleBuilder 1).set (.dense true)) 0 (fun _ => 0) :=
    ⟨H.rhs, H.u, H.t, H.dt, H.tfinal, H.dir, ⟨H.tol.1, H.tol.2, H.tol.3, H.tol.4⟩,
      ⟨H.ctl.1, H.ctl.2, H.ctl.3, H.ctl.4, H.ctl.5, H.ctl.6, H.ctl.7, H.ctl.8, H.ctl.9, H.ctl.10, H.ctl.11⟩, H.dim⟩
  obtain ⟨s0, hb⟩ : ∃ s0 : DP5.St X 1 Unit, ((DP5.sampleBuilder 1).set (.dense true)).build DP5.alg = .ok s0 :=
    ⟨_, rfl⟩
  obtain ⟨o, s, h⟩ := C13_step_returns_dp5 H' (DP5.default_sane _ _ _) (by norm_num [DP5.defaultEnv])
    (by norm_num [DP5.defaultEnv]) hb (Steps.zero (alg := DP5.alg) (cb := none) s0)
    fun t u _ _ => ⟨1, one_pos, 1, fun _ _ _ _ i => by simp [DP5.defaultEnv]⟩
  exact ⟨_, _, s0, s, H', rfl, hb, .succ (.zero _) h⟩

/-- **C46** For `u' = p(t)`, `deg p ≤ 3`, the continuous extension is the exact solution everywhere. -/
theorem C46_dense_polynomial_dp5 (H : DP5.Problem E b t0 u0) (hd : b.opts.dense = true)
    (hb : b.build DP5.alg = .ok s0) {k : ℕ} {s : DP5.St X n P} (hs : Steps DP5.alg none (k + 1) s0 s)
    (p : Fin n → ℝ[X]) (hp : ∀ i, (p i).natDegree ≤ 3) (hf : ∀ t u i, E.f t u i = (p i).eval t) :
    ∃ h, s.dtprev = fin h ∧ (h ≠ 0 → ∀ x, DP5.dense_output s (fin x) s.dtprev =
      fv fun i => u0 i + ∫ y in t0..x, (p i).eval y) := by
  have hf' : E.f = fun t _ i => (p i).eval t := by funext t u i; exact hf t u i
  have hp4 : ∀ i, (p i).natDegree ≤ 4 := fun i => (hp i).trans (by norm_num)
  obtain ⟨s1, o, h1, h2⟩ := Steps.cases_snoc hs
  obtain ⟨l, hl, -, hex, t, u, ht, hu, hmem⟩ := C19_polynomial_run_dp5 H hb h1 p hp4 hf
  obtain ⟨t', u', h0, G⟩ := H.good hb h1
  obtain rfl : t' = t := X.fin.inj (G.num.t.symm.trans ht)
  obtain rfl : u' = u := funext fun i => X.fin.inj (congrFun (G.num.u.symm.trans hu) i)
  have hex := hex _ hmem
  have ho : s1.opts.dense = true := by rw [(DP5.run_fields hb h1).1]; exact hd
  obtain ⟨⟨fuel, h3⟩, -⟩ := stepReturns_none_iff.1 h2
  obtain ⟨j, s2, hk, hr, he, hm, rfl, sp⟩ := step_spec h3
  obtain ⟨h, r1, G1⟩ := G.clampLast.rejs hr
  have ho2 : s2.opts.dense = true := by
    rw [hr.spec.frame.opts, (Frame.clampLast s1).opts]; exact ho
  have hdt : (finishStep (accepted s2)).dtprev = fin h := by simp [G1.num.dt]
  refine ⟨h, hdt, fun hh x => ?_⟩
  rw [hdt]
  have := G1.num.dense ho2 hh ((x - t') / h)
  rw [show t' + (x - t') / h * h = x by field_simp; ring] at this
  rw [this]
  congr 1
  funext i
  obtain ⟨a0, a1, a2, a3, a4, ha, h4⟩ := DP5.poly_eval (hp4 i) t'
  have e0 : (p i).eval t' = a0 := by have := ha 0; simpa using this
  have hI : ∫ y in t0..x, (p i).eval y = (∫ y in t0..t', (p i).eval y) + ∫ y in t'..(t' + (x - t')), (p i).eval y := by
    have ci : ∀ x y, IntervalIntegrable (fun x => (p i).eval x) MeasureTheory.volume x y :=
      fun x y => (Continuous.intervalIntegrable (by fun_prop)) _ _
    rw [intervalIntegral.integral_add_adjacent_intervals (ci t0 t') (ci t' _)]
    congr 1; ring
  rw [hI, ← add_assoc, ← hex i, DP5.poly_integral ha, h4 (hp i)]
  obtain ⟨θ, hθ⟩ : ∃ θ, x - t' = θ * h := ⟨(x - t') / h, by field_simp⟩
  rw [hθ, mul_div_assoc, div_self hh, mul_one]
  simp only [hf', denseR, DP5.unewR, DP5.K1, DP5.K2, DP5.K3, DP5.K4, DP5.K5, DP5.K6, DP5.K7, ha, e0, DP5.C2_val,
    DP5.C3_val, DP5.C4_val, DP5.C5_val, DP5.A71_val, DP5.A73_val, DP5.A74_val, DP5.A75_val, DP5.A76_val,
    DP5.D1_val, DP5.D3_val, DP5.D4_val, DP5.D5_val, DP5.D6_val, DP5.D7_val, h4 (hp i)]
  ring

end
end Cyphus
