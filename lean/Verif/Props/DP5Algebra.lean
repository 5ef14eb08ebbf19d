import Verif.Props.DP5Exact
import Mathlib.Algebra.Polynomial.Taylor
import Mathlib.Analysis.SpecialFunctions.Integrals.Basic
import Mathlib.Tactic.Module
import Mathlib.Topology.Algebra.Polynomial
/-!
# C19, C20: polynomial right-hand sides and linear systems
-/

namespace Cyphus
open X Polynomial
set_option linter.unusedSectionVars false
set_option autoImplicit false
noncomputable section
variable {n : ℕ} {P : Type} {E : DP5.Env n} {b : Builder X n P} {t0 : ℝ} {u0 : Fin n → ℝ}
  {s0 : DP5.St X n P}

/-! ### C19 -/

/-- A polynomial of degree at most four around `t`. -/
theorem DP5.poly_eval {p : ℝ[X]} (hp : p.natDegree ≤ 4) (t : ℝ) : ∃ a0 a1 a2 a3 a4 : ℝ,
    (∀ x, p.eval (t + x) = a0 + a1 * x + a2 * x ^ 2 + a3 * x ^ 3 + a4 * x ^ 4) ∧
    (p.natDegree ≤ 3 → a4 = 0) := by
  set q := taylor t p with hq
  have hd : q.natDegree ≤ 4 := by rw [hq, natDegree_taylor]; exact hp
  refine ⟨q.coeff 0, q.coeff 1, q.coeff 2, q.coeff 3, q.coeff 4, fun x => ?_, fun h => ?_⟩
  · have : q.eval x = p.eval (t + x) := by rw [hq, taylor_eval, add_comm]
    rw [← this, eval_eq_sum_range' (Nat.lt_succ_of_le hd)]
    simp [Finset.sum_range_succ]
  · exact coeff_eq_zero_of_natDegree_lt (by rw [hq, natDegree_taylor]; omega)

theorem DP5.poly_integral {p : ℝ[X]} {t a0 a1 a2 a3 a4 : ℝ}
    (h : ∀ x, p.eval (t + x) = a0 + a1 * x + a2 * x ^ 2 + a3 * x ^ 3 + a4 * x ^ 4) (y : ℝ) :
    ∫ x in t..(t + y), p.eval x = a0 * y + a1 * y ^ 2 / 2 + a2 * y ^ 3 / 3 + a3 * y ^ 4 / 4 + a4 * y ^ 5 / 5 := by
  have e : ∫ x in t..(t + y), p.eval x = ∫ x in (0:ℝ)..y, p.eval (t + x) := by
    rw [intervalIntegral.integral_comp_add_left (fun x => p.eval x) t]; simp
  rw [e]
  simp only [h]
  have ci : ∀ f : ℝ → ℝ, Continuous f → IntervalIntegrable f MeasureTheory.volume 0 y :=
    fun f hf => hf.intervalIntegrable _ _
  rw [intervalIntegral.integral_add (ci _ (by fun_prop)) (ci _ (by fun_prop)),
    intervalIntegral.integral_add (ci _ (by fun_prop)) (ci _ (by fun_prop)),
    intervalIntegral.integral_add (ci _ (by fun_prop)) (ci _ (by fun_prop)),
    intervalIntegral.integral_add (ci _ (by fun_prop)) (ci _ (by fun_prop))]
  have e1 : ∫ x in (0:ℝ)..y, a1 * x = a1 * (y ^ 2 / 2) := by
    rw [intervalIntegral.integral_const_mul, integral_id]; ring
  rw [e1]
  simp only [intervalIntegral.integral_const_mul, intervalIntegral.integral_const, integral_pow]
  norm_num
  ring

/-- **C19** One Dormand-Prince step for `u' = p(t)`, `deg p ≤ 4`, returns the exact integral; for `deg p ≤ 3` the
error estimate is exactly zero. -/
theorem C19_polynomial_step (p : Fin n → ℝ[X]) (hp : ∀ i, (p i).natDegree ≤ 4) (t : ℝ) (u u' e : Fin n → ℝ) (h : ℝ)
    (hs : Spec.IsStep Spec.dopri5 (fun t _ i => (p i).eval t) t u h u')
    (he : Spec.IsErr Spec.dopri5 (fun t _ i => (p i).eval t) t u h e) (i : Fin n) :
    u' i = u i + ∫ x in t..(t + h), (p i).eval x ∧ ((p i).natDegree ≤ 3 → e i = 0) := by
  obtain ⟨a0, a1, a2, a3, a4, ha, h4⟩ := DP5.poly_eval (hp i) t
  rw [DP5.isStep_iff] at hs
  rw [DP5.isErr_iff] at he
  subst hs he
  rw [DP5.poly_integral ha]
  have e0 : (p i).eval t = a0 := by have := ha 0; simpa using this
  simp only [DP5.unewR, DP5.uerrR, DP5.K1, DP5.K2, DP5.K3, DP5.K4, DP5.K5, DP5.K6, DP5.K7, ha, e0, DP5.C2_val,
    DP5.C3_val, DP5.C4_val, DP5.C5_val, DP5.A71_val, DP5.A73_val, DP5.A74_val, DP5.A75_val, DP5.A76_val,
    DP5.E1_val, DP5.E3_val, DP5.E4_val, DP5.E5_val, DP5.E6_val, DP5.E7_val]
  refine ⟨by ring, fun hd => ?_⟩
  rw [h4 hd]
  ring

/-- **C19** All points recorded for `u' = p(t)`, `deg p ≤ 4`, lie on the exact solution. -/
theorem C19_polynomial_run_dp5 (H : DP5.Problem E b t0 u0) (hb : b.build DP5.alg = .ok s0) {k : ℕ}
    {s : DP5.St X n P} (hs : Steps DP5.alg none k s0 s) (p : Fin n → ℝ[X]) (hp : ∀ i, (p i).natDegree ≤ 4)
    (hf : ∀ t u i, E.f t u i = (p i).eval t) :
    ∃ l, Recorded s.sol l ∧ l.length = k + 1 ∧ (∀ q ∈ l, ∀ i, q.2 i = u0 i + ∫ x in t0..q.1, (p i).eval x) ∧
      ∃ t u, s.t = fin t ∧ s.u = fv u ∧ (t, u) ∈ l := by
  have hf' : E.f = fun t _ i => (p i).eval t := by funext t u i; exact hf t u i
  obtain ⟨l, t, u, h, G, h1, h2, h3, h5, h4⟩ := H.chain_last hb hs
    (fun a q => (fun i => q.2 i - ∫ x in t0..q.1, (p i).eval x) = fun i => a.2 i - ∫ x in t0..a.1, (p i).eval x)
    fun t u h _ => by
      have hst := (DP5.isStep_iff E.f t u h _).2 rfl
      have hse := (DP5.isErr_iff E.f t u h _).2 rfl
      rw [hf'] at hst hse
      funext i
      have := (C19_polynomial_step p hp t u _ _ h hst hse i).1
      simp only [DP5.Env.next, hf', this]
      have ci : ∀ x y, IntervalIntegrable (fun x => (p i).eval x) MeasureTheory.volume x y :=
        fun x y => (Continuous.intervalIntegrable (by fun_prop)) _ _
      have := intervalIntegral.integral_add_adjacent_intervals (ci t0 t) (ci t (t + h))
      linarith
  refine ⟨l, h1, h4, fun q hq i => ?_, t, u, G.num.t, G.num.u, List.mem_of_getLast? h5⟩
  have := List.IsChain.all_eq (g := fun q : ℝ × (Fin n → ℝ) => fun i => q.2 i - ∫ x in t0..q.1, (p i).eval x)
    h3 h2 q hq
  have := congrFun this i
  simp at this
  linarith

/-- If all error estimates are at most one, no attempt is rejected. -/
theorem DP5.Problem.no_rejects (H : DP5.Problem E b t0 u0) (hb : b.build DP5.alg = .ok s0) {k : ℕ}
    {s : DP5.St X n P} (hs : Steps DP5.alg none k s0 s) (hE : ∀ t u h, E.err t u h ≤ 1) :
    s.stats.rejects = 0 ∧ s.stats.function_evals = 6 * k := by
  have key := Steps.induct (alg := DP5.alg)
    (I := fun k s => (∃ t u h, DP5.Good E s t u h) ∧ s.stats.rejects = 0 ∧ s.stats.function_evals = 6 * k) ?_ ?_ hs
  · exact key.2
  · obtain ⟨G, -, -, -, h1, -, h2, -⟩ := H.build hb
    exact ⟨⟨_, _, _, G⟩, by rw [h2]; rfl, by rw [h2]; rfl⟩
  · rintro k s o s' ⟨⟨t, u, h, G⟩, h2, h3⟩ h4
    obtain ⟨⟨fuel, h4⟩, -⟩ := stepReturns_none_iff.1 h4
    obtain ⟨j, h1', q, r, -, -, -, G', -, -, sp⟩ := G.step h4
    have hj : j = 0 := by
      cases r with
      | zero => rfl
      | succ he _ => exact absurd he (not_lt.2 (hE _ _ _))
    subst hj
    exact ⟨⟨_, _, _, G'⟩, by rw [sp.rejects, h2]; simp, by rw [sp.function_evals, h3]; ring⟩

/-- **C19** For `deg p ≤ 3` no attempt is ever rejected. -/
theorem C19_cubic_never_rejected_dp5 (H : DP5.Problem E b t0 u0) (hb : b.build DP5.alg = .ok s0) {k : ℕ}
    {s : DP5.St X n P} (hs : Steps DP5.alg none k s0 s) (p : Fin n → ℝ[X]) (hp : ∀ i, (p i).natDegree ≤ 3)
    (hf : ∀ t u i, E.f t u i = (p i).eval t) :
    s.stats.rejects = 0 ∧ s.stats.function_evals = 6 * k := by
  have hf' : E.f = fun t _ i => (p i).eval t := by funext t u i; exact hf t u i
  refine H.no_rejects hb hs fun t u h => ?_
  have hst := (DP5.isStep_iff E.f t u h _).2 rfl
  have hse := (DP5.isErr_iff E.f t u h _).2 rfl
  rw [hf'] at hst hse
  have : DP5.uerrR E.f t u h = 0 := by
    funext i
    rw [hf']
    exact (C19_polynomial_step p (fun i => (hp i).trans (by norm_num)) t u _ _ h hst hse i).2 (hp i)
  unfold DP5.Env.err DP5.errR Spec.errNorm
  rw [this]; simp

/-- `u' = t^3` from `0` satisfies the hypotheses. -/
example : ∃ (E : DP5.Env 1) (b : Builder X 1 Unit) (s0 : DP5.St X 1 Unit), DP5.Problem E b 0 (fun _ => 0) ∧
    b.build DP5.alg = .ok s0 ∧ (∀ t u i, E.f t u i = ((fun _ => Polynomial.X ^ 3) i : ℝ[X]).eval t) := by
  refine ⟨_, Builder.default DP5.alg (fun _ _ u t => fun i => t * t * t) (fv fun _ => 0) (fin 0, fin 1) (),
    _, DP5.default_problem one_ne_zero (f := fun t u i => t * t * t) ?_ 0 1 _, rfl, ?_⟩
  · intro _ t u; funext i; simp
  · intro t u i; simp [DP5.defaultEnv]; ring

/-! ### C20 -/

/-- The stability polynomial of the Dormand-Prince method at the linear map `h • L`:
`∑ k ≤ 5, (h L)^k / k! + (h L)^6 / 600`. -/
def DP5.stab (L : (Fin n → ℝ) →ₗ[ℝ] (Fin n → ℝ)) (h : ℝ) : (Fin n → ℝ) →ₗ[ℝ] (Fin n → ℝ) :=
  ∑ k ∈ Finset.range 6, ((1 : ℝ) / k.factorial) • (h • L) ^ k + ((1 : ℝ) / 600) • (h • L) ^ 6


section linear
variable (L : (Fin n → ℝ) →ₗ[ℝ] (Fin n → ℝ)) (t h : ℝ) {v0 v1 v2 v3 v4 v5 v6 v7 : Fin n → ℝ}

theorem DP5.linear_K1 (h0 : L v0 = v1) : DP5.K1 (fun _ u => L u) t v0 = v1 := h0

theorem DP5.linear_K2 (h0 : L v0 = v1) (h1 : L v1 = v2) :
    DP5.K2 (fun _ u => L u) t v0 h = v1 + ((1/5) * h ^ 1) • v2 := by
  have e : DP5.K2 (fun _ u => L u) t v0 h = L (v0 + (h * DP5.A21) • (v1)) := by
    unfold DP5.K2; rw [DP5.linear_K1 L t h0]; rfl
  rw [e]
  simp only [map_add, map_smul, DP5.A21_val, h0, h1]
  module

theorem DP5.linear_K3 (h0 : L v0 = v1) (h1 : L v1 = v2) (h2 : L v2 = v3) :
    DP5.K3 (fun _ u => L u) t v0 h = v1 + ((3/10) * h ^ 1) • v2 + ((9/200) * h ^ 2) • v3 := by
  have e : DP5.K3 (fun _ u => L u) t v0 h = L (v0 + h • ((DP5.A31 : ℝ) • (v1) + (DP5.A32 : ℝ) • (v1 + ((1/5) * h ^ 1) • v2))) := by
    unfold DP5.K3; rw [DP5.linear_K1 L t h0, DP5.linear_K2 L t h h0 h1]; rfl
  rw [e]
  simp only [map_add, map_smul, DP5.A31_val, DP5.A32_val, h0, h1, h2]
  module

theorem DP5.linear_K4 (h0 : L v0 = v1) (h1 : L v1 = v2) (h2 : L v2 = v3) (h3 : L v3 = v4) :
    DP5.K4 (fun _ u => L u) t v0 h = v1 + ((4/5) * h ^ 1) • v2 + ((8/25) * h ^ 2) • v3 + ((4/25) * h ^ 3) • v4 := by
  have e : DP5.K4 (fun _ u => L u) t v0 h = L (v0 + h • ((DP5.A41 : ℝ) • (v1) + (DP5.A42 : ℝ) • (v1 + ((1/5) * h ^ 1) • v2) + (DP5.A43 : ℝ) • (v1 + ((3/10) * h ^ 1) • v2 + ((9/200) * h ^ 2) • v3))) := by
    unfold DP5.K4; rw [DP5.linear_K1 L t h0, DP5.linear_K2 L t h h0 h1, DP5.linear_K3 L t h h0 h1 h2]; rfl
  rw [e]
  simp only [map_add, map_smul, DP5.A41_val, DP5.A42_val, DP5.A43_val, h0, h1, h2, h3]
  module

theorem DP5.linear_K5 (h0 : L v0 = v1) (h1 : L v1 = v2) (h2 : L v2 = v3) (h3 : L v3 = v4) (h4 : L v4 = v5) :
    DP5.K5 (fun _ u => L u) t v0 h = v1 + ((8/9) * h ^ 1) • v2 + ((32/81) * h ^ 2) • v3 + ((424/1215) * h ^ 3) • v4 + ((-848/18225) * h ^ 4) • v5 := by
  have e : DP5.K5 (fun _ u => L u) t v0 h = L (v0 + h • ((DP5.A51 : ℝ) • (v1) + (DP5.A52 : ℝ) • (v1 + ((1/5) * h ^ 1) • v2) + (DP5.A53 : ℝ) • (v1 + ((3/10) * h ^ 1) • v2 + ((9/200) * h ^ 2) • v3) + (DP5.A54 : ℝ) • (v1 + ((4/5) * h ^ 1) • v2 + ((8/25) * h ^ 2) • v3 + ((4/25) * h ^ 3) • v4))) := by
    unfold DP5.K5; rw [DP5.linear_K1 L t h0, DP5.linear_K2 L t h h0 h1, DP5.linear_K3 L t h h0 h1 h2, DP5.linear_K4 L t h h0 h1 h2 h3]; rfl
  rw [e]
  simp only [map_add, map_smul, DP5.A51_val, DP5.A52_val, DP5.A53_val, DP5.A54_val, h0, h1, h2, h3, h4]
  module

theorem DP5.linear_K6 (h0 : L v0 = v1) (h1 : L v1 = v2) (h2 : L v2 = v3) (h3 : L v3 = v4) (h4 : L v4 = v5) (h5 : L v5 = v6) :
    DP5.K6 (fun _ u => L u) t v0 h = v1 + ((1) * h ^ 1) • v2 + ((1/2) * h ^ 2) • v3 + ((21/55) * h ^ 3) • v4 + ((-14/275) * h ^ 4) • v5 + ((7/550) * h ^ 5) • v6 := by
  have e : DP5.K6 (fun _ u => L u) t v0 h = L (v0 + h • ((DP5.A61 : ℝ) • (v1) + (DP5.A62 : ℝ) • (v1 + ((1/5) * h ^ 1) • v2) + (DP5.A63 : ℝ) • (v1 + ((3/10) * h ^ 1) • v2 + ((9/200) * h ^ 2) • v3) + (DP5.A64 : ℝ) • (v1 + ((4/5) * h ^ 1) • v2 + ((8/25) * h ^ 2) • v3 + ((4/25) * h ^ 3) • v4) + (DP5.A65 : ℝ) • (v1 + ((8/9) * h ^ 1) • v2 + ((32/81) * h ^ 2) • v3 + ((424/1215) * h ^ 3) • v4 + ((-848/18225) * h ^ 4) • v5))) := by
    unfold DP5.K6 DP5.K6arg; rw [DP5.linear_K1 L t h0, DP5.linear_K2 L t h h0 h1, DP5.linear_K3 L t h h0 h1 h2, DP5.linear_K4 L t h h0 h1 h2 h3, DP5.linear_K5 L t h h0 h1 h2 h3 h4]; rfl
  rw [e]
  simp only [map_add, map_smul, DP5.A61_val, DP5.A62_val, DP5.A63_val, DP5.A64_val, DP5.A65_val, h0, h1, h2, h3, h4, h5]
  module

theorem DP5.linear_unew (h0 : L v0 = v1) (h1 : L v1 = v2) (h2 : L v2 = v3) (h3 : L v3 = v4) (h4 : L v4 = v5) (h5 : L v5 = v6) :
    DP5.unewR (fun _ u => L u) t v0 h = v0 + h • v1 + ((1/2) * h ^ 2) • v2 + ((1/6) * h ^ 3) • v3 + ((1/24) * h ^ 4) • v4 + ((1/120) * h ^ 5) • v5
      + ((1/600) * h ^ 6) • v6 := by
  have e : DP5.unewR (fun _ u => L u) t v0 h = v0 + h • ((DP5.A71 : ℝ) • (v1) + (DP5.A73 : ℝ) • (v1 + ((3/10) * h ^ 1) • v2 + ((9/200) * h ^ 2) • v3) + (DP5.A74 : ℝ) • (v1 + ((4/5) * h ^ 1) • v2 + ((8/25) * h ^ 2) • v3 + ((4/25) * h ^ 3) • v4) + (DP5.A75 : ℝ) • (v1 + ((8/9) * h ^ 1) • v2 + ((32/81) * h ^ 2) • v3 + ((424/1215) * h ^ 3) • v4 + ((-848/18225) * h ^ 4) • v5) + (DP5.A76 : ℝ) • (v1 + ((1) * h ^ 1) • v2 + ((1/2) * h ^ 2) • v3 + ((21/55) * h ^ 3) • v4 + ((-14/275) * h ^ 4) • v5 + ((7/550) * h ^ 5) • v6)) := by
    unfold DP5.unewR; rw [DP5.linear_K1 L t h0, DP5.linear_K3 L t h h0 h1 h2, DP5.linear_K4 L t h h0 h1 h2 h3, DP5.linear_K5 L t h h0 h1 h2 h3 h4, DP5.linear_K6 L t h h0 h1 h2 h3 h4 h5]; rfl
  rw [e]
  simp only [DP5.A71_val, DP5.A73_val, DP5.A74_val, DP5.A75_val, DP5.A76_val]
  module

theorem DP5.linear_K7 (h0 : L v0 = v1) (h1 : L v1 = v2) (h2 : L v2 = v3) (h3 : L v3 = v4) (h4 : L v4 = v5) (h5 : L v5 = v6) (h6 : L v6 = v7) :
    DP5.K7 (fun _ u => L u) t v0 h = v1 + ((1) * h ^ 1) • v2 + ((1/2) * h ^ 2) • v3 + ((1/6) * h ^ 3) • v4 + ((1/24) * h ^ 4) • v5 + ((1/120) * h ^ 5) • v6 + ((1/600) * h ^ 6) • v7 := by
  unfold DP5.K7
  rw [DP5.linear_unew L t h h0 h1 h2 h3 h4 h5]
  simp only [map_add, map_smul, h0, h1, h2, h3, h4, h5, h6]
  module

theorem DP5.linear_uerr (h0 : L v0 = v1) (h1 : L v1 = v2) (h2 : L v2 = v3) (h3 : L v3 = v4) (h4 : L v4 = v5) (h5 : L v5 = v6) (h6 : L v6 = v7) :
    DP5.uerrR (fun _ u => L u) t v0 h = (-97 / 120000 * h ^ 5) • v5 + (13 / 40000 * h ^ 6) • v6
      + (-1 / 24000 * h ^ 7) • v7 := by
  have e : DP5.uerrR (fun _ u => L u) t v0 h = h • ((DP5.E1 : ℝ) • (v1) + (DP5.E3 : ℝ) • (v1 + ((3/10) * h ^ 1) • v2 + ((9/200) * h ^ 2) • v3) + (DP5.E4 : ℝ) • (v1 + ((4/5) * h ^ 1) • v2 + ((8/25) * h ^ 2) • v3 + ((4/25) * h ^ 3) • v4) + (DP5.E5 : ℝ) • (v1 + ((8/9) * h ^ 1) • v2 + ((32/81) * h ^ 2) • v3 + ((424/1215) * h ^ 3) • v4 + ((-848/18225) * h ^ 4) • v5) + (DP5.E6 : ℝ) • (v1 + ((1) * h ^ 1) • v2 + ((1/2) * h ^ 2) • v3 + ((21/55) * h ^ 3) • v4 + ((-14/275) * h ^ 4) • v5 + ((7/550) * h ^ 5) • v6) + (DP5.E7 : ℝ) • (v1 + ((1) * h ^ 1) • v2 + ((1/2) * h ^ 2) • v3 + ((1/6) * h ^ 3) • v4 + ((1/24) * h ^ 4) • v5 + ((1/120) * h ^ 5) • v6 + ((1/600) * h ^ 6) • v7)) := by
    unfold DP5.uerrR; rw [DP5.linear_K1 L t h0, DP5.linear_K3 L t h h0 h1 h2, DP5.linear_K4 L t h h0 h1 h2 h3, DP5.linear_K5 L t h h0 h1 h2 h3 h4, DP5.linear_K6 L t h h0 h1 h2 h3 h4 h5, DP5.linear_K7 L t h h0 h1 h2 h3 h4 h5 h6]; rfl
  rw [e]
  simp only [DP5.E1_val, DP5.E3_val, DP5.E4_val, DP5.E5_val, DP5.E6_val, DP5.E7_val]
  module

end linear

theorem DP5.stab_apply (L : (Fin n → ℝ) →ₗ[ℝ] (Fin n → ℝ)) (h : ℝ) (u : Fin n → ℝ) :
    DP5.stab L h u = u + h • L u + (1 / 2 * h ^ 2) • L (L u) + (1 / 6 * h ^ 3) • L (L (L u))
      + (1 / 24 * h ^ 4) • L (L (L (L u))) + (1 / 120 * h ^ 5) • L (L (L (L (L u))))
      + (1 / 600 * h ^ 6) • L (L (L (L (L (L u))))) := by
  simp only [DP5.stab, Finset.sum_range_succ, Finset.sum_range_zero, smul_pow, LinearMap.add_apply,
    LinearMap.smul_apply, pow_succ', pow_zero, Module.End.mul_apply, Module.End.one_apply, map_smul]
  norm_num [Nat.factorial]
  module

/-- **C20** One step for `u' = L u` applies the stability polynomial. -/
theorem C20_linear_step (L : (Fin n → ℝ) →ₗ[ℝ] (Fin n → ℝ)) (t : ℝ) (u u' : Fin n → ℝ) (h : ℝ)
    (hs : Spec.IsStep Spec.dopri5 (fun _ u => L u) t u h u') : u' = DP5.stab L h u := by
  rw [DP5.isStep_iff] at hs
  rw [hs, DP5.linear_unew L t h rfl rfl rfl rfl rfl rfl, DP5.stab_apply]

/-- **C20** The error estimate of that step. -/
theorem C20_linear_error (L : (Fin n → ℝ) →ₗ[ℝ] (Fin n → ℝ)) (t : ℝ) (u e : Fin n → ℝ) (h : ℝ)
    (hs : Spec.IsErr Spec.dopri5 (fun _ u => L u) t u h e) :
    e = ((-97 / 120000 : ℝ) • (h • L) ^ 5 + (13 / 40000 : ℝ) • (h • L) ^ 6 + (-1 / 24000 : ℝ) • (h • L) ^ 7) u := by
  rw [DP5.isErr_iff] at hs
  rw [hs, DP5.linear_uerr L t h rfl rfl rfl rfl rfl rfl rfl]
  simp only [smul_pow, LinearMap.add_apply, LinearMap.smul_apply]
  simp only [pow_succ' L, pow_zero, Module.End.mul_apply, Module.End.one_apply]
  module

/-- **C20** All points recorded for `u' = L u` are obtained by applying stability polynomials. -/
theorem C20_linear_run_dp5 (H : DP5.Problem E b t0 u0) (hb : b.build DP5.alg = .ok s0) {k : ℕ}
    {s : DP5.St X n P} (hs : Steps DP5.alg none k s0 s) (L : (Fin n → ℝ) →ₗ[ℝ] (Fin n → ℝ))
    (hf : ∀ t u, E.f t u = L u) :
    ∃ l, Recorded s.sol l ∧ l.head? = some (t0, u0) ∧ l.length = k + 1 ∧
      l.IsChain fun p q => q.2 = DP5.stab L (q.1 - p.1) p.2 := by
  have hf' : E.f = fun _ u => L u := by funext t u; exact hf t u
  obtain ⟨l, h1, h2, h3, h4⟩ := H.chain hb hs (fun p q => q.2 = DP5.stab L (q.1 - p.1) p.2) fun t u h _ => by
    have := C20_linear_step L t u _ h (by rw [← hf']; exact (DP5.isStep_iff E.f t u h _).2 rfl)
    simpa [DP5.Env.next] using this
  exact ⟨l, h1, h2, h4, h3⟩

/-- The harmonic oscillator satisfies the hypotheses. -/
example : ∃ (E : DP5.Env 2) (b : Builder X 2 Unit) (s0 : DP5.St X 2 Unit) (L : (Fin 2 → ℝ) →ₗ[ℝ] (Fin 2 → ℝ)),
    DP5.Problem E b 0 ![1, 0] ∧ b.build DP5.alg = .ok s0 ∧ (∀ t u, E.f t u = L u) ∧ L ≠ 0 := by
  refine ⟨_, Builder.default DP5.alg (fun _ _ u _ => ![u 1, -u 0]) (fv ![1, 0]) (fin 0, fin 1) (),
    _, Matrix.toLin' !![0, 1; -1, 0],
    DP5.default_problem two_ne_zero (f := fun t u => ![u 1, -u 0]) ?_ 0 1 _, rfl, ?_, ?_⟩
  · intro _ t u; funext i; fin_cases i <;> rfl
  · intro t u; funext i; fin_cases i <;> simp [DP5.defaultEnv, Matrix.vecHead, Matrix.vecTail]
  · intro h
    have := congrFun (LinearMap.congr_fun h ![1, 0]) 1
    simp at this

end
end Cyphus
