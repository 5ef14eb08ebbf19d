import Mathlib.Analysis.SpecialFunctions.ExpDeriv
import Mathlib.Analysis.Calculus.Deriv.MeanValue
import Verif.Props.DP5Decay
/-!
# C87: the tolerance of `DormandPrince5` controls the global error on decaying components
-/

namespace Cyphus
open X
set_option autoImplicit false
set_option linter.unusedSectionVars false
noncomputable section
variable {n : ℕ} {P : Type} {E : DP5.Env n} {b : Builder X n P} {t0 : ℝ} {u0 : Fin n → ℝ} {s0 : DP5.St X n P}

/-- The Taylor polynomials of `exp (-x)`. -/
def DP5.expT (k : ℕ) (x : ℝ) : ℝ := ∑ i ∈ Finset.range (k + 1), (-x) ^ i / i.factorial

theorem DP5.expT_deriv (k : ℕ) (x : ℝ) : HasDerivAt (DP5.expT (k + 1)) (-DP5.expT k x) x := by
  induction k with
  | zero =>
    have : DP5.expT 1 = fun x => 1 - x := by
      funext x
      simp [DP5.expT, Finset.sum_range_succ]
      ring
    rw [this]
    simpa [DP5.expT] using (hasDerivAt_id x).const_sub 1
  | succ k ih =>
    have h1 : DP5.expT (k + 2) = fun x => DP5.expT (k + 1) x + (-x) ^ (k + 2) / (k + 2).factorial := by
      funext x
      rw [DP5.expT, Finset.sum_range_succ]
      rfl
    have h2 : HasDerivAt (fun x : ℝ => (-x) ^ (k + 2) / (k + 2).factorial) (-((-x) ^ (k + 1) / (k + 1).factorial)) x := by
      have h3 := ((hasDerivAt_id x).neg.pow (k + 2)).div_const ((k + 2).factorial : ℝ)
      refine h3.congr_deriv ?_
      rw [Nat.factorial_succ (k + 1)]
      push_cast
      have : ((k + 1).factorial : ℝ) ≠ 0 := by positivity
      field_simp
      simp
      left
      ring
    rw [h1]
    refine (ih.add h2).congr_deriv ?_
    rw [DP5.expT, DP5.expT, Finset.sum_range_succ _ (k + 1)]
    ring

/-- The Taylor polynomials lie alternately above and below. -/
theorem DP5.expT_sign (k : ℕ) {x : ℝ} (hx : 0 ≤ x) : 0 ≤ (-1) ^ k * (DP5.expT k x - Real.exp (-x)) := by
  induction k generalizing x with
  | zero =>
    have : Real.exp (-x) ≤ 1 := Real.exp_le_one_iff.2 (by linarith)
    simp [DP5.expT]
    exact hx
  | succ k ih =>
    have hd : ∀ y, HasDerivAt (fun y => (-1) ^ (k + 1) * (DP5.expT (k + 1) y - Real.exp (-y)))
        ((-1) ^ k * (DP5.expT k y - Real.exp (-y))) y := fun y => by
      have h1 := (((DP5.expT_deriv k y).sub (hasDerivAt_id y).neg.exp).const_mul ((-1) ^ (k + 1)))
      refine h1.congr_deriv ?_
      simp
      ring
    have hm : MonotoneOn (fun y => (-1) ^ (k + 1) * (DP5.expT (k + 1) y - Real.exp (-y))) (Set.Ici 0) := by
      refine monotoneOn_of_deriv_nonneg (convex_Ici 0) (fun y _ => (hd y).continuousAt.continuousWithinAt)
        (fun y _ => (hd y).differentiableAt.differentiableWithinAt) fun y hy => ?_
      rw [(hd y).deriv]
      rw [interior_Ici] at hy
      exact ih (le_of_lt hy)
    have h0 := hm (Set.mem_Ici.2 le_rfl) (Set.mem_Ici.2 hx) hx
    have e0 : DP5.expT (k + 1) 0 = 1 := by
      simp [DP5.expT, Finset.sum_range_succ']
    simpa [e0] using h0

/-- The error of one step is at most 1/0.65 of its estimate, for every step size. -/
theorem DP5.local_error {x : ℝ} (hx : 0 ≤ x) : 0.65 * |DP5.R x - Real.exp (-x)| ≤ DP5.Q x := by
  have h5 := DP5.expT_sign 5 hx
  have h6 := DP5.expT_sign 6 hx
  have h7 := DP5.expT_sign 7 hx
  simp only [DP5.expT, Finset.sum_range_succ, Finset.sum_range_zero, Nat.factorial] at h5 h6 h7
  norm_num at h5 h6 h7
  ring_nf at h5 h6 h7
  have p5 : 0 ≤ x ^ 5 := by positivity
  have p6 : 0 ≤ x ^ 6 := by positivity
  have hpos : 0 ≤ DP5.R x - Real.exp (-x) := by
    unfold DP5.R
    nlinarith
  rw [abs_of_nonneg hpos]
  by_cases h : x ≤ 3.3
  · have h8 : 0 ≤ x ^ 5 * (0.0008 + 0.0001 * x - 0.0001 * x ^ 2) := by
      refine mul_nonneg p5 ?_
      nlinarith
    unfold DP5.R DP5.Q
    nlinarith
  · rcases DP5.amplified hx with h1 | h1
    · have h9 : 0.65 * DP5.R x ≤ DP5.Q x := by
        have h2 := (abs_le.1 h1).2
        have h3 : (3.3 : ℝ) ^ 5 ≤ x ^ 5 := pow_le_pow_left₀ (by norm_num) (by linarith) 5
        have h4 : (3.3 : ℝ) ^ 6 ≤ x ^ 6 := pow_le_pow_left₀ (by norm_num) (by linarith) 6
        have h5 : (3.3 : ℝ) ^ 7 ≤ x ^ 7 := pow_le_pow_left₀ (by norm_num) (by linarith) 7
        unfold DP5.Q
        norm_num at h3 h4 h5
        linarith
      have := Real.exp_pos (-x)
      linarith
    · have := Real.exp_pos (-x)
      have := le_abs_self (DP5.R x)
      linarith

/-- It is the solution. -/
theorem Spec.relax_solves (lam g t0 x t : ℝ) : Spec.relax lam g t0 x t0 = x ∧
    HasDerivAt (Spec.relax lam g t0 x) (-lam * (Spec.relax lam g t0 x t - g)) t := by
  constructor
  · simp [Spec.relax]
  · have h1 := ((((((hasDerivAt_id t).sub_const t0).const_mul lam).neg).exp).mul_const (x - g)).const_add g
    refine h1.congr_deriv ?_
    simp [Spec.relax]
    ring

/-- **C87** Let every component relax towards `g i` with a rate `lam i ≥ 0`, however large. In a forward run the `j`-th recorded
state differs from the exact solution by at most `j` times `√n (abstol + reltol M_i) / 0.65`; `M_i` bounds the component (C86). -/
theorem C87_tolerance_dp5 (H : DP5.Problem E b t0 u0) (hS : E.Sane) (ht : t0 ≤ E.tf) (hb : b.build DP5.alg = .ok s0) {k : ℕ}
    {s : DP5.St X n P} (hs : Steps DP5.alg none k s0 s) (lam g : Fin n → ℝ) (hl : ∀ i, 0 ≤ lam i)
    (hf : ∀ t u i, E.f t u i = -lam i * (u i - g i)) (hr : √n * E.r < 0.65) :
    ∃ l, Recorded s.sol l ∧ l.head? = some (t0, u0) ∧ l.length = k + 1 ∧ ∀ j (hj : j < l.length), ∀ i,
      |(l[j]).2 i - Spec.relax (lam i) (g i) t0 (u0 i) (l[j]).1| ≤
        j * (√n * (E.a + E.r * (|g i| + Spec.decayBound n E.a E.r (g i) (u0 i))) / 0.65) := by
  obtain ⟨l, h1, h2, h3, h4⟩ := C16_recorded_errors_dp5 H hb hs
  obtain ⟨l', -, -, -, -, -, -, g1, -, -, -, g2⟩ := DP5.forward_chain H hS ht hb hs
  obtain rfl := h1.unique g1
  obtain ⟨l', q1, -, -, q4⟩ := C86_decay_dp5 H hS ht hb hs lam g hl hf hr
  obtain rfl := h1.unique q1
  refine ⟨l, h1, h2, h3, fun j => ?_⟩
  rw [List.isChain_iff_getElem] at h4 g2
  induction j with
  | zero =>
    intro hj i
    have e : l[0] = (t0, u0) := by
      rw [List.head?_eq_getElem?, List.getElem?_eq_getElem hj] at h2
      exact Option.some.inj h2
    rw [e]
    simp [(Spec.relax_solves (lam i) (g i) t0 (u0 i) t0).1]
  | succ j ih =>
    intro hj i
    have hj' : j < l.length := by omega
    obtain ⟨h, e, c1, c2, c3, c4⟩ := h4 j hj
    have hh : 0 ≤ h := by linarith [(g2 j hj).1]
    obtain ⟨e1, e2⟩ := DP5.decay_step hf c2 c3 i
    have hx : 0 ≤ lam i * h := mul_nonneg (hl i) hh
    have b1 := DP5.err_component H.dim H.tol.abs_pos H.tol.rel_nonneg c4 i
    have b2 := q4 _ (List.getElem_mem hj') i
    have b3 := q4 _ (List.getElem_mem hj) i
    have b4 := ih hj' i
    set D := Spec.decayBound n E.a E.r (g i) (u0 i)
    set p := l[j]
    set q := l[j + 1]
    have hM : max |p.2 i| |q.2 i| ≤ |g i| + D := by
      refine max_le ?_ ?_
      · have := abs_add_le (p.2 i - g i) (g i)
        rw [sub_add_cancel] at this
        linarith
      · have := abs_add_le (q.2 i - g i) (g i)
        rw [sub_add_cancel] at this
        linarith
    have hE : |e i| ≤ √n * (E.a + E.r * (|g i| + D)) :=
      b1.trans (mul_le_mul_of_nonneg_left (by linarith [mul_le_mul_of_nonneg_left hM H.tol.rel_nonneg]) (Real.sqrt_nonneg _))
    have hL : 0.65 * (|DP5.R (lam i * h) - Real.exp (-(lam i * h))| * |p.2 i - g i|) ≤ |e i| := by
      rw [e2, abs_mul, ← mul_assoc]
      exact mul_le_mul_of_nonneg_right ((DP5.local_error hx).trans (le_abs_self _)) (abs_nonneg _)
    have hq : q.2 i - Spec.relax (lam i) (g i) t0 (u0 i) q.1 =
        (DP5.R (lam i * h) - Real.exp (-(lam i * h))) * (p.2 i - g i)
          + Real.exp (-(lam i * h)) * (p.2 i - Spec.relax (lam i) (g i) t0 (u0 i) p.1) := by
      have hexp : Real.exp (-(lam i * (q.1 - t0))) = Real.exp (-(lam i * h)) * Real.exp (-(lam i * (p.1 - t0))) := by
        rw [← Real.exp_add, c1]
        congr 1
        ring
      unfold Spec.relax
      rw [hexp]
      linear_combination e1
    have hexp1 : Real.exp (-(lam i * h)) ≤ 1 := Real.exp_le_one_iff.2 (by linarith)
    rw [hq]
    refine (abs_add_le _ _).trans ?_
    rw [abs_mul, abs_mul, abs_of_pos (Real.exp_pos _)]
    have h9 : Real.exp (-(lam i * h)) * |p.2 i - Spec.relax (lam i) (g i) t0 (u0 i) p.1| ≤
        |p.2 i - Spec.relax (lam i) (g i) t0 (u0 i) p.1| := mul_le_of_le_one_left (abs_nonneg _) hexp1
    push_cast
    have h10 : |DP5.R (lam i * h) - Real.exp (-(lam i * h))| * |p.2 i - g i| ≤ √n * (E.a + E.r * (|g i| + D)) / 0.65 := by
      rw [le_div_iff₀ (by norm_num)]
      linarith
    linarith

/-- With the default tolerances: the `j`-th recorded value of `u' = -lam u`, `u 0 = 1`, on `[0, 1]` differs from `exp (-lam t)` by
at most `0.0016 j`, for any `lam ≥ 0`. -/
theorem C87_default_tolerances {lam : ℝ} (hl : 0 ≤ lam) {s0 s : DP5.St X 1 Unit} {k : ℕ}
    (hb : (Builder.default DP5.alg (fun _ _ u _ => fun i => fin (-lam) * u i) (fv fun _ => 1) (fin 0, fin 1) ()).build DP5.alg = .ok s0)
    (hs : Steps DP5.alg none k s0 s) : ∃ l, Recorded s.sol l ∧ l.length = k + 1 ∧ ∀ j (hj : j < l.length),
      |(l[j]).2 0 - Real.exp (-(lam * (l[j]).1))| ≤ j * 0.0016 := by
  have H := DP5.default_problem (P := Unit) one_ne_zero (dudt := fun _ _ u _ => fun i => fin (-lam) * u i) (p := ())
    (f := fun _ u i => -lam * u i) (fun _ _ _ => by funext i; simp) 0 1 (fun _ => 1)
  obtain ⟨l, h1, -, h2, h3⟩ := C87_tolerance_dp5 H (DP5.default_sane _ _ _) (by norm_num [DP5.defaultEnv]) hb hs (fun _ => lam)
    (fun _ => 0) (fun _ => hl) (fun t u i => by simp [DP5.defaultEnv]) (by norm_num [DP5.defaultEnv])
  refine ⟨l, h1, h2, fun j hj => ?_⟩
  have := h3 j hj 0
  norm_num [Spec.decayBound, Spec.relax, DP5.defaultEnv] at this
  refine this.trans (mul_le_mul_of_nonneg_left ?_ (Nat.cast_nonneg _))
  norm_num

/-- The hypotheses can be met: `integrate` returns for `u' = -10 ^ 9 u`, with at least one accepted step. -/
example : ∃ (s0 s : DP5.St X 1 Unit) (k : ℕ),
    (Builder.default DP5.alg (fun _ _ u _ => fun i => fin (-10 ^ 9) * u i) (fv fun _ => 1) (fin 0, fin 1) ()).build DP5.alg = .ok s0 ∧
    IntegrateReturns DP5.alg none s0 s ∧ Steps DP5.alg none (k + 1) s0 s := by
  obtain ⟨s0, s, l, hb, hs, -⟩ := DP5.decay_returns
  obtain ⟨k, s1, h1, h2⟩ := (integrate_iff DP5.fuelMono).1 hs
  exact ⟨s0, s, k, hb, hs, .succ h1.steps h2⟩

end
end Cyphus
