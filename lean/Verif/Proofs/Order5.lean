import Verif.Proofs.Taylor
/-!
# The local error of the Dormand-Prince step is of order six
-/

namespace Cyphus.Conv
open Asymptotics Filter Topology Set
set_option autoImplicit false
set_option linter.unusedSectionVars false

variable {E : Type*} [NormedAddCommGroup E] [NormedSpace ℝ E]

/-- What is used of the right-hand side `f` and the solution `y` on `[a, b]`: `Y k` are the derivatives of `y`, `A 0` is the
derivative of `f` by the state along the solution, `A 1` its derivative. -/
structure Setup (f : ℝ → E → E) (y : ℝ → E) (a b : ℝ) where
  Y : ℕ → ℝ → E
  zero : Y 0 = y
  dY : ∀ k < 6, ∀ t ∈ Icc a b, HasDerivWithinAt (Y k) (Y (k + 1) t) (Icc a b) t
  cY : ∀ k ≤ 6, ContinuousOn (Y k) (Icc a b)
  ode : ∀ t ∈ Icc a b, Y 1 t = f t (y t)
  A : ℕ → ℝ → E →L[ℝ] E
  dA : ∀ k < 2, ∀ t ∈ Icc a b, HasDerivWithinAt (A k) (A (k + 1) t) (Icc a b) t
  cA : ∀ k ≤ 2, ContinuousOn (A k) (Icc a b)
  K : ℝ
  ε : ℝ
  ε_pos : 0 < ε
  lin : ∀ t ∈ Icc a b, ∀ e, ‖e‖ ≤ ε → ‖f t (y t + e) - f t (y t) - A 0 t e‖ ≤ K * ‖e‖ ^ 2

variable {f : ℝ → E → E} {y : ℝ → E} {a b : ℝ}

/-- How an error `h ^ m P + h ^ (m + 1) Q` of the argument changes the value of `f`. -/
theorem Setup.rhs (S : Setup f y a b) {m : ℕ} (hm : 2 ≤ m) {e P Q : ℝ × ℝ → E} (hP : Ord a b 0 P) (hQ : Ord a b 0 Q)
    (he : Ord a b (m + 2) fun p => e p - (p.2 ^ m • P p + p.2 ^ (m + 1) • Q p)) {c : ℝ} (hc0 : 0 ≤ c) (hc1 : c ≤ 1) :
    Ord a b (m + 2) fun p => f (p.1 + c * p.2) (y (p.1 + c * p.2) + e p) - S.Y 1 (p.1 + c * p.2) -
      (p.2 ^ m • S.A 0 p.1 (P p) + p.2 ^ (m + 1) • (c • S.A 1 p.1 (P p) + S.A 0 p.1 (Q p))) := by
  have hmem : ∀ᶠ p in small a b, p.1 + c * p.2 ∈ Icc a b := by
    filter_upwards [mem_small] with p hp
    have h1 := mul_nonneg hc0 hp.2.1
    have h2 := mul_le_of_le_one_left hp.2.1 hc1
    exact ⟨by linarith, by linarith⟩
  have heO : Ord a b m e := by
    have h1 : Ord a b m fun p : ℝ × ℝ => p.2 ^ m • P p := hP.hpow m
    have h2 : Ord a b m fun p : ℝ × ℝ => p.2 ^ (m + 1) • Q p := (hQ.hpow (m + 1)).mono (by omega)
    refine (((he.mono (m := m) (by omega)).add (h1.add h2))).congr (Eventually.of_forall fun p => ?_)
    abel
  have hA0 : Ord a b 0 fun p => S.A 0 (p.1 + c * p.2) := by
    simpa using taylor (g := S.A) (m := 0) (by omega) (S.cA 0 (by omega)) hc0 hc1
  have hA1 : Ord a b 1 fun p => S.A 0 (p.1 + c * p.2) - S.A 0 p.1 := by
    simpa using taylor (g := S.A) (m := 1) (fun k hk => S.dA k (by omega)) (S.cA 1 (by omega)) hc0 hc1
  have hA2 : Ord a b 2 fun p => S.A 0 (p.1 + c * p.2) - (S.A 0 p.1 + (c * p.2) • S.A 1 p.1) := by
    simpa [Finset.sum_range_succ] using taylor (g := S.A) (m := 2) S.dA (S.cA 2 le_rfl) hc0 hc1
  have r1 : Ord a b (m + 2) fun p => f (p.1 + c * p.2) (y (p.1 + c * p.2) + e p) - f (p.1 + c * p.2) (y (p.1 + c * p.2))
      - S.A 0 (p.1 + c * p.2) (e p) := by
    have h2 : Ord a b (m + m) fun p => ‖e p‖ ^ 2 := by
      have := IsBigO.pow (IsBigO.norm_left heO) 2
      simpa [Ord, ← pow_mul, mul_two] using this
    refine IsBigO.trans (IsBigO.of_bound S.K ?_) (h2.mono (by omega))
    have ht := (heO.tendsto (by omega)).eventually (Metric.closedBall_mem_nhds 0 S.ε_pos)
    filter_upwards [hmem, ht] with p h3 h4
    rw [norm_pow, norm_norm]
    exact S.lin _ h3 _ (by simpa using h4)
  have r2 : Ord a b (m + 2) fun p => S.A 0 (p.1 + c * p.2) (e p - (p.2 ^ m • P p + p.2 ^ (m + 1) • Q p)) := by
    simpa using hA0.clm he
  have r3 : Ord a b (m + 2) fun p => (S.A 0 (p.1 + c * p.2) - (S.A 0 p.1 + (c * p.2) • S.A 1 p.1)) (p.2 ^ m • P p) := by
    have := hA2.clm (hP.hpow m)
    rwa [show 2 + (m + 0) = m + 2 by omega] at this
  have r4 : Ord a b (m + 2) fun p => (S.A 0 (p.1 + c * p.2) - S.A 0 p.1) (p.2 ^ (m + 1) • Q p) := by
    have := hA1.clm (hQ.hpow (m + 1))
    rwa [show 1 + (m + 1 + 0) = m + 2 by omega] at this
  refine ((r1.add r2).add (r3.add r4)).congr ?_
  filter_upwards [hmem] with p hp
  rw [S.ode _ hp]
  simp only [map_sub, map_add, map_smul, ContinuousLinearMap.sub_apply, ContinuousLinearMap.add_apply,
    ContinuousLinearMap.smul_apply, pow_succ]
  module

/-! The stages of the step, for a right-hand side on any normed space. -/

section
variable (f) (t : ℝ) (u : E) (h : ℝ)
noncomputable def k1 : E := f t u
noncomputable def s2 : E := u + h • ((1/5 : ℝ) • k1 f t u)
noncomputable def k2 : E := f (t + 1/5 * h) (s2 f t u h)
noncomputable def s3 : E := u + h • ((3/40 : ℝ) • k1 f t u + (9/40 : ℝ) • k2 f t u h)
noncomputable def k3 : E := f (t + 3/10 * h) (s3 f t u h)
noncomputable def s4 : E := u + h • ((44/45 : ℝ) • k1 f t u + (-56/15 : ℝ) • k2 f t u h + (32/9 : ℝ) • k3 f t u h)
noncomputable def k4 : E := f (t + 4/5 * h) (s4 f t u h)
noncomputable def s5 : E := u + h • ((19372/6561 : ℝ) • k1 f t u + (-25360/2187 : ℝ) • k2 f t u h
  + (64448/6561 : ℝ) • k3 f t u h + (-212/729 : ℝ) • k4 f t u h)
noncomputable def k5 : E := f (t + 8/9 * h) (s5 f t u h)
noncomputable def s6 : E := u + h • ((9017/3168 : ℝ) • k1 f t u + (-355/33 : ℝ) • k2 f t u h
  + (46732/5247 : ℝ) • k3 f t u h + (49/176 : ℝ) • k4 f t u h + (-5103/18656 : ℝ) • k5 f t u h)
noncomputable def k6 : E := f (t + 1 * h) (s6 f t u h)
/-- The result of the step. -/
noncomputable def step : E := u + h • ((35/384 : ℝ) • k1 f t u + (500/1113 : ℝ) • k3 f t u h + (125/192 : ℝ) • k4 f t u h
  + (-2187/6784 : ℝ) • k5 f t u h + (11/84 : ℝ) • k6 f t u h)
end

section
variable (f) (t : ℝ) (u : E) (h : ℝ)
noncomputable def k7 : E := f (t + 1 * h) (step f t u h)
/-- The combination of the stages which enters the continuous extension. -/
noncomputable def dcomb : E := (-12715105075 / 11282082432 : ℝ) • k1 f t u + (87487479700 / 32700410799 : ℝ) • k3 f t u h
  + (-10690763975 / 1880347072 : ℝ) • k4 f t u h + (701980252875 / 199316789632 : ℝ) • k5 f t u h
  + (-1453857185 / 822651844 : ℝ) • k6 f t u h + (69997945 / 29380423 : ℝ) • k7 f t u h
end

/-- The error of the result of a step and of its last stage, and the expansion of the combination of stages. -/
theorem Setup.local_errors (S : Setup f y a b) : (Ord a b 6 fun p => step f p.1 (y p.1) p.2 - y (p.1 + p.2)) ∧
    (Ord a b 6 fun p => k7 f p.1 (y p.1) p.2 - S.Y 1 (p.1 + 1 * p.2)) ∧
    Ord a b 4 fun p => dcomb f p.1 (y p.1) p.2 - (p.2 ^ 3 / 24) • S.Y 4 p.1 := by
  -- Taylor expansions of the solution and of its derivative
  have T : ∀ m ≤ 6, ∀ c : ℝ, 0 ≤ c → c ≤ 1 → Ord a b m fun p => S.Y 0 (p.1 + c * p.2) -
      ∑ j ∈ Finset.range m, ((c * p.2) ^ j / (j.factorial : ℝ)) • S.Y j p.1 :=
    fun m hm c => taylor (fun k hk => S.dY k (by omega)) (S.cY m hm)
  have T' : ∀ m ≤ 5, ∀ c : ℝ, 0 ≤ c → c ≤ 1 → Ord a b m fun p => S.Y 1 (p.1 + c * p.2) -
      ∑ j ∈ Finset.range m, ((c * p.2) ^ j / (j.factorial : ℝ)) • S.Y (j + 1) p.1 :=
    fun m hm c => taylor (g := fun j => S.Y (j + 1)) (fun k hk => S.dY (k + 1) (by omega)) (S.cY (m + 1) (by omega))
  have B : ∀ k ≤ 6, Ord a b 0 fun p : ℝ × ℝ => S.Y k p.1 := fun k hk => Ord.cont (S.cY k hk)
  have A0 : ∀ {P : ℝ × ℝ → E}, Ord a b 0 P → Ord a b 0 fun p => S.A 0 p.1 (P p) := fun h => by
    simpa using (Ord.cont (S.cA 0 (by omega))).clm h
  have A1 : ∀ {P : ℝ × ℝ → E}, Ord a b 0 P → Ord a b 0 fun p => S.A 1 p.1 (P p) := fun h => by
    simpa using (Ord.cont (S.cA 1 (by omega))).clm h
  have hk1 : ∀ᶠ p in small a b, k1 f p.1 (y p.1) = S.Y 1 p.1 := by
    filter_upwards [mem_small] with p hp
    exact (S.ode _ ⟨hp.1, by linarith⟩).symm
  -- second stage
  let P2 : ℝ × ℝ → E := fun p => (-1/50 : ℝ) • S.Y 2 p.1
  let Q2 : ℝ × ℝ → E := fun p => (-1/750 : ℝ) • S.Y 3 p.1
  have p2 : Ord a b 0 P2 := (B 2 (by omega)).smul _
  have q2 : Ord a b 0 Q2 := (B 3 (by omega)).smul _
  have e2 : Ord a b 4 fun p => (s2 f p.1 (y p.1) p.2 - y (p.1 + 1/5 * p.2)) - (p.2 ^ 2 • P2 p + p.2 ^ 3 • Q2 p) := by
    refine (T 4 (by omega) (1/5) (by norm_num) (by norm_num)).neg.congr ?_
    filter_upwards [hk1] with p hp
    simp only [s2, hp, P2, Q2, Finset.sum_range_succ, Finset.range_zero, Finset.sum_empty, Nat.factorial, S.zero]
    push_cast
    module
  have d2 := S.rhs (m := 2) le_rfl p2 q2 e2 (c := 1/5) (by norm_num) (by norm_num)
  simp only [add_sub_cancel] at d2
  change Ord a b 4 fun p => k2 f p.1 (y p.1) p.2 - S.Y 1 (p.1 + 1/5 * p.2) - _ at d2
  -- third stage
  let P3 : ℝ × ℝ → E := fun p => (9/40 : ℝ) • S.A 0 p.1 (P2 p)
  let Q3 : ℝ × ℝ → E := fun p => (-3/80000 : ℝ) • S.Y 4 p.1 + (9/40 : ℝ) • ((1/5 : ℝ) • S.A 1 p.1 (P2 p) + S.A 0 p.1 (Q2 p))
  have p3 : Ord a b 0 P3 := (A0 p2).smul _
  have q3 : Ord a b 0 Q3 := ((B 4 (by omega)).smul _).add ((((A1 p2).smul _).add (A0 q2)).smul _)
  have e3 : Ord a b 5 fun p => (s3 f p.1 (y p.1) p.2 - y (p.1 + 3/10 * p.2)) - (p.2 ^ 3 • P3 p + p.2 ^ 4 • Q3 p) := by
    have r0 := (T 5 (by omega) (3/10) (by norm_num) (by norm_num)).neg
    have r1 := ((T' 4 (by omega) (1/5) (by norm_num) (by norm_num)).smul (9/40)).h1
    have r2 := (d2.smul (9/40)).h1
    refine ((r0.add r1).add r2).congr ?_
    filter_upwards [hk1] with p hp
    simp only [s3, hp, P3, Q3, Finset.sum_range_succ, Finset.range_zero, Finset.sum_empty, Nat.factorial, S.zero]
    push_cast
    module
  have d3 := S.rhs (m := 3) (by omega) p3 q3 e3 (c := 3/10) (by norm_num) (by norm_num)
  simp only [add_sub_cancel] at d3
  change Ord a b 5 fun p => k3 f p.1 (y p.1) p.2 - S.Y 1 (p.1 + 3/10 * p.2) - _ at d3
  have w3 : Ord a b 4 fun p => k3 f p.1 (y p.1) p.2 - S.Y 1 (p.1 + 3/10 * p.2) - p.2 ^ 3 • S.A 0 p.1 (P3 p) := by
    have r : Ord a b 4 fun p : ℝ × ℝ => p.2 ^ 4 • ((3/10 : ℝ) • S.A 1 p.1 (P3 p) + S.A 0 p.1 (Q3 p)) :=
      (((A1 p3).smul _).add (A0 q3)).hpow 4
    refine ((d3.mono (m := 4) (by omega)).add r).congr (Eventually.of_forall fun p => ?_)
    module
  -- stage 4
  let P4 : ℝ × ℝ → E := fun p => (-56/15 : ℝ) • S.A 0 p.1 (P2 p)
  let Q4 : ℝ × ℝ → E := fun p => (-34/5625 : ℝ) • S.Y 4 p.1
    + (-56/15 : ℝ) • ((1/5 : ℝ) • S.A 1 p.1 (P2 p) + S.A 0 p.1 (Q2 p)) + (32/9 : ℝ) • S.A 0 p.1 (P3 p)
  have p4 : Ord a b 0 P4 := (A0 p2).smul _
  have q4 : Ord a b 0 Q4 := (((B 4 (by omega)).smul _).add ((((A1 p2).smul _).add (A0 q2)).smul _)).add ((A0 p3).smul _)
  have e4 : Ord a b 5 fun p => (s4 f p.1 (y p.1) p.2 - y (p.1 + 4/5 * p.2)) - (p.2 ^ 3 • P4 p + p.2 ^ 4 • Q4 p) := by
    have r0 := (T 5 (by omega) (4/5) (by norm_num) (by norm_num)).neg
    have t2 := ((T' 4 (by omega) (1/5) (by norm_num) (by norm_num)).smul (-56/15)).h1
    have z2 := (d2.smul (-56/15)).h1
    have t3 := ((T' 4 (by omega) (3/10) (by norm_num) (by norm_num)).smul (32/9)).h1
    have z3 := (w3.smul (32/9)).h1
    refine ((((r0.add t2).add z2).add t3).add z3).congr ?_
    filter_upwards [hk1] with p hp
    simp only [s4, hp, P4, Q4, Finset.sum_range_succ, Finset.range_zero, Finset.sum_empty, Nat.factorial, S.zero]
    push_cast
    module
  have d4 := S.rhs (m := 3) (by omega) p4 q4 e4 (c := 4/5) (by norm_num) (by norm_num)
  simp only [add_sub_cancel] at d4
  change Ord a b 5 fun p => k4 f p.1 (y p.1) p.2 - S.Y 1 (p.1 + 4/5 * p.2) - _ at d4
  have w4 : Ord a b 4 fun p => k4 f p.1 (y p.1) p.2 - S.Y 1 (p.1 + 4/5 * p.2) - p.2 ^ 3 • S.A 0 p.1 (P4 p) := by
    have r : Ord a b 4 fun p : ℝ × ℝ => p.2 ^ 4 • ((4/5 : ℝ) • S.A 1 p.1 (P4 p) + S.A 0 p.1 (Q4 p)) :=
      (((A1 p4).smul _).add (A0 q4)).hpow 4
    refine ((d4.mono (m := 4) (by omega)).add r).congr (Eventually.of_forall fun p => ?_)
    module
  -- stage 5
  let P5 : ℝ × ℝ → E := fun p => (-25360/2187 : ℝ) • S.A 0 p.1 (P2 p)
  let Q5 : ℝ × ℝ → E := fun p => (-10868/492075 : ℝ) • S.Y 4 p.1
    + (-25360/2187 : ℝ) • ((1/5 : ℝ) • S.A 1 p.1 (P2 p) + S.A 0 p.1 (Q2 p)) + (64448/6561 : ℝ) • S.A 0 p.1 (P3 p) + (-212/729 : ℝ) • S.A 0 p.1 (P4 p)
  have p5 : Ord a b 0 P5 := (A0 p2).smul _
  have q5 : Ord a b 0 Q5 := ((((B 4 (by omega)).smul _).add ((((A1 p2).smul _).add (A0 q2)).smul _)).add ((A0 p3).smul _)).add ((A0 p4).smul _)
  have e5 : Ord a b 5 fun p => (s5 f p.1 (y p.1) p.2 - y (p.1 + 8/9 * p.2)) - (p.2 ^ 3 • P5 p + p.2 ^ 4 • Q5 p) := by
    have r0 := (T 5 (by omega) (8/9) (by norm_num) (by norm_num)).neg
    have t2 := ((T' 4 (by omega) (1/5) (by norm_num) (by norm_num)).smul (-25360/2187)).h1
    have z2 := (d2.smul (-25360/2187)).h1
    have t3 := ((T' 4 (by omega) (3/10) (by norm_num) (by norm_num)).smul (64448/6561)).h1
    have z3 := (w3.smul (64448/6561)).h1
    have t4 := ((T' 4 (by omega) (4/5) (by norm_num) (by norm_num)).smul (-212/729)).h1
    have z4 := (w4.smul (-212/729)).h1
    refine ((((((r0.add t2).add z2).add t3).add z3).add t4).add z4).congr ?_
    filter_upwards [hk1] with p hp
    simp only [s5, hp, P5, Q5, Finset.sum_range_succ, Finset.range_zero, Finset.sum_empty, Nat.factorial, S.zero]
    push_cast
    module
  have d5 := S.rhs (m := 3) (by omega) p5 q5 e5 (c := 8/9) (by norm_num) (by norm_num)
  simp only [add_sub_cancel] at d5
  change Ord a b 5 fun p => k5 f p.1 (y p.1) p.2 - S.Y 1 (p.1 + 8/9 * p.2) - _ at d5
  have w5 : Ord a b 4 fun p => k5 f p.1 (y p.1) p.2 - S.Y 1 (p.1 + 8/9 * p.2) - p.2 ^ 3 • S.A 0 p.1 (P5 p) := by
    have r : Ord a b 4 fun p : ℝ × ℝ => p.2 ^ 4 • ((8/9 : ℝ) • S.A 1 p.1 (P5 p) + S.A 0 p.1 (Q5 p)) :=
      (((A1 p5).smul _).add (A0 q5)).hpow 4
    refine ((d5.mono (m := 4) (by omega)).add r).congr (Eventually.of_forall fun p => ?_)
    module
  -- stage 6
  let P6 : ℝ × ℝ → E := fun p => (-355/33 : ℝ) • S.A 0 p.1 (P2 p)
  let Q6 : ℝ × ℝ → E := fun p => (-479/19800 : ℝ) • S.Y 4 p.1
    + (-355/33 : ℝ) • ((1/5 : ℝ) • S.A 1 p.1 (P2 p) + S.A 0 p.1 (Q2 p)) + (46732/5247 : ℝ) • S.A 0 p.1 (P3 p) + (49/176 : ℝ) • S.A 0 p.1 (P4 p) + (-5103/18656 : ℝ) • S.A 0 p.1 (P5 p)
  have p6 : Ord a b 0 P6 := (A0 p2).smul _
  have q6 : Ord a b 0 Q6 := (((((B 4 (by omega)).smul _).add ((((A1 p2).smul _).add (A0 q2)).smul _)).add ((A0 p3).smul _)).add ((A0 p4).smul _)).add ((A0 p5).smul _)
  have e6 : Ord a b 5 fun p => (s6 f p.1 (y p.1) p.2 - y (p.1 + 1 * p.2)) - (p.2 ^ 3 • P6 p + p.2 ^ 4 • Q6 p) := by
    have r0 := (T 5 (by omega) (1) (by norm_num) (by norm_num)).neg
    have t2 := ((T' 4 (by omega) (1/5) (by norm_num) (by norm_num)).smul (-355/33)).h1
    have z2 := (d2.smul (-355/33)).h1
    have t3 := ((T' 4 (by omega) (3/10) (by norm_num) (by norm_num)).smul (46732/5247)).h1
    have z3 := (w3.smul (46732/5247)).h1
    have t4 := ((T' 4 (by omega) (4/5) (by norm_num) (by norm_num)).smul (49/176)).h1
    have z4 := (w4.smul (49/176)).h1
    have t5 := ((T' 4 (by omega) (8/9) (by norm_num) (by norm_num)).smul (-5103/18656)).h1
    have z5 := (w5.smul (-5103/18656)).h1
    refine ((((((((r0.add t2).add z2).add t3).add z3).add t4).add z4).add t5).add z5).congr ?_
    filter_upwards [hk1] with p hp
    simp only [s6, hp, P6, Q6, Finset.sum_range_succ, Finset.range_zero, Finset.sum_empty, Nat.factorial, S.zero]
    push_cast
    module
  have d6 := S.rhs (m := 3) (by omega) p6 q6 e6 (c := 1) (by norm_num) (by norm_num)
  simp only [add_sub_cancel] at d6
  change Ord a b 5 fun p => k6 f p.1 (y p.1) p.2 - S.Y 1 (p.1 + 1 * p.2) - _ at d6
  have w6 : Ord a b 4 fun p => k6 f p.1 (y p.1) p.2 - S.Y 1 (p.1 + 1 * p.2) - p.2 ^ 3 • S.A 0 p.1 (P6 p) := by
    have r : Ord a b 4 fun p : ℝ × ℝ => p.2 ^ 4 • ((1 : ℝ) • S.A 1 p.1 (P6 p) + S.A 0 p.1 (Q6 p)) :=
      (((A1 p6).smul _).add (A0 q6)).hpow 4
    refine ((d6.mono (m := 4) (by omega)).add r).congr (Eventually.of_forall fun p => ?_)
    module
  -- the result
  have main : Ord a b 6 fun p => step f p.1 (y p.1) p.2 - y (p.1 + p.2) := by
    have r0 := (T 6 (by omega) 1 (by norm_num) (by norm_num)).neg
    have t3 := ((T' 5 (by omega) (3/10) (by norm_num) (by norm_num)).smul (500/1113)).h1
    have z3 := (d3.smul (500/1113)).h1
    have t4 := ((T' 5 (by omega) (4/5) (by norm_num) (by norm_num)).smul (125/192)).h1
    have z4 := (d4.smul (125/192)).h1
    have t5 := ((T' 5 (by omega) (8/9) (by norm_num) (by norm_num)).smul (-2187/6784)).h1
    have z5 := (d5.smul (-2187/6784)).h1
    have t6 := ((T' 5 (by omega) (1) (by norm_num) (by norm_num)).smul (11/84)).h1
    have z6 := (d6.smul (11/84)).h1
    refine ((((((((r0.add t3).add z3).add t4).add z4).add t5).add z5).add t6).add z6).congr ?_
    filter_upwards [hk1] with p hp
    simp only [step, hp, P3, Q3, P4, Q4, P5, Q5, P6, Q6, map_add, map_smul, one_mul, Finset.sum_range_succ, Finset.range_zero, Finset.sum_empty, Nat.factorial, S.zero]
    push_cast
    module
  have last : Ord a b 6 fun p => k7 f p.1 (y p.1) p.2 - S.Y 1 (p.1 + 1 * p.2) := by
    have z : Ord a b 0 fun _ : ℝ × ℝ => (0 : E) := by
      have := (B 0 (by omega)).smul 0
      simpa using this
    have e7 : Ord a b 6 fun p => (step f p.1 (y p.1) p.2 - y (p.1 + 1 * p.2)) - (p.2 ^ 4 • (0 : E) + p.2 ^ 5 • (0 : E)) := by
      simpa using main
    have d7 := S.rhs (m := 4) (by omega) z z e7 (c := 1) (by norm_num) (by norm_num)
    simp only [add_sub_cancel] at d7
    simpa [k7] using d7
  refine ⟨main, last, ?_⟩
  have t3 := (T' 4 (by omega) (3/10) (by norm_num) (by norm_num)).smul (87487479700 / 32700410799)
  have z3 := w3.smul (87487479700 / 32700410799)
  have t4 := (T' 4 (by omega) (4/5) (by norm_num) (by norm_num)).smul (-10690763975 / 1880347072)
  have z4 := w4.smul (-10690763975 / 1880347072)
  have t5 := (T' 4 (by omega) (8/9) (by norm_num) (by norm_num)).smul (701980252875 / 199316789632)
  have z5 := w5.smul (701980252875 / 199316789632)
  have t6 := (T' 4 (by omega) (1) (by norm_num) (by norm_num)).smul (-1453857185 / 822651844)
  have z6 := w6.smul (-1453857185 / 822651844)
  have t7 := (T' 4 (by omega) (1) (by norm_num) (by norm_num)).smul (69997945 / 29380423)
  have z7 := (last.mono (m := 4) (by omega)).smul (69997945 / 29380423)
  refine (((((((((t3.add z3).add t4).add z4).add t5).add z5).add t6).add z6).add t7).add z7).congr ?_
  filter_upwards [hk1] with p hp
  simp only [dcomb, hp, P3, P4, P5, P6, map_smul, one_mul, Finset.sum_range_succ, Finset.range_zero, Finset.sum_empty, Nat.factorial]
  push_cast
  module

/-- **The local error.** -/
theorem Setup.local_error (S : Setup f y a b) : Ord a b 6 fun p => step f p.1 (y p.1) p.2 - y (p.1 + p.2) :=
  S.local_errors.1

end Cyphus.Conv
