import Verif.Proofs.RadauPass
import Verif.Props.RadauInvariant
import Mathlib.LinearAlgebra.Matrix.SemiringInverse
/-!
# Steps of `Radau5` (C16, C43, C44, C47)

Cases that meet the hypotheses of the theorems are in `Verif/Props/RadauExamples.lean`.
-/

namespace Cyphus
open X
set_option autoImplicit false
set_option linter.unusedSectionVars false

noncomputable section

/-! ### The method -/

theorem sqrt6_bounds : (2.449489742783178098 : ℝ) < √6 ∧ √6 < 2.449489742783178099 := by
  constructor
  · rw [Real.lt_sqrt (by norm_num)]; norm_num
  · rw [Real.sqrt_lt' (by norm_num)]; norm_num

theorem sqrt6_sq : √6 * √6 = 6 := Real.mul_self_sqrt (by norm_num)

/-- **C43** The published method is the collocation method: its matrix integrates polynomials of degree two exactly up
to each node, and its last row, which are the weights (the last node is one), polynomials of degree four. -/
theorem C43_published_method :
    (∀ k : Fin 3, ∀ q : Fin 3, ∑ l, Spec.radauA k l * Spec.radauC l ^ (q : ℕ) = Spec.radauC k ^ ((q : ℕ) + 1) / ((q : ℕ) + 1)) ∧
    (∀ q : Fin 5, ∑ l, Spec.radauA 2 l * Spec.radauC l ^ (q : ℕ) = 1 / ((q : ℕ) + 1)) := by
  have h := sqrt6_sq
  have h2 : √6 ^ 2 = 6 := by rw [pow_two, h]
  have h3 : √6 ^ 3 = 6 * √6 := by rw [pow_succ, h2]
  have h4 : √6 ^ 4 = 36 := by rw [pow_succ, h3, mul_assoc, h]; norm_num
  have h5 : √6 ^ 5 = 36 * √6 := by rw [pow_succ, h4]
  constructor
  · intro k q
    fin_cases k <;> fin_cases q <;> simp [Fin.sum_univ_three, Spec.radauA, Spec.radauC] <;> ring_nf <;>
      simp only [h2, h3, h4] <;> ring
  · intro q
    fin_cases q <;> simp [Fin.sum_univ_three, Spec.radauA, Spec.radauC] <;> ring_nf <;>
      simp only [h2, h3, h4, h5] <;> ring

/-- **C43** The constants of the code: the transformation belongs to the published matrix up to `1e-16`, the nodes are
the published ones up to `1e-16`, and the two transformations are inverse to each other up to `1e-19`. -/
theorem C43_constants :
    (∀ k l, |Radau.codeTransform.A k l - Spec.radauA k l| ≤ 1e-16) ∧
    (∀ k, |Radau.codeC k - Spec.radauC k| ≤ 1e-16) ∧
    (∀ k l, |(Radau.codeTransform.T * Radau.codeTransform.TI) k l - (1 : Matrix (Fin 3) (Fin 3) ℝ) k l| ≤ 1e-19) ∧
    (∀ k l, |(Radau.codeTransform.TI * Radau.codeTransform.T) k l - (1 : Matrix (Fin 3) (Fin 3) ℝ) k l| ≤ 1e-19) := by
  obtain ⟨h1, h2⟩ := sqrt6_bounds
  refine ⟨fun k l => ?_, fun k => ?_, fun k l => ?_, fun k l => ?_⟩
  · fin_cases k <;> fin_cases l <;>
    · simp [Spec.Transform.A, Radau.codeTransform, Spec.radauA, Spec.Transform.LamInv, Matrix.mul_apply, Fin.sum_univ_three,
        Radau.T11, Radau.T12, Radau.T13, Radau.T21, Radau.T22, Radau.T23, Radau.T31, Radau.TI11, Radau.TI12, Radau.TI13,
        Radau.TI21, Radau.TI22, Radau.TI23, Radau.TI31, Radau.TI32, Radau.TI33, Radau.U1, Radau.ALPHA, Radau.BETA]
      rw [abs_le]
      constructor <;> norm_num <;> linarith
  · fin_cases k <;> simp [Radau.codeC, Spec.radauC, Radau.C1, Radau.C2] <;> norm_num <;> rw [abs_le] <;>
      constructor <;> linarith
  · fin_cases k <;> fin_cases l <;>
    · simp [Radau.codeTransform, Matrix.mul_apply, Fin.sum_univ_three, Matrix.one_apply,
        Radau.T11, Radau.T12, Radau.T13, Radau.T21, Radau.T22, Radau.T23, Radau.T31, Radau.TI11, Radau.TI12, Radau.TI13,
        Radau.TI21, Radau.TI22, Radau.TI23, Radau.TI31, Radau.TI32, Radau.TI33]
      norm_num [abs_le]
  · fin_cases k <;> fin_cases l <;>
    · simp [Radau.codeTransform, Matrix.mul_apply, Fin.sum_univ_three, Matrix.one_apply,
        Radau.T11, Radau.T12, Radau.T13, Radau.T21, Radau.T22, Radau.T23, Radau.T31, Radau.TI11, Radau.TI12, Radau.TI13,
        Radau.TI21, Radau.TI22, Radau.TI23, Radau.TI31, Radau.TI32, Radau.TI33]
      norm_num [abs_le]

variable {n : ℕ} {P : Type}

/-- The increments after a Newton pass. -/
theorem Spec.NewtonPass.stage {M : Spec.Transform} (hγ : M.γ ≠ 0) (hαβ : M.α ^ 2 + M.β ^ 2 ≠ 0) {c : Fin 3 → ℝ}
    {f : ℝ → (Fin n → ℝ) → Fin n → ℝ} {J : Fin n → Fin n → ℝ} {t h hf : ℝ} {u : Fin n → ℝ}
    {g y Δ z : Fin 3 → Fin n → ℝ} (N : Spec.NewtonPass M c f J t h hf u g y Δ z) (k : Fin 3) (i : Fin n) :
    z k i = hf * ∑ l, (M.A k l * f (t + c l * h) (u + y l) i + (M.T * M.LamInv) k l * ∑ j, J i j * Δ l j) := by
  have h0 := N.system 0 i
  have h1 := N.system 1 i
  have h2 := N.system 2 i
  have hz := N.result k i
  simp only [Fin.sum_univ_three, Spec.Transform.Lam, Spec.Transform.LamInv, Spec.Transform.A, Matrix.mul_apply,
    Matrix.of_apply, Matrix.cons_val', Matrix.cons_val_zero, Matrix.cons_val_one, Matrix.cons_val, Matrix.cons_val_fin_one,
    zero_mul, mul_zero, add_zero, zero_add] at h0 h1 h2 hz ⊢
  set F0 := f (t + c 0 * h) (u + y 0) i
  set F1 := f (t + c 1 * h) (u + y 1) i
  set F2 := f (t + c 2 * h) (u + y 2) i
  set D0 := ∑ j, J i j * Δ 0 j
  set D1 := ∑ j, J i j * Δ 1 j
  set D2 := ∑ j, J i j * Δ 2 j
  have e0 : g 0 i + Δ 0 i = hf * (M.TI 0 0 * F0 + M.TI 0 1 * F1 + M.TI 0 2 * F2 + D0) / M.γ := by
    field_simp
    linarith
  have e1 : g 1 i + Δ 1 i = hf * (M.α * (M.TI 1 0 * F0 + M.TI 1 1 * F1 + M.TI 1 2 * F2 + D1) +
      M.β * (M.TI 2 0 * F0 + M.TI 2 1 * F1 + M.TI 2 2 * F2 + D2)) / (M.α ^ 2 + M.β ^ 2) := by
    rw [eq_div_iff hαβ]
    linear_combination M.α * h1 + M.β * h2
  have e2 : g 2 i + Δ 2 i = hf * (M.α * (M.TI 2 0 * F0 + M.TI 2 1 * F1 + M.TI 2 2 * F2 + D2) -
      M.β * (M.TI 1 0 * F0 + M.TI 1 1 * F1 + M.TI 1 2 * F2 + D1)) / (M.α ^ 2 + M.β ^ 2) := by
    rw [eq_div_iff hαβ]
    linear_combination M.α * h2 - M.β * h1
  rw [hz, e0, e1, e2]
  field_simp
  ring

theorem code_ne : Radau.codeTransform.γ ≠ 0 ∧ Radau.codeTransform.α ^ 2 + Radau.codeTransform.β ^ 2 ≠ 0 := by
  constructor
  · simp only [Radau.codeTransform, Radau.U1]; norm_num
  · simp only [Radau.codeTransform, Radau.ALPHA, Radau.BETA]; norm_num

variable {b : Builder X n P} {f : ℝ → (Fin n → ℝ) → Fin n → ℝ}
  {jac : ℝ → (Fin n → ℝ) → Fin n → Fin n → ℝ} {u0 : Fin n → ℝ} {C : Radau.Clock} {s0 s s' : Radau.St X n P} {k : ℕ}
  {o : Option ℕ}

/-- All invariants of a run. -/
theorem radau_accepted (R : Radau.RealProblem b f jac u0) (T : Radau.Timed C b) (hn : n ≠ 0)
    (hc : ∀ t u, Spec.FirstNotEigen (C.Sane ∧ C.t0 ≤ C.tf) (jac t u)) (hb : b.build Radau.alg = .ok s0)
    (hs : SomeSteps Radau.alg none k s0 s) (h : StepReturns Radau.alg none s o s')
    (ha : s'.sol.retcode = .Continue ∨ s'.sol.retcode = .Success) :
    ∃ t h hf u J g y Δ z, Radau.StepR (Radau.env f jac ⊤ u0) C (C.Sane ∧ C.t0 ≤ C.tf) t h hf u J g y Δ z s s' ∧
      s.opts = s0.opts ∧ Radau.JacInv b.dudt b.dfdu b.params s ∧ ∃ l, Recorded s.sol l := by
  let I : Radau.St X n P → Prop := fun s => Radau.Scaled s ∧ (s.sol.retcode = .Continue → Radau.Derived s) ∧
    Radau.JacInv b.dudt b.dfdu b.params s
  have hI : I s := by
    refine Radau.run_induct (I := I) hb ?_ ?_ (.inl ⟨k, hs⟩)
    · refine ⟨?_, fun _ => ?_, .build hb⟩
      · rw [← Res.ok.inj hb]; rfl
      · rw [← Res.ok.inj hb]; exact ⟨_, rfl⟩
    · rintro s s' fuel hr ⟨h1, h2, h3⟩ h
      exact ⟨h1.step h, fun hc => .step hr h hc, h3.step h⟩
  have hN := R.run (V := ⊤) T ⟨fun _ _ _ => trivial, fun t u _ => ⟨fun _ _ => trivial,
    fun lam h1 h2 h3 => hc t u h3 lam h1 h2⟩⟩ hb (.inl ⟨k, hs⟩)
  obtain ⟨hr, ho⟩ := Radau.run_opts hb hs
  obtain ⟨t, hi⟩ := hN.idle hr.retcode
  obtain ⟨⟨fuel, h⟩, -⟩ := stepReturns_none_iff.1 h
  obtain ⟨h1, h2, h3⟩ := hI
  have h3' := h3
  obtain ⟨⟨e1, e2, e3, -⟩, -⟩ := h3'
  obtain ⟨h, hf, u, J, g, y, Δ, z, S⟩ | ⟨c1, c2, -⟩ := hi.accepted hn hr h1 (h2 hr.retcode) (by rw [e1, e2, e3]; exact h3) h
  · exact ⟨t, h, hf, u, J, g, y, Δ, z, S, ho, h3, hN.pts.imp fun _ h => h.1⟩
  · rcases ha with ha | ha
    · exact absurd ha c1
    · exact absurd ha c2

/-- **C43** Every accepted step of `Radau5` is computed by passes of the simplified Newton iteration (step size `hf` and
Jacobian `J` in the iteration matrix, see C44) for the stage equations of the step, and the result is the last stage.
The scaled norm of the Newton increment passes the convergence test with the estimated factor `faccon`. -/
theorem C43_newton_pass_radau (R : Radau.RealProblem b f jac u0) (T : Radau.Timed C b) (hn : n ≠ 0)
    (hc : ∀ t u, Spec.FirstNotEigen (C.Sane ∧ C.t0 ≤ C.tf) (jac t u)) (hb : b.build Radau.alg = .ok s0)
    (hs : SomeSteps Radau.alg none k s0 s) (h : StepReturns Radau.alg none s o s')
    (ha : s'.sol.retcode = .Continue ∨ s'.sol.retcode = .Success) :
    ∃ t h hf u J g y Δ z, s.t = fin t ∧ s.u = fv u ∧ s'.t = fin (t + h) ∧ s'.u = fv (u + z 2) ∧ h ≠ 0 ∧ hf ≠ 0 ∧
      Spec.NewtonIter Radau.codeTransform Radau.codeC f J t h hf u g y ∧
      Spec.NewtonPass Radau.codeTransform Radau.codeC f J t h hf u g y Δ z ∧
      ∀ a r, s0.opts.abstol = fin a → s0.opts.reltol = fin r → 0 < a → 0 ≤ r →
        Fl.le (s'.cache.faccon * fin (Spec.newtonNorm a r u Δ)) s0.opts.fnewt = true := by
  obtain ⟨t, h, hf, u, J, g, y, Δ, z, S, ho, -⟩ := radau_accepted R T hn hc hb hs h ha
  obtain ⟨_, hi⟩ := S.idle.idle
  refine ⟨t, h, hf, u, J, g, y, Δ, z, S.time, S.state, hi.time, S.next, S.ne, S.good.ne, S.iter, S.pass, ?_⟩
  rw [← ho]
  exact S.test

/-- **C43** Fixed points: if the Newton increment is zero and the iteration matrix belongs to the step, the increments
satisfy the equations of the published Radau IIA method up to the rounding of the constants. -/
theorem C43_fixed_point {J : Fin n → Fin n → ℝ} {t h : ℝ} {u : Fin n → ℝ} {g y z : Fin 3 → Fin n → ℝ}
    (N : Spec.NewtonPass Radau.codeTransform Radau.codeC f J t h h u g y (fun _ _ => 0) z) (k : Fin 3) (i : Fin n) :
    |z k i - h * ∑ l, Spec.radauA k l * f (t + Radau.codeC l * h) (u + y l) i| ≤
      1e-16 * |h| * ∑ l, |f (t + Radau.codeC l * h) (u + y l) i| ∧
    |z k i - y k i| ≤ 1e-19 * ∑ l, |y l i| := by
  obtain ⟨hA, -, hT, -⟩ := C43_constants
  constructor
  · rw [N.stage code_ne.1 code_ne.2]
    simp only [mul_zero, Finset.sum_const_zero, add_zero]
    rw [← mul_sub, ← Finset.sum_sub_distrib, abs_mul, mul_comm (1e-16 : ℝ), mul_assoc]
    refine mul_le_mul_of_nonneg_left ?_ (abs_nonneg _)
    rw [Finset.mul_sum]
    refine (Finset.abs_sum_le_sum_abs _ _).trans (Finset.sum_le_sum fun l _ => ?_)
    rw [← sub_mul, abs_mul]
    exact mul_le_mul_of_nonneg_right (hA k l) (abs_nonneg _)
  · have hz : z k i = ∑ l, Radau.codeTransform.T k l * g l i := by
      rw [N.result k i]; simp
    rcases N.start with hs | hs
    · rw [hz, ← hs k i, sub_self, abs_zero]
      exact mul_nonneg (by norm_num) (Finset.sum_nonneg fun _ _ => abs_nonneg _)
    · have e : z k i - y k i = ∑ l, ((Radau.codeTransform.T * Radau.codeTransform.TI) k l -
          (1 : Matrix (Fin 3) (Fin 3) ℝ) k l) * y l i := by
        simp only [sub_mul, Finset.sum_sub_distrib, Matrix.one_apply, ite_mul, one_mul, zero_mul, Finset.sum_ite_eq,
          Finset.mem_univ, if_true]
        rw [hz]
        simp only [hs, Matrix.mul_apply, Finset.sum_mul, Finset.mul_sum]
        rw [Finset.sum_comm]
        simp only [mul_assoc]
      rw [e, Finset.mul_sum]
      refine (Finset.abs_sum_le_sum_abs _ _).trans (Finset.sum_le_sum fun l _ => ?_)
      rw [abs_mul]
      exact mul_le_mul_of_nonneg_right (hT k l) (abs_nonneg _)

theorem code_defects :
    (∀ k l, |(Radau.codeTransform.T * Radau.codeTransform.LamInv - Radau.codeTransform.A * Radau.codeTransform.T) k l| ≤ 1e-16) ∧
    (∀ k l, |(Radau.codeTransform.A * (Radau.codeTransform.T * Radau.codeTransform.TI - 1)) k l| ≤ 1e-16) := by
  refine ⟨fun k l => ?_, fun k l => ?_⟩
  · fin_cases k <;> fin_cases l <;>
    · simp [Spec.Transform.A, Radau.codeTransform, Spec.Transform.LamInv, Matrix.mul_apply, Fin.sum_univ_three, Matrix.one_apply,
        Radau.T11, Radau.T12, Radau.T13, Radau.T21, Radau.T22, Radau.T23, Radau.T31, Radau.TI11, Radau.TI12, Radau.TI13,
        Radau.TI21, Radau.TI22, Radau.TI23, Radau.TI31, Radau.TI32, Radau.TI33, Radau.U1, Radau.ALPHA, Radau.BETA]
      norm_num [abs_le]
  · fin_cases k <;> fin_cases l <;>
    · simp [Spec.Transform.A, Radau.codeTransform, Spec.Transform.LamInv, Matrix.mul_apply, Fin.sum_univ_three, Matrix.one_apply,
        Radau.T11, Radau.T12, Radau.T13, Radau.T21, Radau.T22, Radau.T23, Radau.T31, Radau.TI11, Radau.TI12, Radau.TI13,
        Radau.TI21, Radau.TI22, Radau.TI23, Radau.TI31, Radau.TI32, Radau.TI33, Radau.U1, Radau.ALPHA, Radau.BETA]
      norm_num [abs_le]

/-- **C43** Linear problems: if `f(t, u) = c(t) + J u`, the Jacobian is `J` and the iteration matrix belongs to the
step, then, whatever the size of the Newton increment and the starting values, the increments after one pass satisfy the
equations of the published method up to the rounding of the constants. -/
theorem C43_linear {J : Fin n → Fin n → ℝ} {c : ℝ → Fin n → ℝ} {t h : ℝ} {u : Fin n → ℝ} {g y Δ z : Fin 3 → Fin n → ℝ}
    (hf : ∀ t u i, f t u i = c t i + ∑ j, J i j * u j)
    (N : Spec.NewtonPass Radau.codeTransform Radau.codeC f J t h h u g y Δ z) (k : Fin 3) (i : Fin n) :
    |z k i - h * ∑ l, Spec.radauA k l * f (t + Radau.codeC l * h) (u + z l) i| ≤
      1e-16 * |h| * ∑ l, (|f (t + Radau.codeC l * h) (u + z l) i| + |∑ j, J i j * y l j| + |∑ j, J i j * Δ l j|) := by
  obtain ⟨hA, -⟩ := C43_constants
  obtain ⟨hB, hE⟩ := code_defects
  set M := Radau.codeTransform
  set F : Fin 3 → ℝ := fun l => f (t + Radau.codeC l * h) (u + z l) i with hF
  set Y : Fin 3 → ℝ := fun l => ∑ j, J i j * y l j with hY
  set D : Fin 3 → ℝ := fun l => ∑ j, J i j * Δ l j with hD
  have hsum : ∀ (v : Fin 3 → Fin n → ℝ) (a : Fin 3 → ℝ), ∑ j, J i j * ∑ l, a l * v l j = ∑ l, a l * ∑ j, J i j * v l j := by
    intro v a
    simp only [Finset.mul_sum]
    rw [Finset.sum_comm]
    exact Finset.sum_congr rfl fun _ _ => Finset.sum_congr rfl fun _ _ => by ring
  have hZ : ∃ E : Matrix (Fin 3) (Fin 3) ℝ, (∀ k l, |(M.A * E) k l| ≤ 1e-16) ∧
      ∀ l, ∑ j, J i j * z l j = Y l + ∑ m, M.T l m * D m + ∑ m, E l m * Y m := by
    have hz : ∀ l j, z l j = ∑ m, M.T l m * g m j + ∑ m, M.T l m * Δ m j := by
      intro l j; rw [N.result l j, ← Finset.sum_add_distrib]; simp only [mul_add]
    rcases N.start with hs | hs
    · refine ⟨0, fun k l => by simp; norm_num, fun l => ?_⟩
      simp only [hz, ← hs, mul_add, Finset.sum_add_distrib, hsum, Matrix.zero_apply, zero_mul, Finset.sum_const_zero,
        add_zero, hY, hD]
    · refine ⟨M.T * M.TI - 1, hE, fun l => ?_⟩
      have e : ∑ m, (M.T * M.TI - 1) l m * Y m = ∑ m, M.T l m * ∑ j, J i j * g m j - Y l := by
        have hg : ∀ m, ∑ j, J i j * g m j = ∑ l, M.TI m l * Y l := by
          intro m; simp only [hs, hsum, hY]
        have h1 : ∀ a : Fin 3 → ℝ, ∑ m, (1 : Matrix (Fin 3) (Fin 3) ℝ) l m * a m = a l := by
          intro a; simp [Matrix.one_apply]
        rw [← h1 Y]
        simp only [hg, Fin.sum_univ_three, Matrix.sub_apply, Matrix.mul_apply]
        ring
      rw [e]
      simp only [hz, mul_add, Finset.sum_add_distrib, hsum, hD]
      ring
  obtain ⟨E, hE, hZ⟩ := hZ
  have hFy : ∀ l, f (t + Radau.codeC l * h) (u + y l) i = F l - ∑ m, M.T l m * D m - ∑ m, E l m * Y m := by
    intro l
    have : F l = f (t + Radau.codeC l * h) (u + y l) i - Y l + ∑ j, J i j * z l j := by
      simp only [hF, hf, Pi.add_apply, mul_add, Finset.sum_add_distrib, hY]
      ring
    rw [this, hZ]; ring
  have key : z k i - h * ∑ l, Spec.radauA k l * F l = h * ∑ l, ((M.A k l - Spec.radauA k l) * F l +
      (M.T * M.LamInv - M.A * M.T) k l * D l - (M.A * E) k l * Y l) := by
    rw [N.stage code_ne.1 code_ne.2]
    simp only [hFy]
    simp only [Fin.sum_univ_three, Matrix.sub_apply, Matrix.mul_apply, hD]
    ring
  change |z k i - h * ∑ l, Spec.radauA k l * F l| ≤ 1e-16 * |h| * ∑ l, (|F l| + |Y l| + |D l|)
  rw [key, abs_mul, mul_comm (1e-16 : ℝ), mul_assoc]
  refine mul_le_mul_of_nonneg_left ?_ (abs_nonneg _)
  rw [Finset.mul_sum]
  refine (Finset.abs_sum_le_sum_abs _ _).trans (Finset.sum_le_sum fun l _ => ?_)
  refine (abs_sub _ _).trans ((add_le_add_left (abs_add_le _ _) _).trans ?_)
  simp only [abs_mul]
  have a1 := mul_le_mul_of_nonneg_right (hA k l) (abs_nonneg (F l))
  have a2 := mul_le_mul_of_nonneg_right (hB k l) (abs_nonneg (D l))
  have a3 := mul_le_mul_of_nonneg_right (hE k l) (abs_nonneg (Y l))
  linarith

/-! ### The error estimate -/

/-- **C16** Every point `Radau5` records after the first was produced by a step for which the error estimate of the
published code (C43 describes the increments `z`) has a scaled norm less than one. In the first step and after a
rejection, this may be the second estimate, which is the first one with `f(t, u)` replaced by `f(t, u + e)`. The
tolerances are those of the integrator (the ones computed by `build`, see C03). -/
theorem C16_error_estimate_radau (R : Radau.RealProblem b f jac u0) (T : Radau.Timed C b) (hn : n ≠ 0)
    (hc : ∀ t u, Spec.FirstNotEigen (C.Sane ∧ C.t0 ≤ C.tf) (jac t u)) (hb : b.build Radau.alg = .ok s0)
    {a r : ℝ} (ha : s0.opts.abstol = fin a) (hr : s0.opts.reltol = fin r) (a0 : 0 < a) (r0 : 0 ≤ r)
    (hs : SomeSteps Radau.alg none k s0 s) (h : StepReturns Radau.alg none s o s')
    (hacc : s'.sol.retcode = .Continue ∨ s'.sol.retcode = .Success) :
    ∃ t h hf u J g y Δ z, s.t = fin t ∧ s.u = fv u ∧ s'.t = fin (t + h) ∧ s'.u = fv (u + z 2) ∧
      Spec.NewtonPass Radau.codeTransform Radau.codeC f J t h hf u g y Δ z ∧
      ∃ e, Spec.IsErrEstimate Radau.U1 hf h J (f t u) z e ∧ (Spec.scaledNorm a r u e < 1 ∨
        ∃ e', Spec.IsErrEstimate Radau.U1 hf h J (f t (u + e)) z e' ∧ Spec.scaledNorm a r u e' < 1) := by
  obtain ⟨t, h, hf, u, J, g, y, Δ, z, S, ho, -⟩ := radau_accepted R T hn hc hb hs h hacc
  obtain ⟨_, hi⟩ := S.idle.idle
  exact ⟨t, h, hf, u, J, g, y, Δ, z, S.time, S.state, hi.time, S.next, S.pass,
    S.err a r (by rw [ho, ha]) (by rw [ho, hr]) a0 r0⟩

/-! ### Factorizations -/

theorem Radau.Good.unique {hf hf' : ℝ} {J J' : _root_.Fin n → _root_.Fin n → ℝ} {d : Radau.Facs X n} (hn : n ≠ 0)
    (G : Radau.Good hf J d) (G' : Radau.Good hf' J' d) : hf = hf' ∧ J = J' := by
  have hU : (Radau.U1 : ℝ) ≠ 0 := Radau.U1_pos.ne'
  have e : hf = hf' := by
    have := fin_inj.1 (G.fac1.symm.trans G'.fac1)
    have h1 := G.ne
    have h2 := G'.ne
    field_simp at this
    exact this.symm
  subst e
  refine ⟨rfl, ?_⟩
  -- both matrices have the same inverse
  have hM : ∀ (K : _root_.Fin n → _root_.Fin n → ℝ), Radau.Good hf K d →
      ∃ S : Matrix (_root_.Fin n) (_root_.Fin n) ℝ, (∀ j, (Radau.resV (Linalg.sol n (Radau.extM d.e1)
        (Radau.extV (fv (Pi.single j 1))) d.ip1) : Vec n X) = fv fun i => S i j) ∧
        (Matrix.of fun i j => (if i = j then Radau.U1 / hf else 0) - K i j) * S = 1 := by
    intro K G
    choose x h1 h2 using fun j : _root_.Fin n => G.real (Pi.single j 1)
    refine ⟨Matrix.of fun i j => x j i, h1, ?_⟩
    ext i j
    have := h2 j i
    simp only [Matrix.mul_apply, Matrix.of_apply, sub_mul, ite_mul, zero_mul, Finset.sum_sub_distrib, Finset.sum_ite_eq,
      Finset.mem_univ, if_true]
    rw [this, Matrix.one_apply, Pi.single_apply]
  obtain ⟨S, a1, a2⟩ := hM J G
  obtain ⟨S', b1, b2⟩ := hM J' G'
  have hS : S = S' := by
    ext i j
    have := congrFun ((a1 j).symm.trans (b1 j)) i
    exact fin_inj.1 this
  subst hS
  have h3 := mul_eq_one_comm.1 a2
  have h4 : (Matrix.of fun i j => (if i = j then Radau.U1 / hf else 0) - J i j) =
      Matrix.of fun i j => (if i = j then Radau.U1 / hf else 0) - J' i j := by
    calc _ = (Matrix.of fun i j => (if i = j then Radau.U1 / hf else 0) - J' i j) * S *
          (Matrix.of fun i j => (if i = j then Radau.U1 / hf else 0) - J i j) := by rw [b2, Matrix.one_mul]
      _ = _ := by rw [Matrix.mul_assoc, h3, Matrix.mul_one]
  funext i j
  have := congrFun (congrFun h4 i) j
  simpa using this

theorem recorded_mem {sol : Solution X n} {l : List (ℝ × (Fin n → ℝ))} (hl : Recorded sol l) {p : ℝ × (Fin n → ℝ)} :
    (fin p.1, fv p.2) ∈ sol.ts.zip sol.us ↔ p ∈ l := by
  rw [hl.1, hl.2, List.zip_map', List.mem_map]
  constructor
  · rintro ⟨q, hq, h⟩
    have h1 := fin_inj.1 (congrArg Prod.fst h)
    have h2 : q.2 = p.2 := funext fun i => fin_inj.1 (congrFun (congrArg Prod.snd h) i)
    rw [← show q = p from Prod.ext h1 h2]
    exact hq
  · exact fun h => ⟨p, h, rfl⟩

/-- Jacobians of recorded points. -/
theorem recorded_jac (R : Radau.RealProblem b f jac u0) (hj : Radau.JacInv b.dudt b.dfdu b.params s)
    {l : List (ℝ × (Fin n → ℝ))} (hl : Recorded s.sol l) {J : Fin n → Fin n → ℝ}
    (h : ∃ x ∈ s.sol.ts.zip s.sol.us, ∃ buf, Radau.fmat J = (jacobian_u s.dudt s.dfdu buf x.2 x.1 s.params).1) :
    ∃ p ∈ l, J = jac p.1 p.2 := by
  obtain ⟨x, hx, buf, h⟩ := h
  obtain ⟨⟨e1, e2, e3, -⟩, -⟩ := hj
  rw [hl.1, hl.2, List.zip_map'] at hx
  obtain ⟨p, hp, rfl⟩ := List.mem_map.1 hx
  refine ⟨p, hp, ?_⟩
  rw [e1, e2, e3, R.jacs] at h
  funext i j
  exact fin_inj.1 (congrFun (congrFun h i) j)

/-- **C44** In every accepted step, either the iteration matrix was decomposed anew, with the step size of the step and
the Jacobian at a recorded point; or nothing was decomposed, and the Newton iteration uses the step size and the Jacobian
the step before used. -/
theorem C44_decompositions_radau (R : Radau.RealProblem b f jac u0) (T : Radau.Timed C b) (hn : n ≠ 0)
    (hc : ∀ t u, Spec.FirstNotEigen (C.Sane ∧ C.t0 ≤ C.tf) (jac t u)) (hb : b.build Radau.alg = .ok s0)
    (hs : SomeSteps Radau.alg none k s0 s) {i : ℕ} {s'' : Radau.St X n P} (h : StepReturns Radau.alg none s (some i) s')
    (h' : StepReturns Radau.alg none s' o s'') (ha : s''.sol.retcode = .Continue ∨ s''.sol.retcode = .Success) :
    ∃ l, Recorded s'.sol l ∧ ∃ t h hf u J g y Δ z h' hf' J' g' y' Δ' z',
      s.t = fin t ∧ s.u = fv u ∧ s'.t = fin (t + h) ∧ s'.u = fv (u + z 2) ∧
      s''.t = fin (t + h + h') ∧ s''.u = fv (u + z 2 + z' 2) ∧
      Spec.NewtonPass Radau.codeTransform Radau.codeC f J t h hf u g y Δ z ∧
      Spec.NewtonPass Radau.codeTransform Radau.codeC f J' (t + h) h' hf' (u + z 2) g' y' Δ' z' ∧
      ((s'.stats.decompositions < s''.stats.decompositions ∧ hf' = h' ∧ ∃ p ∈ l, J' = jac p.1 p.2) ∨
        (s''.stats.decompositions = s'.stats.decompositions ∧ hf' = hf ∧ J' = J)) := by
  have hc1 : s'.sol.retcode = .Continue := by
    by_contra hcon
    obtain ⟨-, ho⟩ := stepReturns_none_iff.1 h
    simp [hcon] at ho
  obtain ⟨t, h1, hf, u, J, g, y, Δ, z, S, -⟩ := radau_accepted R T hn hc hb hs h (.inl hc1)
  obtain ⟨t', h2, hf', u', J', g', y', Δ', z', S', -, hj, l, hl⟩ :=
    radau_accepted R T hn hc hb (.succ (alg := Radau.alg) hs h) h' ha
  obtain ⟨_, hi⟩ := S.idle.idle
  obtain ⟨_, hi'⟩ := S'.idle.idle
  have et : t' = t + h1 := fin_inj.1 (S'.time.symm.trans hi.time)
  have eu : u' = u + z 2 := by
    funext i
    exact fin_inj.1 (congrFun (S'.state.symm.trans S.next) i)
  subst et eu
  refine ⟨l, hl, t, h1, hf, u, J, g, y, Δ, z, h2, hf', J', g', y', Δ', z', S.time, S.state, hi.time, S.next, hi'.time,
    S'.next, S.pass, S'.pass, ?_⟩
  obtain ⟨f1, f2, f3⟩ | ⟨f1, -, f3⟩ := S'.fresh
  · exact .inl ⟨f1, f2, recorded_jac R hj hl f3⟩
  · obtain ⟨e1, e2⟩ := (f3 ▸ S'.good).unique hn S.good
    exact .inr ⟨f1, e1, e2⟩

/-- The steps of a run in which every step is either decomposed anew or has the step size proposed by the step before. -/
theorem radau_undisturbed (R : Radau.RealProblem b f jac u0) (T : Radau.Timed C b) (hn : n ≠ 0)
    (hc : ∀ t u, Spec.FirstNotEigen (C.Sane ∧ C.t0 ≤ C.tf) (jac t u)) (hb : b.build Radau.alg = .ok s0)
    (hd : ∀ k s o s', SomeSteps Radau.alg none k s0 s → StepReturns Radau.alg none s o s' →
      s'.sol.retcode = .Continue ∨ s'.sol.retcode = .Success →
      s.stats.decompositions < s'.stats.decompositions ∨ s'.dtprev = s.dt)
    (hs : SomeSteps Radau.alg none k s0 s) (h : StepReturns Radau.alg none s o s')
    (ha : s'.sol.retcode = .Continue ∨ s'.sol.retcode = .Success) :
    ∃ l, Recorded s.sol l ∧ ∃ t h u J g y Δ z,
      Radau.StepR (Radau.env f jac ⊤ u0) C (C.Sane ∧ C.t0 ≤ C.tf) t h h u J g y Δ z s s' ∧ ∃ p ∈ l, J = jac p.1 p.2 := by
  let V : Radau.St X n P → Prop := fun s => s.cache.decompose = false → ∃ h J, s.dt = fin h ∧
    Radau.Good h J (Radau.facsOf s) ∧ ∃ p : ℝ × (Fin n → ℝ), (fin p.1, fv p.2) ∈ s.sol.ts.zip s.sol.us ∧ J = jac p.1 p.2
  have key : ∀ {k : ℕ} {s s' : Radau.St X n P} {o : Option ℕ}, SomeSteps Radau.alg none k s0 s → V s →
      StepReturns Radau.alg none s o s' → (s'.sol.retcode = .Continue ∨ s'.sol.retcode = .Success) →
      (∃ l, Recorded s.sol l ∧ ∃ t h u J g y Δ z,
        Radau.StepR (Radau.env f jac ⊤ u0) C (C.Sane ∧ C.t0 ≤ C.tf) t h h u J g y Δ z s s' ∧ ∃ p ∈ l, J = jac p.1 p.2) ∧
      V s' := by
    intro k s s' o hs hV h ha
    obtain ⟨t, h1, hf, u, J, g, y, Δ, z, S, -, hj, l, hl⟩ := radau_accepted R T hn hc hb hs h ha
    have hJ : hf = h1 ∧ ∃ p ∈ l, J = jac p.1 p.2 := by
      obtain ⟨f1, f2, f3⟩ | ⟨f1, f2, f3⟩ := S.fresh
      · exact ⟨f2, recorded_jac R hj hl f3⟩
      · rcases hd k s o s' hs h ha with hlt | heq
        · omega
        · obtain ⟨h2, J2, e1, e2, p, hp, e3⟩ := hV f2
          rw [S.dtprev, e1] at heq
          obtain ⟨e4, e5⟩ := (f3 ▸ S.good).unique hn e2
          exact ⟨by rw [e4]; exact (fin_inj.1 heq).symm, p, (recorded_mem hl).1 hp, by rw [e5, e3]⟩
    obtain ⟨e, p, hp, hJ⟩ := hJ
    subst e
    refine ⟨⟨l, hl, t, hf, u, J, g, y, Δ, z, S, p, hp, hJ⟩, ?_⟩
    intro hdec
    refine ⟨hf, J, (S.keep hdec).1, S.good, p, ?_, hJ⟩
    rw [S.push.1, S.push.2, List.zip_append hj.1.2.2.2]
    exact List.mem_append_left _ ((recorded_mem hl).2 hp)
  refine (key hs ?_ h ha).1
  refine SomeSteps.induct (alg := Radau.alg) (I := fun k s => SomeSteps Radau.alg none k s0 s ∧ V s) ?_ ?_ hs |>.2
  · refine ⟨.zero (alg := Radau.alg) s0, fun hdec => ?_⟩
    rw [← Res.ok.inj hb] at hdec
    exact Bool.noConfusion (show true = false from hdec)
  · rintro k s o s' ⟨hs, hV⟩ h
    have hc1 : s'.sol.retcode = .Continue := by
      by_contra hcon
      obtain ⟨-, ho⟩ := stepReturns_none_iff.1 h
      simp [hcon] at ho
    exact ⟨.succ (alg := Radau.alg) hs h, (key hs hV h (.inl hc1)).2⟩

/-- **C44** If every step of a run is either decomposed anew or has the step size proposed by the step before, then every
step uses its own step size in the Newton iteration, and the Jacobian at a recorded point. (The other steps, for which
nothing was decomposed although the step size was changed, are those cut to reach the end of the interval, and those
repeated with a smaller step size after a failure of the Newton iteration; see `C44_stale_radau`.) -/
theorem C44_undisturbed_radau (R : Radau.RealProblem b f jac u0) (T : Radau.Timed C b) (hn : n ≠ 0)
    (hc : ∀ t u, Spec.FirstNotEigen (C.Sane ∧ C.t0 ≤ C.tf) (jac t u)) (hb : b.build Radau.alg = .ok s0)
    (hd : ∀ k s o s', SomeSteps Radau.alg none k s0 s → StepReturns Radau.alg none s o s' →
      s'.sol.retcode = .Continue ∨ s'.sol.retcode = .Success →
      s.stats.decompositions < s'.stats.decompositions ∨ s'.dtprev = s.dt)
    (hs : SomeSteps Radau.alg none k s0 s) (h : StepReturns Radau.alg none s o s')
    (ha : s'.sol.retcode = .Continue ∨ s'.sol.retcode = .Success) :
    ∃ l, Recorded s.sol l ∧ ∃ t h u J g y Δ z, s.t = fin t ∧ s.u = fv u ∧ s'.t = fin (t + h) ∧ s'.u = fv (u + z 2) ∧
      Spec.NewtonIter Radau.codeTransform Radau.codeC f J t h h u g y ∧
      Spec.NewtonPass Radau.codeTransform Radau.codeC f J t h h u g y Δ z ∧ ∃ p ∈ l, J = jac p.1 p.2 := by
  obtain ⟨l, hl, t, h, u, J, g, y, Δ, z, S, hJ⟩ := radau_undisturbed R T hn hc hb hd hs h ha
  obtain ⟨_, hi⟩ := S.idle.idle
  exact ⟨l, hl, t, h, u, J, g, y, Δ, z, S.time, S.state, hi.time, S.next, S.iter, S.pass, hJ⟩

/-! ### Dense output -/

/-- The coefficients of the continuous extension stored for component `i`. -/
def codeKappa (u : Fin n → ℝ) (z : Fin 3 → Fin n → ℝ) (i : Fin n) : Fin 4 → ℝ :=
  ![u i + z 2 i, (z 1 i - z 2 i) / Radau.C2M1,
    ((z 0 i - z 1 i) / Radau.C1MC2 - (z 1 i - z 2 i) / Radau.C2M1) / Radau.C1M1,
    ((z 0 i - z 1 i) / Radau.C1MC2 - (z 1 i - z 2 i) / Radau.C2M1) / Radau.C1M1 -
      ((z 0 i - z 1 i) / Radau.C1MC2 - z 0 i / Radau.C1) / Radau.C2]

theorem codeKappa_interp (u : Fin n → ℝ) (z : Fin 3 → Fin n → ℝ) (i : Fin n) :
    Spec.contr5 Radau.C1 Radau.C2 (codeKappa u z i) (-1) = u i ∧
    Spec.contr5 Radau.C1 Radau.C2 (codeKappa u z i) (Radau.C1 - 1) = u i + z 0 i ∧
    Spec.contr5 Radau.C1 Radau.C2 (codeKappa u z i) (Radau.C2 - 1) = u i + z 1 i ∧
    Spec.contr5 Radau.C1 Radau.C2 (codeKappa u z i) 0 = u i + z 2 i := by
  simp only [Spec.contr5, codeKappa, Matrix.cons_val_zero, Matrix.cons_val_one, Matrix.cons_val, Radau.C1, Radau.C2,
    Radau.C2M1, Radau.C1M1, Radau.C1MC2]
  norm_num
  refine ⟨?_, ?_, ?_⟩ <;> ring

theorem dense_eval {E : Radau.NEnv n} {fwd : Prop} {t h hf : ℝ} {u : Fin n → ℝ} {J : Fin n → Fin n → ℝ}
    {g y Δ z : Fin 3 → Fin n → ℝ} (S : Radau.StepR E C fwd t h hf u J g y Δ z s s') (hd : s.opts.dense = true) (x : ℝ)
    (i : Fin n) : Radau.dense_output s' (fin (t + h + x * h)) i =
      fin (Spec.contr5 (Spec.radauC 0) (Spec.radauC 1) (codeKappa u z i) x +
          x * (x - 1) * (x - (Spec.radauC 1 - 1)) * codeKappa u z i 2) := by
  obtain ⟨_, hi⟩ := S.idle.idle
  have h6 : Fl.sqrt (6.0 : X) = fin √6 := by
    rw [show (6.0 : X) = fin 6.0 from rfl, sqrt_fin (by norm_num)]; norm_num
  have h10 : (10.0 : ℝ) ≠ 0 := by norm_num
  have hc0 := S.dense hd
  rw [S.next] at hc0
  have hx : t + h + x * h - (t + h) = x * h := by ring
  simp only [Radau.dense_output, h6, hc0, S.cont1, S.cont2, S.cont3, S.dtprev, hi.time, fv_apply,
    show (4.0 : X) = fin 4.0 from rfl, show (10.0 : X) = fin 10.0 from rfl, show (1.0 : X) = fin 1.0 from rfl,
    sub_fin, add_fin, mul_fin, div_fin h10, div_fin S.ne, hx, mul_div_assoc, div_self S.ne, mul_one]
  refine congrArg fin ?_
  simp only [Spec.contr5, codeKappa, Spec.radauC, Matrix.cons_val_zero, Matrix.cons_val_one, Matrix.cons_val, Pi.add_apply]
  norm_num
  ring

/-- **C47** The continuous extension after an accepted step, with `dense` set. The stored coefficients `κ` are the right
ones: with them, the published formula gives the polynomial which has the value `u` at the beginning of the step, the stage
values `u + z k` at the nodes, and the new state at the end. But `dense_output` computes this polynomial (with the exact
nodes) plus `x (x - 1) (x - (c₂ - 1)) κ₂`, because the quadratic coefficient is multiplied by an additional factor `x`. -/
theorem C47_dense_output_radau (R : Radau.RealProblem b f jac u0) (T : Radau.Timed C b) (hn : n ≠ 0)
    (hc : ∀ t u, Spec.FirstNotEigen (C.Sane ∧ C.t0 ≤ C.tf) (jac t u)) (hb : b.build Radau.alg = .ok s0)
    (hdense : s0.opts.dense = true)
    (hs : SomeSteps Radau.alg none k s0 s) (h : StepReturns Radau.alg none s o s')
    (hacc : s'.sol.retcode = .Continue ∨ s'.sol.retcode = .Success) :
    ∃ t h hf u J g y Δ z, s.t = fin t ∧ s.u = fv u ∧ s'.t = fin (t + h) ∧ s'.u = fv (u + z 2) ∧ h ≠ 0 ∧
      Spec.NewtonPass Radau.codeTransform Radau.codeC f J t h hf u g y Δ z ∧
      ∀ i, ∃ κ : Fin 4 → ℝ, Spec.contr5 Radau.C1 Radau.C2 κ (-1) = u i ∧
        Spec.contr5 Radau.C1 Radau.C2 κ (Radau.C1 - 1) = u i + z 0 i ∧
        Spec.contr5 Radau.C1 Radau.C2 κ (Radau.C2 - 1) = u i + z 1 i ∧
        Spec.contr5 Radau.C1 Radau.C2 κ 0 = u i + z 2 i ∧
        ∀ x, Radau.dense_output s' (fin (t + h + x * h)) i = fin (Spec.contr5 (Spec.radauC 0) (Spec.radauC 1) κ x +
          x * (x - 1) * (x - (Spec.radauC 1 - 1)) * κ 2) := by
  obtain ⟨t, h, hf, u, J, g, y, Δ, z, S, ho, -⟩ := radau_accepted R T hn hc hb hs h hacc
  obtain ⟨_, hi⟩ := S.idle.idle
  refine ⟨t, h, hf, u, J, g, y, Δ, z, S.time, S.state, hi.time, S.next, S.ne, S.pass, fun i => ⟨codeKappa u z i, ?_⟩⟩
  obtain ⟨k1, k2, k3, k4⟩ := codeKappa_interp u z i
  refine ⟨k1, k2, k3, k4, fun x => ?_⟩
  exact dense_eval S (by rw [ho, hdense]) x i

/-- **C47** Consequences: the dense output is the new state at the end of the step. At the beginning of the step it misses
the old state by `2 c₂` times the quadratic coefficient, where `c₂ = (4 + √6) / 10`, up to rounded constants. -/
theorem C47_ends_radau (R : Radau.RealProblem b f jac u0) (T : Radau.Timed C b) (hn : n ≠ 0)
    (hc : ∀ t u, Spec.FirstNotEigen (C.Sane ∧ C.t0 ≤ C.tf) (jac t u)) (hb : b.build Radau.alg = .ok s0)
    (hdense : s0.opts.dense = true)
    (hs : SomeSteps Radau.alg none k s0 s) (h : StepReturns Radau.alg none s o s')
    (hacc : s'.sol.retcode = .Continue ∨ s'.sol.retcode = .Success) :
    Radau.dense_output s' s'.t = s'.u ∧
    ∀ i, ∃ κ2 κ3 v w : ℝ, s'.cache.cont2 i = fin κ2 ∧ s'.cache.cont3 i = fin κ3 ∧ s.u i = fin v ∧
      Radau.dense_output s' s.t i = fin w ∧
      |w - (v - 2 * Spec.radauC 1 * κ2)| ≤ 1e-15 * (|κ2| + |κ3|) := by
  obtain ⟨t, h, hf, u, J, g, y, Δ, z, S, ho, -⟩ := radau_accepted R T hn hc hb hs h hacc
  obtain ⟨_, hi⟩ := S.idle.idle
  have hd : s.opts.dense = true := by rw [ho, hdense]
  constructor
  · funext i
    have := dense_eval S hd 0 i
    rw [zero_mul, add_zero] at this
    rw [hi.time, this, S.next]
    simp [Spec.contr5, codeKappa]
  · intro i
    have := dense_eval S hd (-1) i
    rw [show t + h + -1 * h = t by ring] at this
    refine ⟨codeKappa u z i 2, codeKappa u z i 3, u i, _, by rw [S.cont2]; rfl, by rw [S.cont3]; rfl, by rw [S.state]; rfl,
      by rw [S.time]; exact this, ?_⟩
    have h1 := (codeKappa_interp u z i).1
    generalize codeKappa u z i = κ at h1 ⊢
    obtain ⟨s1, s2⟩ := sqrt6_bounds
    have e1 : |Spec.radauC 1 - Radau.C2| ≤ 1e-15 := by
      rw [abs_le]; simp [Spec.radauC, Radau.C2]; constructor <;> norm_num <;> linarith
    have e2 : |Radau.C2 * Radau.C1 - Spec.radauC 1 * Spec.radauC 0| ≤ 1e-15 := by
      have : Spec.radauC 1 * Spec.radauC 0 = 1 / 10 := by
        simp [Spec.radauC]; linear_combination (-1 / 100) * sqrt6_sq
      rw [this]; unfold Radau.C1 Radau.C2; norm_num [abs_le]
    have e : Spec.contr5 (Spec.radauC 0) (Spec.radauC 1) κ (-1) + -1 * (-1 - 1) * (-1 - (Spec.radauC 1 - 1)) * κ 2 -
        (u i - 2 * Spec.radauC 1 * κ 2) =
        (Spec.radauC 1 - Radau.C2) * κ 2 + (Radau.C2 * Radau.C1 - Spec.radauC 1 * Spec.radauC 0) * κ 3 := by
      rw [← h1]; unfold Spec.contr5; ring
    rw [e]
    refine (abs_add_le _ _).trans ?_
    rw [abs_mul, abs_mul, mul_add]
    exact add_le_add (mul_le_mul_of_nonneg_right e1 (abs_nonneg _)) (mul_le_mul_of_nonneg_right e2 (abs_nonneg _))

end
end Cyphus
