import Verif.Props.RadauStep
import Verif.Props.RadauControl
import Verif.Proofs.RadauR
/-!
# Stability of `Radau5` on linear problems (C60)

A run that meets the hypotheses of the theorems is in `Verif/Props/RadauDecay.lean`.
-/

namespace Cyphus
open X
set_option autoImplicit false
set_option linter.unusedSectionVars false

noncomputable section
variable {n : ℕ} {P : Type}

/-- `w · v`. -/
def Spec.pair (w : Fin n → ℂ) (v : Fin n → ℝ) : ℂ := ∑ i, w i * v i

/-! ### Newton passes seen by a left eigenvector -/

theorem Spec.pair_sum (w : Fin n → ℂ) (a : Fin 3 → ℝ) (v : Fin 3 → Fin n → ℝ) :
    Spec.pair w (fun i => ∑ l, a l * v l i) = ∑ l, (a l : ℂ) * Spec.pair w (v l) := by
  simp only [Spec.pair, Complex.ofReal_sum, Complex.ofReal_mul, Finset.mul_sum]
  rw [Finset.sum_comm]
  exact Finset.sum_congr rfl fun _ _ => Finset.sum_congr rfl fun _ _ => by ring

theorem Spec.pair_add (w : Fin n → ℂ) (v v' : Fin n → ℝ) :
    Spec.pair w (fun i => v i + v' i) = Spec.pair w v + Spec.pair w v' := by
  simp only [Spec.pair, Complex.ofReal_add, mul_add, Finset.sum_add_distrib]

theorem Spec.pair_mat {w : Fin n → ℂ} {J : Fin n → Fin n → ℝ} {lam : ℂ} (hw : ∀ j, ∑ i, w i * J i j = lam * w j)
    (v : Fin n → ℝ) : Spec.pair w (fun i => ∑ j, J i j * v j) = lam * Spec.pair w v := by
  simp only [Spec.pair, Complex.ofReal_sum, Complex.ofReal_mul, Finset.mul_sum]
  rw [Finset.sum_comm]
  refine Finset.sum_congr rfl fun j _ => ?_
  rw [← mul_assoc, ← hw j, Finset.sum_mul]
  exact Finset.sum_congr rfl fun _ _ => by ring

section pass
variable {M : Spec.Transform} {c : Fin 3 → ℝ} {f : ℝ → (Fin n → ℝ) → Fin n → ℝ} {J : Fin n → Fin n → ℝ} {t h : ℝ}
  {u ue : Fin n → ℝ} {g y Δ z : Fin 3 → Fin n → ℝ} {w : Fin n → ℂ} {lam : ℂ}

theorem Spec.NewtonPass.pair (hf : ∀ t u i, f t u i = ∑ j, J i j * (u j - ue j))
    (hw : ∀ j, ∑ i, w i * J i j = lam * w j) (N : Spec.NewtonPass M c f J t h h u g y Δ z) (k : Fin 3) :
    (∑ l, (M.Lam k l : ℂ) * (Spec.pair w (g l) + Spec.pair w (Δ l)) - h * lam * Spec.pair w (Δ k) =
      h * lam * ∑ l, (M.TI k l : ℂ) * (Spec.pair w (fun i => u i - ue i) + Spec.pair w (y l))) ∧
    Spec.pair w (z k) = ∑ l, (M.T k l : ℂ) * (Spec.pair w (g l) + Spec.pair w (Δ l)) := by
  constructor
  · have e1 := Spec.pair_sum w (M.Lam k) (fun l i => g l i + Δ l i)
    have e2 := Spec.pair_mat hw (Δ k)
    have e3 := Spec.pair_sum w (M.TI k) (fun l i => f (t + c l * h) (u + y l) i)
    have e4 : ∀ l, Spec.pair w (fun i => f (t + c l * h) (u + y l) i) =
        lam * (Spec.pair w (fun i => u i - ue i) + Spec.pair w (y l)) := by
      intro l
      rw [← Spec.pair_add, ← Spec.pair_mat hw]
      congr 1
      funext i
      rw [hf]
      exact Finset.sum_congr rfl fun j _ => by rw [Pi.add_apply]; ring
    have key : Spec.pair w (fun i => ∑ l, M.Lam k l * (g l i + Δ l i)) - h * Spec.pair w (fun i => ∑ j, J i j * Δ k j) =
        h * Spec.pair w (fun i => ∑ l, M.TI k l * f (t + c l * h) (u + y l) i) := by
      simp only [Spec.pair, Finset.mul_sum, ← Finset.sum_sub_distrib]
      refine Finset.sum_congr rfl fun i _ => ?_
      have := congrArg (fun x : ℝ => (x : ℂ)) (N.system k i)
      simp only [Complex.ofReal_sub, Complex.ofReal_mul] at this
      rw [← mul_assoc, mul_comm (h : ℂ), mul_assoc, ← mul_sub, this]
      ring
    rw [e1, e2, e3] at key
    simp only [Spec.pair_add, e4] at key
    rw [mul_assoc (h : ℂ), key, mul_assoc (h : ℂ), Finset.mul_sum (a := lam)]
    congr 1
    exact Finset.sum_congr rfl fun _ _ => by ring
  · have : z k = fun i => ∑ l, M.T k l * (g l i + Δ l i) := funext fun i => N.result k i
    rw [this, Spec.pair_sum]
    simp only [Spec.pair_add]

end pass

/-- The row sums of `TI`. -/
abbrev rowTI (k : Fin 3) : ℝ := ∑ l, Radau.codeTransform.TI k l

theorem code_consts : RadauR.Consts Radau.codeTransform.γ Radau.codeTransform.α Radau.codeTransform.β
    (Radau.codeTransform.T 2 0) (rowTI 0) (rowTI 1) (rowTI 2) := by
  constructor <;>
    simp only [rowTI, Fin.sum_univ_three, Radau.codeTransform, Matrix.of_apply, Matrix.cons_val, Matrix.cons_val_zero,
      Matrix.cons_val_one, Radau.T31, Radau.TI11, Radau.TI12, Radau.TI13,
      Radau.TI21, Radau.TI22, Radau.TI23, Radau.TI31, Radau.TI32, Radau.TI33, Radau.U1, Radau.ALPHA, Radau.BETA] <;>
    norm_num [abs_le]

section modes
variable {f : ℝ → (Fin n → ℝ) → Fin n → ℝ} {J : Fin n → Fin n → ℝ} {t h : ℝ}
  {u ue : Fin n → ℝ} {g y Δ z : Fin 3 → Fin n → ℝ} {w : Fin n → ℂ} {lam : ℂ}

/-- The defect of the transformed increments. -/
def defect (w : Fin n → ℂ) (g y : Fin 3 → Fin n → ℝ) (k : Fin 3) : ℂ :=
  ∑ l, (Radau.codeTransform.TI k l : ℂ) * Spec.pair w (y l) - Spec.pair w (g k)

theorem mode_eqs (hf : ∀ t u i, f t u i = ∑ j, J i j * (u j - ue j)) (hw : ∀ j, ∑ i, w i * J i j = lam * w j)
    (N : Spec.NewtonPass Radau.codeTransform Radau.codeC f J t h h u g y Δ z) :
    RadauR.Eqs Radau.codeTransform.γ Radau.codeTransform.α Radau.codeTransform.β (rowTI 0) (rowTI 1) (rowTI 2) (h * lam)
      (Spec.pair w fun i => u i - ue i) (defect w g y 0) (defect w g y 1) (defect w g y 2)
      (Spec.pair w (g 0) + Spec.pair w (Δ 0)) (Spec.pair w (g 1) + Spec.pair w (Δ 1))
      (Spec.pair w (g 2) + Spec.pair w (Δ 2)) := by
  have h0 := (N.pair hf hw 0).1
  have h1 := (N.pair hf hw 1).1
  have h2 := (N.pair hf hw 2).1
  simp only [Fin.sum_univ_three, Spec.Transform.Lam, Matrix.of_apply, Matrix.cons_val, Matrix.cons_val_zero,
    Matrix.cons_val_one, Complex.ofReal_zero, Complex.ofReal_neg, zero_mul, add_zero, zero_add] at h0 h1 h2
  constructor <;> simp only [rowTI, defect, Fin.sum_univ_three, Complex.ofReal_add]
  · linear_combination h0
  · linear_combination h1
  · linear_combination h2

theorem mode_result (hf : ∀ t u i, f t u i = ∑ j, J i j * (u j - ue j)) (hw : ∀ j, ∑ i, w i * J i j = lam * w j)
    (N : Spec.NewtonPass Radau.codeTransform Radau.codeC f J t h h u g y Δ z) :
    Spec.pair w (fun i => (u + z 2) i - ue i) = Spec.pair w (fun i => u i - ue i) +
      ((Radau.codeTransform.T 2 0 : ℝ) * (Spec.pair w (g 0) + Spec.pair w (Δ 0)) +
        (Spec.pair w (g 1) + Spec.pair w (Δ 1))) := by
  have h2 := (N.pair hf hw 2).2
  have e : (fun i => (u + z 2) i - ue i) = fun i => (u i - ue i) + z 2 i := by
    funext i; rw [Pi.add_apply]; ring
  rw [e, Spec.pair_add, h2, Fin.sum_univ_three]
  simp [Radau.codeTransform]

theorem NewtonIter.defect (hf : ∀ t u i, f t u i = ∑ j, J i j * (u j - ue j))
    (hw : ∀ j, ∑ i, w i * J i j = lam * w j) (hl : ((h : ℂ) * lam).re ≤ 0)
    (I : Spec.NewtonIter Radau.codeTransform Radau.codeC f J t h h u g y) (k : Fin 3) :
    ‖defect w g y k‖ ≤ 1e-16 * ‖Spec.pair w fun i => u i - ue i‖ := by
  induction I generalizing k with
  | @start g y hs =>
    have : Cyphus.defect w g y k = 0 := by
      have : g k = fun i => ∑ l, Radau.codeTransform.TI k l * y l i := funext fun i => hs k i
      rw [Cyphus.defect, this, Spec.pair_sum, sub_self]
    rw [this, norm_zero]
    positivity
  | @pass g y Δ z I N ih =>
    obtain ⟨⟨b0, b1, b2⟩, -⟩ := (mode_eqs hf hw N).bound code_consts hl (c := 1e-16) (by norm_num) (ih 0) (ih 1) (ih 2)
    obtain ⟨-, -, -, hT⟩ := C43_constants
    have r0 := (N.pair hf hw 0).2
    have r1 := (N.pair hf hw 1).2
    have r2 := (N.pair hf hw 2).2
    have e : Cyphus.defect w (fun k i => g k i + Δ k i) z k = ∑ l, (((Radau.codeTransform.TI * Radau.codeTransform.T) k l -
        (1 : Matrix (Fin 3) (Fin 3) ℝ) k l : ℝ) : ℂ) * (Spec.pair w (g l) + Spec.pair w (Δ l)) := by
      simp only [Cyphus.defect, Spec.pair_add, Fin.sum_univ_three, r0, r1, r2, Matrix.mul_apply]
      fin_cases k <;> simp [Matrix.one_apply] <;> ring
    rw [e]
    set V := ‖Spec.pair w fun i => u i - ue i‖
    have hb : ∀ l, ‖Spec.pair w (g l) + Spec.pair w (Δ l)‖ ≤ 120 * V := by
      intro l; fin_cases l <;> assumption
    calc _ ≤ ∑ l, ‖(((Radau.codeTransform.TI * Radau.codeTransform.T) k l -
        (1 : Matrix (Fin 3) (Fin 3) ℝ) k l : ℝ) : ℂ) * (Spec.pair w (g l) + Spec.pair w (Δ l))‖ := norm_sum_le _ _
      _ ≤ ∑ l : Fin 3, 1e-19 * (120 * V) := by
        refine Finset.sum_le_sum fun l _ => ?_
        rw [norm_mul, Complex.norm_real, Real.norm_eq_abs]
        exact mul_le_mul (hT k l) (hb l) (norm_nonneg _) (by norm_num)
      _ ≤ _ := by
        simp only [Finset.sum_const, Finset.card_univ, Fintype.card_fin, nsmul_eq_mul]
        have : 0 ≤ V := norm_nonneg _
        norm_num
        nlinarith

/-- A step with its own step size in the iteration matrix. -/
theorem mode_step (hf : ∀ t u i, f t u i = ∑ j, J i j * (u j - ue j)) (hw : ∀ j, ∑ i, w i * J i j = lam * w j)
    (hl : ((h : ℂ) * lam).re ≤ 0) (I : Spec.NewtonIter Radau.codeTransform Radau.codeC f J t h h u g y)
    (N : Spec.NewtonPass Radau.codeTransform Radau.codeC f J t h h u g y Δ z) :
    ‖Spec.pair w (fun i => (u + z 2) i - ue i) - Spec.radauR (h * lam) * Spec.pair w (fun i => u i - ue i)‖ ≤
      1e-10 * ‖Spec.pair w fun i => u i - ue i‖ := by
  rw [mode_result hf hw N]
  exact (mode_eqs hf hw N).stability code_consts hl (NewtonIter.defect hf hw hl I 0) (NewtonIter.defect hf hw hl I 1)
    (NewtonIter.defect hf hw hl I 2)

theorem mode_decay {v : Fin n → ℝ} {μ : ℝ} (hf : ∀ t u i, f t u i = ∑ j, J i j * (u j - ue j))
    (hw : ∀ j, ∑ i, v i * J i j = μ * v j)
    (hl : h * μ ≤ 0) (I : Spec.NewtonIter Radau.codeTransform Radau.codeC f J t h h u g y)
    (N : Spec.NewtonPass Radau.codeTransform Radau.codeC f J t h h u g y Δ z) :
    ∃ q, -1e-12 ≤ q ∧ q ≤ 1 ∧ ∑ i, v i * ((u + z 2) i - ue i) = q * ∑ i, v i * (u i - ue i) := by
  have hw' : ∀ j, ∑ i, (v i : ℂ) * J i j = (μ : ℂ) * v j := by
    intro j
    have := congrArg (fun x : ℝ => (x : ℂ)) (hw j)
    push_cast at this
    exact this
  have hl' : ((h : ℂ) * (μ : ℂ)).re ≤ 0 := by
    rw [← Complex.ofReal_mul, Complex.ofReal_re]; exact hl
  have E := mode_eqs hf hw' N
  have e0 : (h : ℂ) * (μ : ℂ) = ((-(-(h * μ)) : ℝ) : ℂ) := by push_cast; ring
  have ep : ∀ x : Fin n → ℝ, Spec.pair (fun i => (v i : ℂ)) x = ((∑ i, v i * x i : ℝ) : ℂ) := by
    intro x; simp [Spec.pair]
  have D0 := NewtonIter.defect hf hw' hl' I 0
  have D1 := NewtonIter.defect hf hw' hl' I 1
  have D2 := NewtonIter.defect hf hw' hl' I 2
  rw [e0] at E
  obtain ⟨q, δ, h1, h2, h3⟩ := E.decay code_consts (by linarith) D0 D1 D2
  rw [← mode_result hf hw' N] at h1
  simp only [ep] at h1
  set A := ∑ i, v i * ((u + z 2) i - ue i)
  set B := ∑ i, v i * (u i - ue i)
  rw [← Complex.ofReal_mul, ← Complex.ofReal_sub, Complex.norm_real, Complex.norm_real, Real.norm_eq_abs,
    Real.norm_eq_abs] at h1
  by_cases hB : B = 0
  · refine ⟨0, by norm_num, by norm_num, ?_⟩
    rw [hB] at h1
    simp at h1
    rw [h1, zero_mul]
  · refine ⟨A / B, ?_, ?_, by field_simp⟩
    all_goals
      have h4 : |A / B - q| ≤ δ := by
        have : A / B - q = (A - q * B) / B := by field_simp
        rw [this, abs_div, div_le_iff₀ (abs_pos.2 hB)]
        exact h1
      have := abs_le.1 h4
      linarith

end modes

/-! ### Steps -/

variable {b : Builder X n P} {f : ℝ → (Fin n → ℝ) → Fin n → ℝ} {J : Fin n → Fin n → ℝ} {u0 ue : Fin n → ℝ}
  {C : Radau.Clock} {s0 s s' : Radau.St X n P} {k : ℕ} {o : Option ℕ} {w : Fin n → ℂ} {lam : ℂ}

/-- Steps of forward runs are positive. -/
theorem radau_forward (T : Radau.Timed C b) (hS : C.Sane) (ht : C.t0 ≤ C.tf) (hb : b.build Radau.alg = .ok s0)
    (hs : SomeSteps Radau.alg none k s0 s) (h : StepReturns Radau.alg none s o s')
    (ha : s'.sol.retcode = .Continue ∨ s'.sol.retcode = .Success) {t h' : ℝ} (h1 : s.t = fin t)
    (h2 : s'.t = fin (t + h')) : 0 < h' := by
  obtain ⟨hr, t1, g1, hI⟩ := T.run hb hs
  obtain ⟨⟨fuel, hst⟩, -⟩ := stepReturns_none_iff.1 h
  obtain ⟨g, g', T'⟩ | hc := hI.run_step hr hst
  · have p1 := (T'.pos ⟨hS, ht⟩).1
    have e1 : t = t1 := fin_inj.1 (h1.symm.trans hI.time)
    have e2 : t + h' = t1 + g := fin_inj.1 (h2.symm.trans T'.idle.time)
    linarith
  · obtain ha | ha := ha
    · exact absurd ha hc.1
    · exact absurd ha hc.2

/-- What a step with a new decomposition does when the Jacobian is constant. -/
theorem radau_linear (R : Radau.RealProblem b f (fun _ _ => J) u0) (T : Radau.Timed C b) (hS : C.Sane)
    (ht : C.t0 ≤ C.tf) (hn : n ≠ 0) (hc : Spec.FirstNotEigen (C.Sane ∧ C.t0 ≤ C.tf) J) (hb : b.build Radau.alg = .ok s0)
    (hs : SomeSteps Radau.alg none k s0 s) (h : StepReturns Radau.alg none s o s')
    (ha : s'.sol.retcode = .Continue ∨ s'.sol.retcode = .Success)
    (hd : s.stats.decompositions < s'.stats.decompositions) :
    ∃ t h u g y Δ z, s.t = fin t ∧ s.u = fv u ∧ s'.t = fin (t + h) ∧ s'.u = fv (u + z 2) ∧ 0 < h ∧
      Spec.NewtonIter Radau.codeTransform Radau.codeC f J t h h u g y ∧
      Spec.NewtonPass Radau.codeTransform Radau.codeC f J t h h u g y Δ z := by
  obtain ⟨t, h1, hf, u, J', g, y, Δ, z, S, -, hj, l, hl⟩ := radau_accepted R T hn (fun _ _ => hc) hb hs h ha
  obtain ⟨_, hi⟩ := S.idle.idle
  obtain ⟨-, e, hJ⟩ | ⟨e, -, -⟩ := S.fresh
  · obtain ⟨_, -, eJ⟩ := recorded_jac R hj hl hJ
    subst e
    subst eJ
    exact ⟨t, hf, u, g, y, Δ, z, S.time, S.state, hi.time, S.next,
      radau_forward T hS ht hb hs h ha S.time hi.time, S.iter, S.pass⟩
  · omega

/-- **C60** Linear problems `u' = J (u - ue)`, forward runs, a step for which the iteration matrix was decomposed: the
component of `u - ue` along a left eigenvector `w` of `J` with eigenvalue `λ`, `Re λ ≤ 0`, is multiplied by the stability
function `R(h λ)` of the Radau IIA method, up to a relative error of `1e-10` that does not depend on `h λ` or on the number
of Newton passes. (The error is due to the constants having 20 digits or fewer.) -/
theorem C60_stability_function_radau (R : Radau.RealProblem b f (fun _ _ => J) u0)
    (hf : ∀ t u i, f t u i = ∑ j, J i j * (u j - ue j)) (T : Radau.Timed C b) (hS : C.Sane)
    (ht : C.t0 ≤ C.tf) (hn : n ≠ 0) (hc : Spec.FirstNotEigen (C.Sane ∧ C.t0 ≤ C.tf) J) (hb : b.build Radau.alg = .ok s0)
    (hs : SomeSteps Radau.alg none k s0 s) (h : StepReturns Radau.alg none s o s')
    (ha : s'.sol.retcode = .Continue ∨ s'.sol.retcode = .Success)
    (hd : s.stats.decompositions < s'.stats.decompositions)
    (hw : ∀ j, ∑ i, w i * J i j = lam * w j) (hl : lam.re ≤ 0) :
    ∃ t h u u', s.t = fin t ∧ s.u = fv u ∧ s'.t = fin (t + h) ∧ s'.u = fv u' ∧ 0 < h ∧
      ‖Spec.pair w (fun i => u' i - ue i) - Spec.radauR (h * lam) * Spec.pair w (fun i => u i - ue i)‖ ≤
        1e-10 * ‖Spec.pair w fun i => u i - ue i‖ := by
  obtain ⟨t, h, u, g, y, Δ, z, h1, h2, h3, h4, h5, I, N⟩ := radau_linear R T hS ht hn hc hb hs h ha hd
  refine ⟨t, h, u, u + z 2, h1, h2, h3, h4, h5, mode_step hf hw ?_ I N⟩
  rw [Complex.re_ofReal_mul]
  exact mul_nonpos_of_nonneg_of_nonpos h5.le hl

/-- **C60** Real eigenvalues `λ ≤ 0`: the component is multiplied by a number in `[-1e-12, 1]`, so it does not grow,
whatever the step size, and does not change its sign by more than the rounding of the constants. -/
theorem C60_decay_radau (R : Radau.RealProblem b f (fun _ _ => J) u0)
    (hf : ∀ t u i, f t u i = ∑ j, J i j * (u j - ue j)) (T : Radau.Timed C b) (hS : C.Sane)
    (ht : C.t0 ≤ C.tf) (hn : n ≠ 0) (hc : Spec.FirstNotEigen (C.Sane ∧ C.t0 ≤ C.tf) J) (hb : b.build Radau.alg = .ok s0)
    (hs : SomeSteps Radau.alg none k s0 s) (h : StepReturns Radau.alg none s o s')
    (ha : s'.sol.retcode = .Continue ∨ s'.sol.retcode = .Success)
    (hd : s.stats.decompositions < s'.stats.decompositions) {v : Fin n → ℝ} {μ : ℝ}
    (hw : ∀ j, ∑ i, v i * J i j = μ * v j) (hl : μ ≤ 0) :
    ∃ u u' q, s.u = fv u ∧ s'.u = fv u' ∧ -1e-12 ≤ q ∧ q ≤ 1 ∧
      ∑ i, v i * (u' i - ue i) = q * ∑ i, v i * (u i - ue i) := by
  obtain ⟨t, h, u, g, y, Δ, z, h1, h2, h3, h4, h5, I, N⟩ := radau_linear R T hS ht hn hc hb hs h ha hd
  obtain ⟨q, hq⟩ := mode_decay hf hw (mul_nonpos_of_nonneg_of_nonpos h5.le hl) I N
  exact ⟨u, u + z 2, q, h2, h4, hq⟩

/-- **C60** The stability function: bounded by 1 in the left half-plane (A-stability), tends to zero at infinity
(L-stability), and approximates the exponential function with an error of order 6. -/
theorem C60_stability_function {z : ℂ} (hz : z.re ≤ 0) :
    ‖Spec.radauR z‖ ≤ 1 ∧ ‖Spec.radauR z‖ ≤ 240 / (1 + ‖z‖) ∧
      (‖z‖ ≤ 1 → ‖Spec.radauR z - Complex.exp z‖ ≤ ‖z‖ ^ 6 / 100) := by
  refine ⟨RadauR.radauR_le hz, ?_, RadauR.radauR_exp hz⟩
  have r0 := norm_nonneg z
  have h1 := RadauR.den_lower code_consts hz
  have h2 : ‖(60 : ℂ) + 24 * z + 3 * z ^ 2‖ ≤ 60 * (1 + ‖z‖) ^ 2 := by
    have := norm_add₃_le (a := (60 : ℂ)) (b := 24 * z) (c := 3 * z ^ 2)
    simp only [norm_mul, norm_pow, Complex.norm_ofNat] at this
    nlinarith [pow_nonneg r0 2]
  have h3 : 0 < ‖RadauR.den z‖ := by linarith [RadauR.den_ge hz]
  rw [RadauR.radauR_eq, norm_div, div_le_div_iff₀ h3 (by linarith)]
  nlinarith [mul_nonneg (pow_nonneg (by linarith : 0 ≤ 1 + ‖z‖) 2) (by linarith : 0 ≤ 1 + ‖z‖)]

/-- **C60** `Spec.radauR` is the stability function of the published method: for stage increments that satisfy the
equations of the method exactly, components along left eigenvectors are multiplied by it. -/
theorem C60_published {t h : ℝ} {u : Fin n → ℝ} {z : Fin 3 → Fin n → ℝ}
    (hf : ∀ t u i, f t u i = ∑ j, J i j * (u j - ue j)) (hw : ∀ j, ∑ i, w i * J i j = lam * w j)
    (hl : ((h : ℂ) * lam).re ≤ 0) (hz : Spec.IsStageIncr Spec.radauA Spec.radauC f t h u z) :
    Spec.pair w (fun i => (u + z 2) i - ue i) = Spec.radauR (h * lam) * Spec.pair w (fun i => u i - ue i) := by
  set U := Spec.pair w (fun i => u i - ue i) with hU
  have e4 : ∀ l, Spec.pair w (fun i => f (t + Spec.radauC l * h) (u + z l) i) = lam * (U + Spec.pair w (z l)) := by
    intro l
    rw [hU, ← Spec.pair_add, ← Spec.pair_mat hw]
    congr 1
    funext i
    rw [hf]
    exact Finset.sum_congr rfl fun j _ => by rw [Pi.add_apply]; ring
  have key : ∀ k, Spec.pair w (z k) = h * lam * ∑ l, (Spec.radauA k l : ℂ) * (U + Spec.pair w (z l)) := by
    intro k
    have : z k = fun i => ∑ l, (h * Spec.radauA k l) * f (t + Spec.radauC l * h) (u + z l) i := by
      funext i
      rw [hz k i, Finset.mul_sum]
      exact Finset.sum_congr rfl fun _ _ => by ring
    rw [this, Spec.pair_sum, Finset.mul_sum]
    refine Finset.sum_congr rfl fun l _ => ?_
    rw [e4]
    push_cast
    ring
  have e : (fun i => (u + z 2) i - ue i) = fun i => (u i - ue i) + z 2 i := by
    funext i; rw [Pi.add_apply]; ring
  rw [e, Spec.pair_add, ← hU]
  have k0 := key 0
  have k1 := key 1
  have k2 := key 2
  simp only [Fin.sum_univ_three] at k0 k1 k2
  clear key e4
  generalize Spec.pair w (z 0) = Z0 at *
  generalize Spec.pair w (z 1) = Z1 at *
  generalize Spec.pair w (z 2) = Z2 at *
  set x := (h : ℂ) * lam
  have hd := RadauR.den_ne hl
  rw [RadauR.radauR_eq, div_mul_eq_mul_div, eq_div_iff hd]
  have q2 : (((√6 : ℝ) : ℂ)) ^ 2 = 6 := by
    rw [← Complex.ofReal_pow, Real.sq_sqrt (by norm_num)]; norm_num
  simp only [Spec.radauA, Matrix.of_apply, Matrix.cons_val, Matrix.cons_val_zero, Matrix.cons_val_one] at k0 k1 k2
  push_cast at k0 k1 k2
  generalize ((√6 : ℝ) : ℂ) = r at *
  simp only [RadauR.den]
  have q3 : r ^ 3 = 6 * r := by rw [pow_succ, q2]
  linear_combination (norm := skip)
    60 * ((-x * ((296 + 169 * r) / 1800) * (-x * ((16 + r) / 36)) - (1 - x * ((88 + 7 * r) / 360)) * (-x * ((16 - r) / 36))) * k0 -
      ((1 - x * ((88 - 7 * r) / 360)) * (-x * ((16 + r) / 36)) - (-x * ((296 - 169 * r) / 1800)) * (-x * ((16 - r) / 36))) * k1 +
      ((1 - x * ((88 - 7 * r) / 360)) * (1 - x * ((88 + 7 * r) / 360)) -
        (-x * ((296 - 169 * r) / 1800)) * (-x * ((296 + 169 * r) / 1800))) * k2)
  ring_nf
  simp only [q2, q3]
  ring

/-! ### Runs (C61) -/

/-- A relation between the ends of all accepted steps of a run relates consecutive recorded points. -/
theorem radau_chain {jac : ℝ → (Fin n → ℝ) → Fin n → Fin n → ℝ} (R : Radau.RealProblem b f jac u0) (T : Radau.Timed C b)
    (hn : n ≠ 0) (hc : ∀ t u, Spec.FirstNotEigen (C.Sane ∧ C.t0 ≤ C.tf) (jac t u)) (hb : b.build Radau.alg = .ok s0)
    {Rel : ℝ × (Fin n → ℝ) → ℝ × (Fin n → ℝ) → Prop}
    (hr : ∀ {k : ℕ} {s s' : Radau.St X n P} {o : Option ℕ}, SomeSteps Radau.alg none k s0 s →
      StepReturns Radau.alg none s o s' → s'.sol.retcode = .Continue ∨ s'.sol.retcode = .Success →
      ∀ {p q}, s.t = fin p.1 → s.u = fv p.2 → s'.t = fin q.1 → s'.u = fv q.2 → Rel p q)
    (hs : (∃ k, SomeSteps Radau.alg none k s0 s) ∨ IntegrateReturns Radau.alg none s0 s) :
    ∃ l, Recorded s.sol l ∧ l.head? = some (C.t0, u0) ∧ l.IsChain Rel := by
  let I : Radau.St X n P → Prop := fun s => ∃ l p, Recorded s.sol l ∧ l.head? = some (C.t0, u0) ∧ l.IsChain Rel ∧
    l.getLast? = some p ∧ s.t = fin p.1 ∧ s.u = fv p.2
  have step : ∀ {k : ℕ} {s s' : Radau.St X n P} {o : Option ℕ}, SomeSteps Radau.alg none k s0 s →
      StepReturns Radau.alg none s o s' → I s → I s' := by
    rintro k s s' o hs h ⟨l, p, h1, h2, h3, h4, h5, h6⟩
    have hrd := (Radau.run_opts hb hs).1
    obtain ⟨⟨fuel, hst⟩, -⟩ := stepReturns_none_iff.1 h
    obtain ⟨-, ha | hf⟩ := Radau.step_cases hrd hst
    · obtain ⟨t, h1', hf, u, J, g, y, Δ, z, S, -⟩ := radau_accepted R T hn hc hb hs h ha.retcode
      obtain ⟨_, hi⟩ := S.idle.idle
      have := hr hs h ha.retcode (p := p) (q := (t + h1', u + z 2)) h5 h6 hi.time S.next
      refine ⟨l ++ [(t + h1', u + z 2)], (t + h1', u + z 2), ?_, ?_, ?_, by simp, hi.time, S.next⟩
      · constructor
        · rw [S.push.1, h1.1]; simp
        · rw [S.push.2, h1.2]; simp
      · rw [List.head?_append, h2]; rfl
      · rw [List.isChain_append]
        refine ⟨h3, by simp, fun x hx y hy => ?_⟩
        rw [h4] at hx
        cases hx
        simp at hy
        rw [← hy]
        exact this
    · exact ⟨l, p, ⟨hf.frame.ts ▸ h1.1, hf.frame.us ▸ h1.2⟩, h2, h3, h4, hf.frame.t ▸ h5, hf.frame.u ▸ h6⟩
  have some : ∀ {k : ℕ} {s : Radau.St X n P}, SomeSteps Radau.alg none k s0 s → I s := by
    intro k s hs
    refine (SomeSteps.induct (alg := Radau.alg)
      (I := fun _ s => (∃ k, SomeSteps Radau.alg none k s0 s) ∧ I s) ?_ ?_ hs).2
    · refine ⟨⟨0, .zero (alg := Radau.alg) s0⟩, [(C.t0, u0)], (C.t0, u0), ?_, rfl, by simp, rfl, ?_, ?_⟩
      · obtain ⟨h1, h2, -⟩ := Radau.build_fields hb
        exact ⟨by rw [h1, T.t]; rfl, by rw [h2, R.u]; rfl⟩
      · rw [← Res.ok.inj hb]; exact T.t
      · rw [← Res.ok.inj hb]; exact R.u
    · rintro k s o s' ⟨⟨k, h0⟩, hj⟩ h1
      exact ⟨⟨k + 1, .succ (alg := Radau.alg) h0 h1⟩, step h0 h1 hj⟩
  have fin : I s := by
    rcases hs with ⟨k, hs⟩ | hs
    · exact some hs
    · obtain ⟨k, s1, h1, h2⟩ := (integrate_iff Radau.fuelMono).1 hs
      exact step h1 h2 (some h1)
  obtain ⟨l, p, h1, h2, h3, -⟩ := fin
  exact ⟨l, h1, h2, h3⟩

/-- One step of the error analysis. -/
theorem mode_error {U U' V : ℂ} {τ h ε a K c : ℝ} (hl : lam.re ≤ 0) (h0 : 0 < h) (hε : h * ‖lam‖ ≤ ε) (hε1 : ε ≤ 1)
    (hs : ‖U' - Spec.radauR (h * lam) * U‖ ≤ 1e-10 * ‖U‖) (ha : a = ε ^ 5 * ‖lam‖ / 100) (hK : ‖U‖ ≤ K)
    (he : ‖U - Complex.exp (τ * lam) * V‖ ≤ (a * τ + 1e-10 * c) * K) (hc : 0 ≤ c) (hτ : 0 ≤ τ) :
    ‖U'‖ ≤ (1 + 1e-10) * K ∧
      ‖U' - Complex.exp (((τ + h : ℝ) : ℂ) * lam) * V‖ ≤ (a * (τ + h) + 1e-10 * (c + 1)) * ((1 + 1e-10) * K) := by
  have K0 : 0 ≤ K := (norm_nonneg _).trans hK
  have n0 := norm_nonneg lam
  have ε0 : 0 ≤ ε := (mul_nonneg h0.le n0).trans hε
  have hx : ((h : ℂ) * lam).re ≤ 0 := by
    rw [Complex.re_ofReal_mul]; exact mul_nonpos_of_nonneg_of_nonpos h0.le hl
  have hn : ‖(h : ℂ) * lam‖ = h * ‖lam‖ := by rw [norm_mul, Complex.norm_real, Real.norm_eq_abs, abs_of_pos h0]
  have hR := RadauR.radauR_le hx
  have hE := RadauR.radauR_exp hx (by rw [hn]; linarith)
  constructor
  · have : ‖U'‖ ≤ ‖U' - Spec.radauR (h * lam) * U‖ + ‖Spec.radauR (h * lam) * U‖ := by
      simpa using norm_add_le (U' - Spec.radauR (h * lam) * U) (Spec.radauR (h * lam) * U)
    rw [norm_mul] at this
    nlinarith [mul_le_mul_of_nonneg_right hR (norm_nonneg U)]
  · have e : U' - Complex.exp (((τ + h : ℝ) : ℂ) * lam) * V = (U' - Spec.radauR (h * lam) * U) +
        (Spec.radauR (h * lam) - Complex.exp (h * lam)) * U +
        Complex.exp (h * lam) * (U - Complex.exp (τ * lam) * V) := by
      have : Complex.exp (((τ + h : ℝ) : ℂ) * lam) = Complex.exp (h * lam) * Complex.exp (τ * lam) := by
        rw [← Complex.exp_add]; congr 1; push_cast; ring
      rw [this]; ring
    have h6 : ‖(h : ℂ) * lam‖ ^ 6 / 100 ≤ a * h := by
      rw [hn, ha, pow_succ]
      have : (h * ‖lam‖) ^ 5 ≤ ε ^ 5 := pow_le_pow_left₀ (mul_nonneg h0.le n0) hε 5
      nlinarith [mul_le_mul_of_nonneg_right this (mul_nonneg h0.le n0)]
    have he1 : ‖Complex.exp ((h : ℂ) * lam)‖ ≤ 1 := by
      rw [Complex.norm_exp]; exact Real.exp_le_one_iff.2 hx
    have a0 : 0 ≤ a := by rw [ha]; positivity
    rw [e]
    calc _ ≤ ‖U' - Spec.radauR (h * lam) * U‖ + ‖(Spec.radauR (h * lam) - Complex.exp (h * lam)) * U‖ +
          ‖Complex.exp (h * lam) * (U - Complex.exp (τ * lam) * V)‖ := norm_add₃_le
      _ ≤ 1e-10 * K + (a * h) * K + 1 * ((a * τ + 1e-10 * c) * K) := by
        rw [norm_mul, norm_mul]
        refine add_le_add (add_le_add ?_ ?_) ?_
        · exact hs.trans (mul_le_mul_of_nonneg_left hK (by norm_num))
        · exact mul_le_mul (hE.trans h6) hK (norm_nonneg _) (by positivity)
        · exact mul_le_mul he1 he (norm_nonneg _) (by norm_num)
      _ = (a * (τ + h) + 1e-10 * (c + 1)) * K := by ring
      _ ≤ _ := by
        refine mul_le_mul_of_nonneg_left (by linarith) (by positivity)

/-- **C61** Convergence on linear problems `u' = J (u - ue)`, forward runs in which every step is either decomposed anew or
has the step size proposed by the step before (see C44). Let `w` be a left eigenvector of `J` with eigenvalue `λ`,
`Re λ ≤ 0`. The exact value of `w · (u - ue)` at time `t` is `exp((t - t0) λ)` times the initial value. If the recorded
steps satisfy `h |λ| ≤ ε ≤ 1`, the value at the `i`-th recorded point differs from the exact one by at most
`ε⁵ |λ| (t - t0) / 100`, relative to the initial value, plus the effect `i · 1e-10` of the constants. -/
theorem C61_linear_convergence_radau (R : Radau.RealProblem b f (fun _ _ => J) u0)
    (hf : ∀ t u i, f t u i = ∑ j, J i j * (u j - ue j)) (T : Radau.Timed C b) (hS : C.Sane)
    (ht : C.t0 ≤ C.tf) (hn : n ≠ 0) (hc : Spec.FirstNotEigen (C.Sane ∧ C.t0 ≤ C.tf) J) (hb : b.build Radau.alg = .ok s0)
    (hd : ∀ k s o s', SomeSteps Radau.alg none k s0 s → StepReturns Radau.alg none s o s' →
      s'.sol.retcode = .Continue ∨ s'.sol.retcode = .Success →
      s.stats.decompositions < s'.stats.decompositions ∨ s'.dtprev = s.dt)
    (hs : (∃ k, SomeSteps Radau.alg none k s0 s) ∨ IntegrateReturns Radau.alg none s0 s)
    (hw : ∀ j, ∑ i, w i * J i j = lam * w j) (hl : lam.re ≤ 0) {ε : ℝ} (hε : ε ≤ 1) :
    ∃ l, Recorded s.sol l ∧ (l.IsChain (fun p q => (q.1 - p.1) * ‖lam‖ ≤ ε) → ∀ (i : ℕ) (hi : i < l.length),
      ‖Spec.pair w (fun j => l[i].2 j - ue j) -
          Complex.exp (((l[i].1 - C.t0 : ℝ) : ℂ) * lam) * Spec.pair w (fun j => u0 j - ue j)‖ ≤
        (ε ^ 5 * ‖lam‖ / 100 * (l[i].1 - C.t0) + 1e-10 * i) *
          ((1 + 1e-10) ^ i * ‖Spec.pair w fun j => u0 j - ue j‖)) := by
  obtain ⟨l, h1, h2, h3⟩ := radau_chain R T hn (fun _ _ => hc) hb
    (Rel := fun p q => 0 < q.1 - p.1 ∧ ‖Spec.pair w (fun j => q.2 j - ue j) -
      Spec.radauR (((q.1 - p.1 : ℝ) : ℂ) * lam) * Spec.pair w (fun j => p.2 j - ue j)‖ ≤
        1e-10 * ‖Spec.pair w fun j => p.2 j - ue j‖)
    (by
      intro k s s' o hs h ha p q e1 e2 e3 e4
      obtain ⟨l, hl', t, h1, u, J', g, y, Δ, z, g1, g2, g3, g4, I, N, _, -, rfl⟩ :=
        C44_undisturbed_radau R T hn (fun _ _ => hc) hb hd hs h ha
      have p0 := radau_forward T hS ht hb hs h ha g1 g3
      have e1 : p.1 = t := fin_inj.1 (e1.symm.trans g1)
      have e3 : q.1 = t + h1 := fin_inj.1 (e3.symm.trans g3)
      have e2 : p.2 = u := funext fun i => fin_inj.1 (congrFun (e2.symm.trans g2) i)
      have e4 : q.2 = u + z 2 := funext fun i => fin_inj.1 (congrFun (e4.symm.trans g4) i)
      have e : q.1 - p.1 = h1 := by rw [e1, e3]; ring
      rw [e, e2, e4]
      refine ⟨p0, mode_step hf hw ?_ I N⟩
      rw [Complex.re_ofReal_mul]
      exact mul_nonpos_of_nonneg_of_nonpos p0.le hl) hs
  refine ⟨l, h1, fun hgap i hi => ?_⟩
  rw [List.isChain_iff_getElem] at h3 hgap
  have h0 : ∀ hi : 0 < l.length, l[0] = (C.t0, u0) := by
    intro hi
    rw [List.head?_eq_getElem?, List.getElem?_eq_getElem hi] at h2
    exact Option.some.inj h2
  have key : ∀ (i : ℕ) (hi : i < l.length), 0 ≤ l[i].1 - C.t0 ∧
      ‖Spec.pair w (fun j => l[i].2 j - ue j)‖ ≤ (1 + 1e-10) ^ i * ‖Spec.pair w fun j => u0 j - ue j‖ ∧
      ‖Spec.pair w (fun j => l[i].2 j - ue j) -
          Complex.exp (((l[i].1 - C.t0 : ℝ) : ℂ) * lam) * Spec.pair w (fun j => u0 j - ue j)‖ ≤
        (ε ^ 5 * ‖lam‖ / 100 * (l[i].1 - C.t0) + 1e-10 * i) *
          ((1 + 1e-10) ^ i * ‖Spec.pair w fun j => u0 j - ue j‖) := by
    intro i
    induction i with
    | zero =>
      intro hi
      rw [h0 hi]
      simp
    | succ i ih =>
      intro hi
      obtain ⟨i1, i2, i3⟩ := ih (by omega)
      obtain ⟨r1, r2⟩ := h3 i hi
      have r3 := hgap i hi
      obtain ⟨k1, k2⟩ := mode_error hl r1 r3 hε r2 rfl i2 i3 (Nat.cast_nonneg _) i1
      have e : l[i].1 - C.t0 + (l[i + 1].1 - l[i].1) = l[i + 1].1 - C.t0 := by ring
      rw [e] at k2
      refine ⟨by linarith, ?_, ?_⟩
      · rw [pow_succ]; refine k1.trans (le_of_eq ?_); ring
      · refine k2.trans (le_of_eq ?_)
        rw [pow_succ]; push_cast; ring
  exact (key i hi).2.2

end
end Cyphus
