import Verif.Props.RadauDecay
import Verif.Props.RadauConverge
import Verif.Props.RadauLaw
/-!
# Attempts of `Radau5` with small steps are accepted

For a bounded right-hand side and a bounded Jacobian.
-/

namespace Cyphus
open X
set_option autoImplicit false
set_option linter.unusedSectionVars false

namespace Radau
noncomputable section
variable {n : ℕ} {P : Type}

/-! ### The Newton increments and the error estimate of a small step -/

theorem row_le {W : Matrix (_root_.Fin 3) (_root_.Fin 3) ℝ} {κ : ℝ} {k : _root_.Fin 3} (hW : |W k 0| + |W k 1| + |W k 2| ≤ κ)
    {v : _root_.Fin 3 → _root_.Fin n → ℝ} {D : ℝ} (hv : ∀ l, ‖v l‖ ≤ D) : ‖∑ l, W k l • v l‖ ≤ κ * D := by
  have hD : 0 ≤ D := (norm_nonneg _).trans (hv 0)
  have h1 : ∀ l, ‖W k l • v l‖ ≤ |W k l| * D := fun l => by
    rw [norm_smul, Real.norm_eq_abs]
    exact mul_le_mul_of_nonneg_left (hv l) (abs_nonneg _)
  rw [Fin.sum_univ_three]
  have h2 := norm_add_le_of_le (norm_add_le_of_le (h1 0) (h1 1)) (h1 2)
  have h3 := mul_le_mul_of_nonneg_right hW hD
  linarith

theorem code_rows (k : _root_.Fin 3) :
    |codeTransform.TI k 0| + |codeTransform.TI k 1| + |codeTransform.TI k 2| ≤ 6 ∧
    |codeTransform.T k 0| + |codeTransform.T k 1| + |codeTransform.T k 2| ≤ 2 ∧
    |codeTransform.LamInv k 0| + |codeTransform.LamInv k 1| + |codeTransform.LamInv k 2| ≤ 1 / 2 := by
  refine ⟨?_, ?_, ?_⟩
  · fin_cases k <;> simp [codeTransform, TI11, TI12, TI13, TI21, TI22, TI23, TI31, TI32, TI33] <;>
      norm_num [abs_of_neg, abs_of_pos]
  · fin_cases k <;> simp [codeTransform, T11, T12, T13, T21, T22, T23, T31] <;> norm_num [abs_of_neg, abs_of_pos]
  · fin_cases k <;> simp [codeTransform, Spec.Transform.LamInv, U1, ALPHA, BETA] <;> norm_num [abs_of_neg, abs_of_pos]

variable {f : ℝ → (_root_.Fin n → ℝ) → _root_.Fin n → ℝ} {J : _root_.Fin n → _root_.Fin n → ℝ} {t h M B : ℝ}
  {u : _root_.Fin n → ℝ} {g y Δ z : _root_.Fin 3 → _root_.Fin n → ℝ}

/-- The first pass of the iteration, started from zero. -/
theorem first_pass (hM : ∀ t u i, |f t u i| ≤ M) (hJ : ∀ i, ∑ j, |J i j| ≤ B) (M0 : 0 ≤ M) (B0 : 0 ≤ B) (h0 : 0 ≤ h)
    (hB : 30 * B * h ≤ 1) (N : Spec.NewtonPass codeTransform codeC f J t h h u g y Δ z) (hg : g = 0) :
    (∀ k i, |Δ k i| ≤ 3.1 * M * h) ∧ ∀ k i, |z k i| ≤ 6.2 * M * h := by
  have hf : ∀ t u, ‖f t u‖ ≤ M := fun t u => (pi_norm_le_iff_of_nonneg M0).2 (hM t u)
  set D := ‖Δ‖ with hD
  have hD0 : 0 ≤ D := norm_nonneg _
  have hΔ : ∀ k, ‖Δ k‖ ≤ D := fun k => norm_le_pi_norm Δ k
  have h1 : ∀ k, ‖Δ k‖ ≤ h * (1 / 2 * (6 * M + B * D)) := by
    intro k
    have e := Conv.pass_inner code_bounds N k
    rw [hg] at e
    rw [show Δ k = (0 : _root_.Fin 3 → _root_.Fin n → ℝ) k + Δ k by simp, e, norm_smul, Real.norm_eq_abs, abs_of_nonneg h0]
    refine mul_le_mul_of_nonneg_left (row_le (code_rows k).2.2 fun l => ?_) h0
    refine norm_add_le_of_le (row_le (code_rows l).1 fun m => hf _ _) ((Conv.app_le hJ _).trans ?_)
    exact mul_le_mul_of_nonneg_left (hΔ l) B0
  have h2 : D ≤ h * (1 / 2 * (6 * M + B * D)) := (pi_norm_le_iff_of_nonneg (by positivity)).2 h1
  have h3 : B * h * D ≤ 1 / 30 * D := mul_le_mul_of_nonneg_right (by linarith) hD0
  have h4 : D ≤ 3.1 * M * h := by
    have : 0 ≤ M * h := mul_nonneg M0 h0
    nlinarith
  constructor
  · exact fun k i => ((norm_le_pi_norm (Δ k) i).trans (hΔ k)).trans h4
  · intro k i
    refine (norm_le_pi_norm (z k) i).trans ?_
    have := Conv.pass_result N k
    rw [this, hg]
    refine (row_le (code_rows k).2.1 (D := D) fun l => by simpa using hΔ l).trans ?_
    linarith

theorem radauE_sum : |Spec.radauE 0| + |Spec.radauE 1| + |Spec.radauE 2| ≤ 12 := by
  obtain ⟨h1, h2⟩ := sqrt6_bounds
  have e0 : |Spec.radauE 0| = (13 + 7 * √6) / 3 := by
    simp only [Spec.radauE, Matrix.cons_val_zero]
    rw [abs_of_neg (by linarith)]; ring
  have e1 : |Spec.radauE 1| = (-13 + 7 * √6) / 3 := by
    simp only [Spec.radauE, Matrix.cons_val]
    rw [abs_of_pos (by linarith)]
  have e2 : |Spec.radauE 2| = 1 / 3 := by
    simp [Spec.radauE, abs_of_neg]
    norm_num
  rw [e0, e1, e2]
  linarith

/-- The error estimate. -/
theorem est_small {d e : _root_.Fin n → ℝ} (hd : ∀ i, |d i| ≤ M) (hJ : ∀ i, ∑ j, |J i j| ≤ B) (M0 : 0 ≤ M) (B0 : 0 ≤ B) (h0 : 0 < h)
    (hB : 30 * B * h ≤ 1) (hz : ∀ k i, |z k i| ≤ 6.2 * M * h) (he : Spec.IsErrEstimate U1 h h J d z e) (i : _root_.Fin n) :
    |e i| ≤ 22 * M * h := by
  have hU : (3.6 : ℝ) ≤ U1 := by unfold U1; norm_num
  have key : ∀ i, 3.6 * |e i| ≤ h * (M + 12 * (6.2 * M) + B * ‖e‖) := by
    intro i
    have e1 : U1 * e i = h * (d i + (∑ k, Spec.radauE k * z k i) / h + Conv.app J e i) := by
      have := he i
      rw [Conv.app, ← this]
      field_simp
      ring
    have e2 : |(∑ k, Spec.radauE k * z k i) / h| ≤ 12 * (6.2 * M) := by
      rw [abs_div, abs_of_pos h0, div_le_iff₀ h0, Fin.sum_univ_three]
      have h1 : ∀ k, |Spec.radauE k * z k i| ≤ |Spec.radauE k| * (6.2 * M * h) := fun k => by
        rw [abs_mul]; exact mul_le_mul_of_nonneg_left (hz k i) (abs_nonneg _)
      have h2 := abs_add_three (Spec.radauE 0 * z 0 i) (Spec.radauE 1 * z 1 i) (Spec.radauE 2 * z 2 i)
      have h3 := mul_le_mul_of_nonneg_right radauE_sum (show 0 ≤ 6.2 * M * h by positivity)
      linarith [h1 0, h1 1, h1 2]
    have e3 : |Conv.app J e i| ≤ B * ‖e‖ := (norm_le_pi_norm (Conv.app J e) i).trans (Conv.app_le hJ e)
    have e4 : |U1 * e i| ≤ h * (M + 12 * (6.2 * M) + B * ‖e‖) := by
      rw [e1, abs_mul, abs_of_pos h0]
      refine mul_le_mul_of_nonneg_left ?_ h0.le
      have := abs_add_three (d i) ((∑ k, Spec.radauE k * z k i) / h) (Conv.app J e i)
      linarith [hd i]
    rw [abs_mul, abs_of_pos (by linarith : (0:ℝ) < U1)] at e4
    exact (mul_le_mul_of_nonneg_right hU (abs_nonneg _)).trans e4
  have hn : ‖e‖ ≤ h * (M + 12 * (6.2 * M) + B * ‖e‖) / 3.6 := by
    refine (pi_norm_le_iff_of_nonneg (by positivity)).2 fun i => ?_
    rw [le_div_iff₀ (by norm_num), Real.norm_eq_abs, mul_comm]
    exact key i
  refine (norm_le_pi_norm e i).trans ?_
  have h3 : B * h * ‖e‖ ≤ 1 / 30 * ‖e‖ := mul_le_mul_of_nonneg_right (by linarith) (norm_nonneg _)
  rw [le_div_iff₀ (by norm_num)] at hn
  have : 0 ≤ M * h := by positivity
  nlinarith

/-! ### The factor of the convergence test -/

/-- The factor with which the next iteration starts is at most 99. -/
def FacOk (s : St X n P) : Prop := ∃ x, Fl.max s.cache.faccon Fl.eps = fin x ∧ 0 < x ∧ x ≤ 99

theorem FacOk.of_le {s : St X n P} {y : ℝ} (h : s.cache.faccon = fin y) (hy : y ≤ 99) : FacOk s := by
  refine ⟨max y Fl.eps, by rw [h, eps_fin, max_fin], lt_max_of_lt_right RealFl.eps_pos, max_le hy ?_⟩
  exact le_trans (b := (1:ℝ)) (by rw [show (Fl.eps : ℝ) = 2 ^ (-52 : ℤ) from rfl]; norm_num) (by norm_num)

theorem FacOk.congr {s s' : St X n P} (H : FacOk s) (h : s'.cache.faccon = s.cache.faccon) : FacOk s' := by
  unfold FacOk; rw [h]; exact H

theorem faccon_init (s : St X n P) : (newtonInit s).cache.faccon = Fl.powf (Fl.max s.cache.faccon Fl.eps) 0.8 := by
  simp only [newtonInit, prepare_newton]; split <;> rfl

theorem FacOk.start {s : St X n P} (H : FacOk s) : ∃ x, (newtonInit s).cache.faccon = fin x ∧ 0 < x ∧ x ≤ 40 := by
  obtain ⟨x, hx, x0, x1⟩ := H
  refine ⟨x ^ (0.8 : ℝ), ?_, by positivity, ?_⟩
  · rw [faccon_init, hx, X.sci, powf_fin x0]
  · refine (Real.rpow_le_rpow x0.le x1 (by norm_num)).trans ?_
    rw [← Real.rpow_le_rpow_iff (z := 5) (by positivity) (by norm_num) (by norm_num), ← Real.rpow_mul (by norm_num)]
    norm_num

theorem faccon_halve (s : St X n P) : (halveStep s).cache.faccon = s.cache.faccon := by
  simp only [halveStep]; split <;> rfl

theorem faccon_slow (s : St X n P) (d : X) : (slowStep s d).cache.faccon = s.cache.faccon := by
  simp only [slowStep]; split <;> rfl

theorem facOk_theta {s : St X n P} {th : X} (h : Fl.lt th 0.99 = true) (he : s.cache.faccon = th / (1.0 - th)) : FacOk s := by
  cases th with
  | nan => simp [show Fl.lt nan (0.99 : X) = false from rfl] at h
  | pinf => simp [show Fl.lt pinf (0.99 : X) = false from rfl] at h
  | ninf =>
    have : s.cache.faccon = nan := he
    refine ⟨Fl.eps, by rw [this]; rfl, RealFl.eps_pos, ?_⟩
    exact le_trans (b := (1:ℝ)) (by rw [show (Fl.eps : ℝ) = 2 ^ (-52 : ℤ) from rfl]; norm_num) (by norm_num)
  | fin y =>
    rw [X.sci, lt_fin] at h
    have hy : y < 0.99 := by simpa using h
    norm_num at hy
    rw [X.sci, sub_fin, div_fin (by norm_num; intro h; linarith)] at he
    refine .of_le he ?_
    rw [div_le_iff₀ (by norm_num; linarith)]
    norm_num
    linarith

theorem FacOk.check {s : St X n P} (H : FacOk s) (a b : X) : FacOk (newtonCheck s a b).1 := by
  simp only [newtonCheck]
  split
  · split
    · rename_i hlt
      split
      · exact (facOk_theta (th := newTheta s (a / b)) hlt (by rw [faccon_slow]))
      · exact (facOk_theta (th := newTheta s (a / b)) hlt rfl)
    · exact H.congr (by rw [faccon_halve])
  · exact H

theorem FacOk.loop {fuel : ℕ} {s s' : St X n P} {d : X} {b : Bool} (H : FacOk s) (h : newtonLoop fuel s d = .ok (s', b)) :
    FacOk s' := by
  induction fuel generalizing s d with
  | zero => simp [newtonLoop] at h
  | succ k ih =>
    simp only [newtonLoop] at h
    split at h
    · obtain ⟨rfl, -⟩ := Prod.mk.inj (Res.ok.inj h)
      exact H.congr (faccon_halve s)
    · have h1 : FacOk (newtonCheck (newtonSolve (newtonRhs s)) (newtonNorm (newtonSolve (newtonRhs s))) d).1 :=
        (H.congr (s' := newtonSolve (newtonRhs s)) rfl).check _ _
      split at h
      · obtain ⟨rfl, -⟩ := Prod.mk.inj (Res.ok.inj h)
        exact h1
      · have h2 := h1.congr (s' := newtonUpdate (newtonCheck (newtonSolve (newtonRhs s)) (newtonNorm (newtonSolve (newtonRhs s))) d).1) rfl
        split at h
        · obtain ⟨rfl, -⟩ := Prod.mk.inj (Res.ok.inj h)
          exact h2
        · exact ih h2 h

theorem FacOk.newton {s s' : St X n P} {b : Bool} (H : FacOk s) (h : newton s = .ok (s', b)) : FacOk s' := by
  rw [newton_eq] at h
  obtain ⟨x, hx, -, h2⟩ := H.start
  exact (FacOk.of_le hx (by linarith)).loop h

theorem facOk_closedD (c : X) : ClosedD (fun s : St X n P => s.cache.faccon = c) where
  facs h := h
  real h e := by obtain ⟨r, -, rfl⟩ := decomp_real_ok e; exact h
  cplx h e := by obtain ⟨r, -, rfl⟩ := decomp_complex_ok e; exact h
  count h := h
  fail {s} h := by
    simp only [decFail]
    split
    · exact h
    · rw [faccon_halve]; exact h

theorem FacOk.dec {s s' : St X n P} {b : Bool} {fuel : ℕ} (H : FacOk s) (h : decPhase fuel s = .ok (s', b)) : FacOk s' :=
  H.congr ((facOk_closedD s.cache.faccon).decPhase (s := s) rfl h)

theorem faccon_reject (s : St X n P) (q : X) : (rejectStep s q).cache.faccon = s.cache.faccon := by
  simp only [rejectStep]
  split <;> split <;> rfl

theorem FacOk.control {s : St X n P} (H : FacOk s) : FacOk (control s) := by
  refine H.congr ?_
  rw [control_eq]
  split
  · rw [acceptStep_faccon, decided_faccon]
  · rw [faccon_reject, decided_faccon]

theorem FacOk.att {s s' : St X n P} (H : FacOk s) (h : Att s s') : FacOk s' := by
  cases h with
  | diverged h1 _ _ h2 => exact FacOk.newton (s := tick _) ((H.dec h1).congr rfl) h2
  | again h1 _ _ h2 _ => exact (FacOk.newton (s := tick _) ((H.dec h1).congr rfl) h2).control

theorem FacOk.atts {k : ℕ} {s s' : St X n P} (H : FacOk s) (h : Atts k s s') : FacOk s' := by
  induction h with
  | zero => exact H
  | succ h1 _ ih => exact ih (H.att h1)

theorem FacOk.fin {s s' : St X n P} (H : FacOk s) (h : Fin s s') : FacOk s' := by
  cases h with
  | singular h1 => exact H.dec h1
  | maxIters h1 => exact (H.dec h1).congr rfl
  | small h1 => exact (H.dec h1).congr rfl
  | done h1 _ _ h2 _ => exact (FacOk.newton (s := tick _) ((H.dec h1).congr rfl) h2).control

theorem FacOk.step {fuel : ℕ} {s s' : St X n P} (H : FacOk s) (h : step fuel s = .ok s') : FacOk s' := by
  obtain ⟨k, s1, -, ha, hf⟩ := step_ok h
  refine FacOk.fin (FacOk.atts (H.congr ?_) ha) hf
  unfold clampLast; split <;> rfl

end
end Radau
end Cyphus
