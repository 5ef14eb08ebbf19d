import Verif.Proofs.DP5Traj
/-!
# Steps of `DormandPrince5` whose stored derivative is not the one at the current point

After a callback has changed `u`, the stored derivative `cache.du` still belongs to the old `u`. This file repeats the
description of a step for an arbitrary stored derivative `k1`.
-/

namespace Cyphus
namespace DP5
open X
set_option linter.unusedSectionVars false
set_option autoImplicit false
noncomputable section
variable {n : ℕ} {P : Type}

section stages
variable (f : ℝ → (Fin n → ℝ) → Fin n → ℝ) (t : ℝ) (u : Fin n → ℝ) (h : ℝ) (k1 : Fin n → ℝ)

def S2 : Fin n → ℝ := f (t + C2 * h) fun i => u i + h * A21 * k1 i
def S3 : Fin n → ℝ := f (t + C3 * h) fun i => u i + h * (A31 * k1 i + A32 * S2 f t u h k1 i)
def S4 : Fin n → ℝ := f (t + C4 * h) fun i =>
  u i + h * (A41 * k1 i + A42 * S2 f t u h k1 i + A43 * S3 f t u h k1 i)
def S5 : Fin n → ℝ := f (t + C5 * h) fun i =>
  u i + h * (A51 * k1 i + A52 * S2 f t u h k1 i + A53 * S3 f t u h k1 i + A54 * S4 f t u h k1 i)
def S6arg : Fin n → ℝ := fun i =>
  u i + h * (A61 * k1 i + A62 * S2 f t u h k1 i + A63 * S3 f t u h k1 i + A64 * S4 f t u h k1 i
    + A65 * S5 f t u h k1 i)
def S6 : Fin n → ℝ := f (t + h) (S6arg f t u h k1)
def unewS : Fin n → ℝ := fun i =>
  u i + h * (A71 * k1 i + A73 * S3 f t u h k1 i + A74 * S4 f t u h k1 i + A75 * S5 f t u h k1 i
    + A76 * S6 f t u h k1 i)
def S7 : Fin n → ℝ := f (t + h) (unewS f t u h k1)
def uerrS : Fin n → ℝ := fun i =>
  h * (E1 * k1 i + E3 * S3 f t u h k1 i + E4 * S4 f t u h k1 i + E5 * S5 f t u h k1 i
    + E6 * S6 f t u h k1 i + E7 * S7 f t u h k1 i)
def errS (a r : ℝ) : ℝ := Spec.errNorm a r u (unewS f t u h k1) (uerrS f t u h k1)

theorem isStagesFrom : Spec.IsStagesFrom Spec.dopri5 f t u h k1
    ![k1, S2 f t u h k1, S3 f t u h k1, S4 f t u h k1, S5 f t u h k1, S6 f t u h k1, S7 f t u h k1] := by
  refine ⟨rfl, fun i hi => ?_⟩
  fin_cases i
  · exact absurd rfl hi
  all_goals simp only [Spec.dopri5, Fin.sum_univ_seven, Fin.zero_eta, Fin.mk_one, Fin.reduceFinMk,
    Matrix.cons_val]
  · rw [S2]; congr 1
    · rw [C2_val]
    · funext m; rw [A21_val]; ring
  · rw [S3]; congr 1
    · rw [C3_val]
    · funext m; rw [A31_val, A32_val]; ring
  · rw [S4]; congr 1
    · rw [C4_val]
    · funext m; rw [A41_val, A42_val, A43_val]; ring
  · rw [S5]; congr 1
    · rw [C5_val]
    · funext m; rw [A51_val, A52_val, A53_val, A54_val]; ring
  · rw [S6]; congr 1
    · norm_num
    · funext m; rw [S6arg, A61_val, A62_val, A63_val, A64_val, A65_val]; ring
  · rw [S7]; congr 1
    · norm_num
    · funext m; rw [unewS, A71_val, A73_val, A74_val, A75_val, A76_val]; ring

theorem isStepFrom : Spec.IsStepFrom Spec.dopri5 f t u h k1 (unewS f t u h k1) := by
  refine ⟨_, isStagesFrom f t u h k1, fun m => ?_⟩
  simp only [Spec.dopri5, Fin.sum_univ_seven, Matrix.cons_val, unewS, A71_val, A73_val, A74_val, A75_val, A76_val]
  ring

end stages

/-- The state holds finite numbers; the stored derivative is `k1`. -/
structure NumS (s : St X n P) (f : ℝ → (Fin n → ℝ) → Fin n → ℝ) (t0 : ℝ) (u0 : Fin n → ℝ) (h0 : ℝ)
    (k1 : Fin n → ℝ) : Prop where
  t : s.t = fin t0
  u : s.u = fv u0
  dt : s.dt = fin h0
  du : s.cache.du = fv k1
  rhs : Lifts s.dudt s.params f

section
variable {s s' : St X n P} {f : ℝ → (Fin n → ℝ) → Fin n → ℝ} {t : ℝ} {u : Fin n → ℝ} {h : ℝ} {k1 : Fin n → ℝ}

theorem NumS.stages (H : NumS s f t u h k1) :
    (compute_stages s).cache.unew = fv (unewS f t u h k1) ∧
    (compute_stages s).cache.dunew = fv (S7 f t u h k1) ∧
    (compute_stages s).cache.uerr = fv (uerrS f t u h k1) := by
  have L : ∀ (buf : Vec n X) t (u : Fin n → ℝ), s.dudt s.params buf (fun i => fin (u i)) (fin t) =
    fv (f t u) := H.rhs
  simp only [compute_stages, H.t, H.u, H.dt, H.du, fv_apply, C2_fin, C3_fin, C4_fin, C5_fin, A21_fin,
    A31_fin, A32_fin, A41_fin, A42_fin, A43_fin, A51_fin, A52_fin, A53_fin, A54_fin, A61_fin, A62_fin,
    A63_fin, A64_fin, A65_fin, A71_fin, A73_fin, A74_fin, A75_fin, A76_fin, E1_fin, E3_fin, E4_fin,
    E5_fin, E6_fin, E7_fin, mul_fin, add_fin, L]
  exact ⟨rfl, rfl, rfl⟩

theorem NumS.err (H : NumS s f t u h k1) {a r : ℝ} (T : Tol s.opts a r) (hn : n ≠ 0) :
    errOf s = fin (errS f t u h k1 a r) := by
  obtain ⟨h1, -, h2⟩ := H.stages
  have ho : (compute_stages s).opts = s.opts := rfl
  have hu : (compute_stages s).u = s.u := rfl
  unfold errOf error
  rw [h1, h2, ho, T.abstol, T.reltol, hu, H.u]
  have e : (fun i => let sk := fin a + fin r * Fl.max (Fl.abs (fv u i)) (Fl.abs (fv (unewS f t u h k1) i))
      let sqr := fv (uerrS f t u h k1) i / sk; sqr * sqr) = fun i =>
      fin ((uerrS f t u h k1 i / (a + r * max |u i| |unewS f t u h k1 i|)) ^ 2) := by
    funext i
    have : a + r * max |u i| |unewS f t u h k1 i| ≠ 0 := by
      have := T.abs_pos
      have := mul_nonneg T.rel_nonneg (le_max_of_le_left (b := |u i|) (c := |unewS f t u h k1 i|) (abs_nonneg (u i)))
      positivity
    simp only [fv_apply, abs_fin, max_fin, mul_fin, add_fin]
    rw [div_fin this, mul_fin, sq]
  rw [e, X.sci, sumLoop_fin, sumLoop_real, ofNat_fin]
  dsimp only
  rw [div_fin (by exact_mod_cast hn), sqrt_fin]
  · unfold errS Spec.errNorm; norm_num
  · apply div_nonneg
    · norm_num
      exact Finset.sum_nonneg fun i _ => sq_nonneg _
    · positivity

variable {sf fl fr be : ℝ} {mx : Option ℝ}

theorem NumS.retry (H : NumS s f t u h k1) (C : Ctl s.opts sf fl fr be mx) {e : ℝ} (he : errOf s = fin e)
    (h1 : Fl.le (errOf s) 1.0 = false) : NumS (retry s) f t u (shrink sf fl be e h) k1 := by
  rw [he, X.sci, le_fin] at h1
  have hlt : 1 < e := by norm_num at h1; exact h1
  refine ⟨by simp [H.t], by simp [H.u], ?_, by simp [H.du], by simpa using H.rhs⟩
  rw [retry_dt, C.facl, C.safe, inv_fin C C.facl_pos, he, C.fac11_pos (by linarith),
    div_fin C.safe_pos.ne', min_fin, H.dt, div_fin]
  · rfl
  · have := C.facl_pos
    have := C.safe_pos
    have : 0 < e ^ expo be := Real.rpow_pos_of_pos (by linarith) _
    positivity

end

/-- As `Good`, with an arbitrary stored derivative. -/
structure GoodS (E : Env n) (s : St X n P) (t : ℝ) (u : Fin n → ℝ) (h : ℝ) (k1 : Fin n → ℝ) : Prop where
  num : NumS s E.f t u h k1
  tol : Tol s.opts E.a E.r
  ctl : Ctl s.opts E.sf E.fl E.fr E.be E.mx
  tdir : s.tdir = fin E.d
  tfinal : s.tfinal = fin E.tf
  dim : n ≠ 0

section
variable {E : Env n} {s s' : St X n P} {t : ℝ} {u : Fin n → ℝ} {h : ℝ} {k1 : Fin n → ℝ}

theorem Good.toS (G : Good E s t u h) : GoodS E s t u h (E.f t u) :=
  ⟨⟨G.num.t, G.num.u, G.num.dt, G.num.du, G.num.rhs⟩, G.tol, G.ctl, G.tdir, G.tfinal, G.dim⟩

theorem GoodS.rejs (G : GoodS E s t u h k1) {k : ℕ} (hr : Rejs k s s') : ∃ h', GoodS E s' t u h' k1 := by
  induction hr generalizing h with
  | zero s => exact ⟨h, G⟩
  | succ h1 _ ih =>
    exact ih ⟨G.num.retry G.ctl (G.num.err G.tol G.dim) h1, by simpa using G.tol, by simpa using G.ctl,
      by simpa using G.tdir, by simpa using G.tfinal, G.dim⟩

theorem GoodS.clampLast (G : GoodS E s t u h k1) : ∃ h', GoodS E (clampLast s) t u h' k1 := by
  unfold DP5.clampLast
  split
  · exact ⟨E.tf - t, ⟨G.num.t, G.num.u, by simp [G.tfinal, G.num.t], G.num.du, G.num.rhs⟩, G.tol, G.ctl, G.tdir,
      G.tfinal, G.dim⟩
  · exact ⟨h, G⟩

/-- One call of the algorithm's step. -/
theorem GoodS.step (G : GoodS E s t u h k1) {fuel : ℕ} (hs : step fuel s = .ok s') :
    ∃ h1 h2 k, Good E s' (t + h1) (unewS E.f t u h1 k1) h2 ∧ StepSpec k s s' := by
  obtain ⟨k, s1, hk, hr, he, hm, rfl, sp⟩ := step_spec hs
  obtain ⟨h0, G0⟩ := G.clampLast
  obtain ⟨h1, G1⟩ := G0.rejs hr
  obtain ⟨hu, hdu, -⟩ := G1.num.stages
  obtain ⟨q, hq, hq1, hq2⟩ := G1.ctl.stepFac s1.cache.facold (errOf s1)
  have hq0 : 0 < q := lt_of_lt_of_le (by have := G1.ctl.facr_pos; positivity) hq1
  have hdt : ∃ h2, (DP5.accepted s1).dt = fin h2 := by
    rw [accepted_dt, hq, G1.num.dt, div_fin hq0.ne', G1.tdir, G1.ctl.dtmax]
    cases E.mx with
    | none =>
      simp only [abs_fin, show Fl.gt (fin (|h1 / q|)) pinf = false from rfl, Bool.false_eq_true, if_false,
        min_fin, mul_fin]
      split <;> exact ⟨_, rfl⟩
    | some m =>
      simp only [abs_fin, gt_fin, mul_fin]
      by_cases hc : m < |h1 / q| <;> simp only [hc, decide_true, decide_false, if_true, abs_fin, min_fin,
        mul_fin, Bool.false_eq_true, if_false] <;> split <;> exact ⟨_, rfl⟩
  obtain ⟨h2, hdt⟩ := hdt
  refine ⟨h1, h2, k, Good.finishStep ⟨⟨?_, ?_, hdt, ?_, ?_⟩, ?_, ?_, ?_, ?_, G.dim⟩, sp⟩
  · rw [accepted_t, G1.num.t, G1.num.dt, add_fin]
  · rw [accepted_u, hu]
  · rw [accepted_du, hdu]; rfl
  · rw [accepted_dudt, accepted_params]; exact G1.num.rhs
  · rw [accepted_opts]; exact G1.tol
  · rw [accepted_opts]; exact G1.ctl
  · rw [accepted_tdir]; exact G1.tdir
  · rw [accepted_tfinal]; exact G1.tfinal

end
end
end DP5
end Cyphus
