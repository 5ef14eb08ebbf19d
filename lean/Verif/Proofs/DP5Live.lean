import Verif.Proofs.DP5Fac
/-!
# `DormandPrince5` reaches the end: a lower bound of the steps
-/

namespace Cyphus
namespace DP5
open X
set_option linter.unusedSectionVars false
set_option autoImplicit false
noncomputable section
variable {n : ℕ} {P : Type} {E : Env n} {s s' : St X n P} {t : ℝ} {u : Fin n → ℝ} {h : ℝ}

/-- An error below which the controller does not reduce the step. -/
def Env.small (E : Env n) : ℝ := min 1 ((E.sf * (1e-4 : ℝ) ^ E.be) ^ (1 / expo E.be))

theorem Env.small_pos (hsf : 0 < E.sf) : 0 < E.small := by
  refine lt_min one_pos (Real.rpow_pos_of_pos (mul_pos hsf (Real.rpow_pos_of_pos (by norm_num) _)) _)

theorem quot_le_one {o : Opts X} {sf fl fr be : ℝ} {mx : Option ℝ} (C : Ctl o sf fl fr be mx) (hfr : 1 ≤ fr) (hx : 0 < expo be)
    {g e q : ℝ} (hg : 1e-4 ≤ g) (e0 : 0 ≤ e) (he : e ≤ (sf * (1e-4 : ℝ) ^ be) ^ (1 / expo be))
    (hq : stepFac o (fin g) (fin e) = fin q) : q ≤ 1 := by
  have g0 : (0:ℝ) < g := lt_of_lt_of_le (by norm_num) hg
  have gb : 0 < g ^ be := Real.rpow_pos_of_pos g0 _
  unfold stepFac at hq
  rw [C.fac11, C.beta, C.facl, C.facr, C.safe] at hq
  change Fl.max _ (Fl.min _ (Fl.powf (fin e) (fin (expo be)) / _ / _)) = _ at hq
  rw [powf_nonneg e0 hx, powf_fin g0, div_fin gb.ne', div_fin C.safe_pos.ne', inv_fin C C.facl_pos, inv_fin C C.facr_pos,
    min_fin, max_fin] at hq
  injection hq with hq
  rw [← hq]
  refine max_le ?_ ((min_le_right _ _).trans ?_)
  · rw [div_le_one (by linarith)]; exact hfr
  · rw [div_div, div_le_one (by have := C.safe_pos; positivity)]
    have h1 : e ^ expo be ≤ sf * (1e-4 : ℝ) ^ be := by
      have hp : 0 ≤ sf * (1e-4 : ℝ) ^ be := by have := C.safe_pos; positivity
      calc e ^ expo be ≤ ((sf * (1e-4 : ℝ) ^ be) ^ (1 / expo be)) ^ expo be := Real.rpow_le_rpow e0 he hx.le
        _ = sf * (1e-4 : ℝ) ^ be := by
          rw [← Real.rpow_mul hp, one_div_mul_cancel hx.ne', Real.rpow_one]
    have h2 : (1e-4 : ℝ) ^ be ≤ g ^ be := Real.rpow_le_rpow (by norm_num) hg C.beta_nonneg
    have := C.safe_pos
    nlinarith

/-- If steps up to `hs` are accepted, steps are not reduced below `facl * hs`. -/
theorem RejH.floor {hs T : ℝ} (hS : E.Sane) (hsf : 0 < E.sf) (hfl : 0 < E.fl)
    (hacc : ∀ h, 0 ≤ h → h ≤ hs → h ≤ T → E.err t u h ≤ 1) (h0 : 0 ≤ h) (hT : h ≤ T) {k : ℕ} {h1 : ℝ}
    (hr : RejH E t u k h h1) : (k = 0 ∧ h1 = h) ∨ E.fl * hs ≤ h1 := by
  induction hr with
  | zero => exact .inl ⟨rfl, rfl⟩
  | @succ k h1 h2 he hr ih =>
    right
    have hlt : hs < h1 := by
      by_contra hc
      have := hacc h1 h0 (not_lt.1 hc) hT
      linarith
    have hsh : E.fl * hs ≤ E.shrink t u h1 := by
      obtain ⟨r, r0, -, e⟩ := shrink_ratio hS hsf hfl he
      have hpos : 0 < min (1 / E.fl) (E.err t u h1 ^ expo E.be / E.sf) := by
        have : 0 < E.err t u h1 ^ expo E.be := Real.rpow_pos_of_pos (by linarith) _
        positivity
      rw [Env.shrink, shrink, le_div_iff₀ hpos]
      have h3 := min_le_left (1 / E.fl) (E.err t u h1 ^ expo E.be / E.sf)
      have h4 : E.fl * (1 / E.fl) = 1 := by field_simp
      by_cases h5 : 0 ≤ hs
      · calc E.fl * hs * _ ≤ E.fl * hs * (1 / E.fl) := mul_le_mul_of_nonneg_left h3 (by positivity)
          _ = hs * (E.fl * (1 / E.fl)) := by ring
          _ ≤ h1 := by rw [h4]; linarith
      · have : E.fl * hs * min (1 / E.fl) (E.err t u h1 ^ expo E.be / E.sf) ≤ 0 :=
          mul_nonpos_of_nonpos_of_nonneg (mul_nonpos_of_nonneg_of_nonpos hfl.le (by linarith)) hpos.le
        linarith
    obtain ⟨h0', hT'⟩ : 0 ≤ E.shrink t u h1 ∧ E.shrink t u h1 ≤ T := by
      obtain ⟨r, r0, r1, e⟩ := shrink_ratio hS hsf hfl he
      rw [e]; exact ⟨by positivity, (mul_le_of_le_one_left h0 (r1.trans (max_le hS.facl hS.safe))).trans hT⟩
    rcases ih h0' hT' with ⟨-, e⟩ | h
    · rw [e]; exact hsh
    · exact h

/-- The too-small-step code is not raised if the reduced steps are larger than the spacing of the numbers at `t`. -/
theorem Good.rejs_code {hs T : ℝ} (hS : E.Sane) (hacc : ∀ h, 0 ≤ h → h ≤ hs → h ≤ T → E.err t u h ≤ 1) (hε : |t| * Fl.eps < E.fl * hs)
    (G : Good E s t u h) (h0 : 0 ≤ h) (hT : h ≤ T) {k : ℕ} (hr : Rejs k s s') : s'.sol.retcode = s.sol.retcode := by
  induction hr generalizing h with
  | zero => rfl
  | @succ k s s' h1 h2 ih =>
    have G' := G.retry h1
    have he : 1 < E.err t u h := by
      have := G.le_iff.symm.trans h1
      simpa using this
    have hsf := G.ctl.safe_pos
    have hfl := G.ctl.facl_pos
    obtain ⟨h0', hT'⟩ : 0 ≤ E.shrink t u h ∧ E.shrink t u h ≤ T := by
      obtain ⟨r, r0, r1, e⟩ := shrink_ratio hS hsf hfl he
      rw [e]; exact ⟨by positivity, (mul_le_of_le_one_left h0 (r1.trans (max_le hS.facl hS.safe))).trans hT⟩
    rw [ih G' h0' hT', retry_retcode, if_neg]
    rw [G'.num.dt, G.num.t, abs_fin, abs_fin, eps_fin, mul_fin, le_fin, abs_of_nonneg h0']
    have := RejH.floor hS hsf hfl hacc h0 hT (.succ he (.zero _))
    rcases this with ⟨h, -⟩ | h
    · omega
    · simp only [decide_eq_true_eq, not_le]
      linarith

theorem Num.accepted_dt' {f : ℝ → (Fin n → ℝ) → Fin n → ℝ} {sf fl fr be d q : ℝ} {mx : Option ℝ} (H : Num s f t u h)
    (C : Ctl s.opts sf fl fr be mx) (hd : s.tdir = fin d) (hq : stepFac s.opts s.cache.facold (errOf s) = fin q) (hq0 : 0 < q) :
    (DP5.accepted s).dt = fin (nextH mx d s.cache.reject h q) := by
  rw [accepted_dt, hq, H.dt, div_fin hq0.ne', hd, C.dtmax]
  unfold nextH
  cases mx with
  | none =>
    simp only [abs_fin, show Fl.gt (fin (|h / q|)) pinf = false from rfl, Bool.false_eq_true, if_false,
      min_fin, mul_fin]
    split <;> rfl
  | some m =>
    simp only [abs_fin, gt_fin, mul_fin]
    by_cases hc : m < |h / q| <;> simp only [hc, decide_true, decide_false, if_true, abs_fin, min_fin,
      mul_fin, Bool.false_eq_true, if_false] <;> split <;> rfl

/-- As `Good.step`, with the quotient of the steps and the return code. -/
theorem Good.step_fac (hS : E.Sane) (G : Good E s t u h) {fuel : ℕ} (hst : DP5.step fuel s = .ok s') :
    ∃ k h1 q, RejH E t u k (E.first t h) h1 ∧ E.err t u h1 ≤ 1 ∧ stepFac s.opts s.cache.facold (fin (E.err t u h1)) = fin q ∧
      1 / E.fr ≤ q ∧ q ≤ max (1 / E.fl) (1 / E.fr) ∧
      s'.t = fin (t + h1) ∧ s'.dt = fin (nextH E.mx E.d (if k = 0 then s.cache.reject else true) h1 q) ∧
      s'.cache.facold = fin (max (E.err t u h1) 1e-4) ∧
      s'.cache.last = (if k = 0 then (if (t + 1.01 * h - E.tf) * E.d > 0 then true else s.cache.last) else false) ∧
      (∀ hs T, (∀ h, 0 ≤ h → h ≤ hs → h ≤ T → E.err t u h ≤ 1) → |t| * Fl.eps < E.fl * hs → 0 ≤ E.first t h → E.first t h ≤ T → s'.sol.retcode =
        if s'.cache.last then .Success else if s'.stats.steps > s.opts.max_steps then .MaxIters else s.sol.retcode) := by
  obtain ⟨k, s1, hk, hr, he, hm, rfl, sp⟩ := step_spec hst
  obtain ⟨h1, r1, G1⟩ := G.clampLast.rejs hr
  obtain ⟨q, hq, q1, q2⟩ := G1.ctl.stepFac s1.cache.facold (errOf s1)
  have hq0 : 0 < q := lt_of_lt_of_le (by have := G.ctl.facr_pos; positivity) q1
  have f := (Frame.clampLast s).trans hr.spec.frame
  refine ⟨k, h1, q, r1, ?_, ?_, q1, q2, ?_, ?_, ?_, ?_, ?_⟩
  · rw [G1.le_iff] at he; simpa using he
  · rw [← f.opts, ← f.facold, ← G1.err]; exact hq
  · rw [finishStep_t, accepted_t, G1.num.t, G1.num.dt, add_fin]
  · rw [finishStep_dt, G1.num.accepted_dt' G1.ctl G1.tdir hq hq0, hr.reject, (clampLast_stats s).2.2.2]
  · rw [finishStep_cache, accepted_facold, G1.err, X.sci, max_fin]
  · rw [finishStep_cache, accepted_last, hr.last, G.clamp_last]
  · intro hs T hacc hε h0 hT
    have := Good.rejs_code hS hacc hε G.clampLast h0 hT hr
    rw [finishStep_retcode, accepted_sol, this, (clampLast_stats s).2.1, finishStep_cache, accepted_opts, f.opts]
    simp

/-- A lower bound of the proposed step. -/
theorem le_nextH {mx : Option ℝ} {rej : Bool} {h q c : ℝ} (h0 : 0 ≤ h) (q0 : 0 < q) (c1 : c ≤ h) (c2 : c ≤ h / q) (c3 : ∀ m ∈ mx, c ≤ m)
    (hm : ∀ m ∈ mx, 0 < m) : c ≤ nextH mx 1 rej h q := by
  have hq : 0 ≤ h / q := by positivity
  unfold nextH
  cases mx with
  | none =>
    simp only [abs_of_nonneg hq, abs_of_nonneg h0, one_mul]
    split
    · exact le_min c2 c1
    · exact c2
  | some m =>
    have := c3 m rfl
    have hm := hm m rfl
    simp only [abs_of_nonneg hq, abs_of_nonneg h0, one_mul]
    split <;> split
    · rw [abs_of_pos hm]; exact le_min this c1
    · rw [abs_of_nonneg hq]; exact le_min c2 c1
    · exact this
    · exact c2

end
end DP5
end Cyphus
