import Verif.Proofs.DP5Term
/-!
# The step-size controller of `DormandPrince5`
-/

namespace Cyphus
namespace DP5
open X
set_option linter.unusedSectionVars false
set_option autoImplicit false

section
variable {F : Type} {n : Nat} {P : Type}
  [Add F] [Sub F] [Mul F] [Div F] [Neg F] [OfScientific F] [Fl F]

/-- The step proposed by a call, any arithmetic. -/
theorem step_dt {fuel : Nat} {s s' : St F n P} (hs : step fuel s = .ok s') :
    ∃ (k : Nat) (e : F), StepSpec k s s' ∧ ((∃ y, e = Fl.sqrt y) ∧ Fl.le e 1.0 = true) ∧ s'.cache.facold = Fl.max e 1e-4 ∧ s'.dt =
      (let d := s'.dtprev / stepFac s.opts s.cache.facold e
       let d := if Fl.gt (Fl.abs d) s.opts.dtmax then s.tdir * s.opts.dtmax else d
       if (if k = 0 then s.cache.reject else true) then s.tdir * Fl.min (Fl.abs d) (Fl.abs s'.dtprev) else d) := by
  obtain ⟨k, s1, hk, hr, he, hm, rfl, sp⟩ := step_spec hs
  have f := (Frame.clampLast s).trans hr.spec.frame
  refine ⟨k, errOf s1, sp, ⟨⟨_, rfl⟩, he⟩, ?_, ?_⟩
  · rw [finishStep_cache, accepted_facold]
  rw [finishStep_dt, accepted_dt, finishStep_dtprev, accepted_dtprev, f.opts, f.facold, f.tdir, hr.reject,
    (clampLast_stats s).2.2.2]

end

noncomputable section
variable {n : ℕ} {P : Type}

/-- The same in exact arithmetic. -/
theorem step_dt_X {s s' : St X n P} {sf fl fr be : ℝ} {mx : Option ℝ} (C : Ctl s.opts sf fl fr be mx) {d h : ℝ}
    (hd : s.tdir = fin d) {fuel : ℕ} (hs : step fuel s = .ok s') (hh : s'.dtprev = fin h) :
    ∃ (k : ℕ) (e : X) (q : ℝ), StepSpec k s s' ∧ (∃ r : ℝ, e = fin r ∧ 0 ≤ r ∧ r ≤ 1) ∧ s'.cache.facold = Fl.max e 1e-4 ∧
      stepFac s.opts s.cache.facold e = fin q ∧ 1 / fr ≤ q ∧ q ≤ max (1 / fl) (1 / fr) ∧
      s'.dt = fin (nextH mx d (if k = 0 then s.cache.reject else true) h q) := by
  obtain ⟨k, e, sp, ⟨⟨y, hy⟩, he⟩, hf, hdt⟩ := step_dt hs
  replace he : ∃ r : ℝ, e = fin r ∧ 0 ≤ r ∧ r ≤ 1 := by
    subst hy
    rw [X.sci] at he
    cases y with
    | nan => cases he
    | ninf => cases he
    | pinf => cases he
    | fin r =>
      change leX (if r < 0 then nan else fin (Real.sqrt r)) _ = true at he
      by_cases hr : r < 0
      · rw [if_pos hr] at he; cases he
      · rw [if_neg hr] at he
        refine ⟨Real.sqrt r, ?_, Real.sqrt_nonneg _, ?_⟩
        · change (if r < 0 then nan else fin (Real.sqrt r)) = _
          rw [if_neg hr]
        · have := of_decide_eq_true he
          norm_num at this ⊢
          linarith
  obtain ⟨q, hq, hq1, hq2⟩ := C.stepFac s.cache.facold e
  have hq0 : 0 < q := lt_of_lt_of_le (by have := C.facr_pos; positivity) hq1
  refine ⟨k, e, q, sp, he, hf, hq, hq1, hq2, ?_⟩
  rw [hdt, hq, hh, div_fin hq0.ne', hd, C.dtmax]
  unfold nextH
  generalize (if k = 0 then s.cache.reject else true) = rj
  cases mx with
  | none =>
    simp only [abs_fin, show Fl.gt (fin (|h / q|)) pinf = false from rfl, Bool.false_eq_true, if_false,
      min_fin, mul_fin]
    split <;> rfl
  | some m =>
    simp only [abs_fin, gt_fin, mul_fin]
    by_cases hc : m < |h / q| <;> simp only [hc, decide_true, decide_false, if_true, abs_fin, min_fin,
      mul_fin, Bool.false_eq_true, if_false] <;> split <;> rfl

/-- Bounds of the next step. -/
theorem nextH_bounds {mx : Option ℝ} {d : ℝ} (hd : d * d = 1) (hm : ∀ m ∈ mx, 0 < m) {rej : Bool} {h q fl fr : ℝ}
    (h1 : 1 / fr ≤ q) (h2 : q ≤ max (1 / fl) (1 / fr)) (hfl : 0 < fl) (hfr : 0 < fr) :
    |nextH mx d rej h q| ≤ fr * |h| ∧ (∀ m ∈ mx, |nextH mx d rej h q| ≤ m) ∧
    (rej = true → |nextH mx d rej h q| ≤ |h|) ∧
    (rej = false → ∃ ρ, min fl fr ≤ ρ ∧ ρ ≤ fr ∧ ((nextH mx d rej h q = ρ * h ∧ ∀ m ∈ mx, |ρ * h| ≤ m) ∨
      ∃ m ∈ mx, m < |ρ * h| ∧ nextH mx d rej h q = d * m)) := by
  have hd1 : |d| = 1 := by
    have : |d| * |d| = 1 := by rw [← abs_mul, hd, abs_one]
    nlinarith [abs_nonneg d]
  have hq0 : 0 < q := lt_of_lt_of_le (by positivity) h1
  have hq1 : 1 / q ≤ fr := by
    rw [div_le_iff₀ hq0]
    have := mul_le_mul_of_nonneg_left h1 hfr.le
    field_simp at this
    linarith
  have hq2 : min fl fr ≤ 1 / q := by
    rw [le_div_iff₀ hq0]
    rcases le_max_iff.1 h2 with h2 | h2
    · have := mul_le_mul_of_nonneg_left h2 hfl.le
      have e : fl * (1 / fl) = 1 := by field_simp
      nlinarith [min_le_left fl fr]
    · have := mul_le_mul_of_nonneg_left h2 hfr.le
      have e : fr * (1 / fr) = 1 := by field_simp
      nlinarith [min_le_right fl fr]
  have e1 : h / q = 1 / q * h := by ring
  have b1 : |h / q| ≤ fr * |h| := by
    rw [e1, abs_mul, abs_of_pos (by positivity)]
    exact mul_le_mul_of_nonneg_right hq1 (abs_nonneg _)
  have am : ∀ x y : ℝ, abs (d * min (abs x) (abs y)) = min (abs x) (abs y) := by
    intro x y
    rw [abs_mul, hd1, one_mul, abs_of_nonneg (by positivity)]
  cases mx with
  | none =>
    cases rej with
    | true =>
      simp only [nextH, if_true, am]
      exact ⟨(min_le_left _ _).trans b1, by simp, fun _ => min_le_right _ _, by simp⟩
    | false =>
      simp only [nextH, Bool.false_eq_true, if_false]
      exact ⟨b1, by simp, by simp, fun _ => ⟨1 / q, hq2, hq1, .inl ⟨e1, by simp⟩⟩⟩
  | some m =>
    have hm := hm m rfl
    have c : |if m < |h / q| then d * m else h / q| ≤ min m |h / q| := by
      split
      · rename_i hc
        rw [abs_mul, hd1, one_mul, abs_of_pos hm, min_eq_left hc.le]
      · rename_i hc
        rw [min_eq_right (not_lt.1 hc)]
    cases rej with
    | true =>
      simp only [nextH, if_true, am]
      refine ⟨?_, ?_, fun _ => min_le_right _ _, by simp⟩
      · exact (min_le_left _ _).trans (c.trans ((min_le_right _ _).trans b1))
      · intro m' hm'
        cases hm'
        exact (min_le_left _ _).trans (c.trans (min_le_left _ _))
    | false =>
      simp only [nextH, Bool.false_eq_true, if_false]
      refine ⟨c.trans ((min_le_right _ _).trans b1), ?_, by simp, fun _ => ⟨1 / q, hq2, hq1, ?_⟩⟩
      · intro m' hm'
        cases hm'
        exact c.trans (min_le_left _ _)
      · rw [← e1]
        by_cases hc : m < |h / q|
        · exact .inr ⟨m, rfl, hc, by rw [if_pos hc]⟩
        · refine .inl ⟨by rw [if_neg hc], ?_⟩
          intro m' hm'
          cases hm'
          exact not_lt.1 hc

end
end DP5
end Cyphus
