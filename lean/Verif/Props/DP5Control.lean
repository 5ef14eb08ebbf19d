import Verif.Proofs.DP5Fac
import Verif.Props.DP5Exact
import Verif.Props.Stats
/-!
# Properties of the step-size control and the end of `DormandPrince5` runs
-/

namespace Cyphus
open X
set_option linter.unusedSectionVars false
set_option autoImplicit false

section
variable {F : Type} {n : Nat} {P : Type}
  [Add F] [Sub F] [Mul F] [Div F] [Neg F] [OfScientific F] [Fl F] [FlInf F]

theorem DP5.run_fields {b : Builder F n P} {s0 s : DP5.St F n P} (hb : b.build DP5.alg = .ok s0) {k : Nat}
    (hs : Steps DP5.alg none k s0 s) : s.opts = b.opts ∧ s.cache.reject = false ∧ s.tdir = s0.tdir ∧
    s.tfinal = s0.tfinal := by
  refine Steps.induct (alg := DP5.alg) (I := fun _ s => s.opts = b.opts ∧ s.cache.reject = false ∧
    s.tdir = s0.tdir ∧ s.tfinal = s0.tfinal) ?_ ?_ hs
  · have h' : s0 = _ := (Res.ok.inj hb).symm
    subst h'
    exact ⟨rfl, rfl, rfl, rfl⟩
  · rintro _ s o s' ⟨h1, -, h3, h4⟩ h
    obtain ⟨⟨fuel, h⟩, -⟩ := stepReturns_none_iff.1 h
    obtain ⟨_, _, _, _, _, _, _, sp⟩ := DP5.step_spec h
    exact ⟨sp.opts.trans h1, sp.reject, sp.tdir.trans h3, sp.tfinal.trans h4⟩

end

noncomputable section
variable {n : ℕ} {P : Type} {E : DP5.Env n} {b : Builder X n P} {t0 : ℝ} {u0 : Fin n → ℝ}
  {s0 : DP5.St X n P}

theorem DP5.build_tdir (hb : b.build DP5.alg = .ok s0) : ∃ d : ℝ, s0.tdir = fin d ∧ d * d = 1 := by
  have h' : s0.tdir = Fl.copysign 1.0 (b.tfinal - b.t) := by rw [← Res.ok.inj hb]
  rw [h', X.sci]
  generalize b.tfinal - b.t = x
  cases x with
  | nan => exact ⟨|1.0|, rfl, by norm_num⟩
  | ninf => exact ⟨-|1.0|, rfl, by norm_num⟩
  | pinf => exact ⟨|1.0|, rfl, by norm_num⟩
  | fin x =>
    rw [copysign_fin]
    refine ⟨_, rfl, ?_⟩
    split <;> norm_num

/-! ### C27, C28, C29: limits of the proposed step -/

/-- **C27** The step proposed after a call (`dt`) is at most `facr` times the step taken (`dtprev`). If no attempt
of the call was rejected, the ratio is in `[facl, facr]`, or the step is limited by `dtmax`. The right-hand side is
arbitrary (NaN and infinities included). -/
theorem C27_step_ratio_dp5 (hb : b.build DP5.alg = .ok s0) {sf fl fr be : ℝ} {mx : Option ℝ}
    (C : DP5.Ctl b.opts sf fl fr be mx) {k : ℕ} {s s' : DP5.St X n P} {o : Option ℕ} {h : ℝ}
    (hs : Steps DP5.alg none k s0 s) (hr : StepReturns DP5.alg none s o s') (hh : s'.dtprev = fin h) :
    ∃ h', s'.dt = fin h' ∧ |h'| ≤ fr * |h| ∧
      (s'.stats.function_evals = s.stats.function_evals + 6 → ∃ ρ, min fl fr ≤ ρ ∧ ρ ≤ fr ∧
        ((h' = ρ * h ∧ ∀ m ∈ mx, |ρ * h| ≤ m) ∨ ∃ m ∈ mx, m < |ρ * h| ∧ |h'| = m)) := by
  obtain ⟨ho, hrj, htd, -⟩ := DP5.run_fields hb hs
  obtain ⟨d, hd, hd1⟩ := DP5.build_tdir hb
  obtain ⟨⟨fuel, hr⟩, -⟩ := stepReturns_none_iff.1 hr
  obtain ⟨k, e, q, sp, -, -, -, q1, q2, hdt⟩ := DP5.step_dt_X (by rw [ho]; exact C) (htd.trans hd) hr hh
  obtain ⟨b1, b2, b3, b4⟩ := DP5.nextH_bounds hd1 C.dtmax_pos (h := h) (rej := if k = 0 then s.cache.reject else true)
    q1 q2 C.facl_pos C.facr_pos
  refine ⟨_, hdt, b1, fun hf => ?_⟩
  have hk : k = 0 := by have := sp.function_evals; omega
  obtain ⟨ρ, r1, r2, r3⟩ := b4 (by simp [hk, hrj])
  refine ⟨ρ, r1, r2, r3.imp_right ?_⟩
  rintro ⟨m, h1, h2, h3⟩
  refine ⟨m, h1, h2, ?_⟩
  have hd2 : |d| = 1 := by
    have : |d| * |d| = 1 := by rw [← abs_mul, hd1, abs_one]
    nlinarith [abs_nonneg d]
  rw [h3, abs_mul, hd2, one_mul, abs_of_pos (C.dtmax_pos m h1)]

/-- **C28** The step proposed after a call is at most `dtmax`. -/
theorem C28_dtmax_dp5 (hb : b.build DP5.alg = .ok s0) {sf fl fr be m : ℝ}
    (C : DP5.Ctl b.opts sf fl fr be (some m)) {k : ℕ} {s s' : DP5.St X n P} {o : Option ℕ} {h : ℝ}
    (hs : Steps DP5.alg none k s0 s) (hr : StepReturns DP5.alg none s o s') (hh : s'.dtprev = fin h) :
    ∃ h', s'.dt = fin h' ∧ |h'| ≤ m := by
  obtain ⟨ho, hrj, htd, -⟩ := DP5.run_fields hb hs
  obtain ⟨d, hd, hd1⟩ := DP5.build_tdir hb
  obtain ⟨⟨fuel, hr⟩, -⟩ := stepReturns_none_iff.1 hr
  obtain ⟨k, e, q, sp, -, -, -, q1, q2, hdt⟩ := DP5.step_dt_X (by rw [ho]; exact C) (htd.trans hd) hr hh
  obtain ⟨b1, b2, -⟩ := DP5.nextH_bounds hd1 C.dtmax_pos (h := h) (rej := if k = 0 then s.cache.reject else true)
    q1 q2 C.facl_pos C.facr_pos
  exact ⟨_, hdt, b2 m rfl⟩

/-- **C29** If an attempt of the call was rejected, the proposed step is not larger than the one taken. -/
theorem C29_no_growth_after_reject_dp5 (hb : b.build DP5.alg = .ok s0) {sf fl fr be : ℝ} {mx : Option ℝ}
    (C : DP5.Ctl b.opts sf fl fr be mx) {k : ℕ} {s s' : DP5.St X n P} {o : Option ℕ} {h : ℝ}
    (hs : Steps DP5.alg none k s0 s) (hr : StepReturns DP5.alg none s o s') (hh : s'.dtprev = fin h)
    (hrej : s'.stats.function_evals ≠ s.stats.function_evals + 6) :
    ∃ h', s'.dt = fin h' ∧ |h'| ≤ |h| := by
  obtain ⟨ho, hrj, htd, -⟩ := DP5.run_fields hb hs
  obtain ⟨d, hd, hd1⟩ := DP5.build_tdir hb
  obtain ⟨⟨fuel, hr⟩, -⟩ := stepReturns_none_iff.1 hr
  obtain ⟨k, e, q, sp, -, -, -, q1, q2, hdt⟩ := DP5.step_dt_X (by rw [ho]; exact C) (htd.trans hd) hr hh
  obtain ⟨b1, b2, b3, -⟩ := DP5.nextH_bounds hd1 C.dtmax_pos (h := h)
    (rej := if k = 0 then s.cache.reject else true) q1 q2 C.facl_pos C.facr_pos
  have hk : k ≠ 0 := by rintro rfl; exact hrej sp.function_evals
  exact ⟨_, hdt, b3 (by simp [hk])⟩

/-- **C28** In a forward run with sane options a step taken is at most `1.01 * dtmax`, except for the first one. -/
theorem C28_step_taken_dp5 (H : DP5.Problem E b t0 u0) (hS : E.Sane) (ht : t0 ≤ E.tf)
    (hb : b.build DP5.alg = .ok s0) {m : ℝ} (hm : E.mx = some m) {k : ℕ} {s s' : DP5.St X n P} {o : Option ℕ}
    (hs : Steps DP5.alg none (k + 1) s0 s) (hr : StepReturns DP5.alg none s o s') :
    ∃ h, s'.dtprev = fin h ∧ 0 ≤ h ∧ h ≤ 1.01 * m := by
  have hd : E.d = 1 := by rw [H.dir, if_pos (by linarith)]
  have hmp : 0 < m := H.ctl.dtmax_pos m hm
  have key : ∀ (k : ℕ) (s : DP5.St X n P), Steps DP5.alg none k s0 s →
      ∃ t u h, DP5.Pos E s t u h ∧ 0 ≤ h ∧ (k ≠ 0 → h ≤ m) := by
    intro k
    induction k with
    | zero =>
      intro s hs
      obtain rfl := Steps.zero_eq rfl hs
      exact ⟨_, _, _, H.pos hb, by norm_num, by simp⟩
    | succ k ih =>
      intro s hs
      obtain ⟨s1, o, h1, h2⟩ := Steps.cases_snoc hs
      obtain ⟨t, u, h, Q, h3, -⟩ := ih s1 h1
      have h2' := h2
      obtain ⟨⟨fuel, h2⟩, -⟩ := stepReturns_none_iff.1 h2
      obtain ⟨_, q, _, _, _, _, _, _, _, hdp, _⟩ := Q.good.step h2
      obtain ⟨j, h4, h5, -, -, Q', -, -, -, -, -, -, -, p⟩ := Q.step hS (by rw [hd]; ring) h2
      rw [hd] at p
      simp only [mul_one] at p
      refine ⟨_, _, _, Q', (p h3).2, fun _ => ?_⟩
      obtain ⟨h6, e6, b6⟩ := C28_dtmax_dp5 hb (by have := H.ctl; rw [hm] at this; exact this) h1 h2' hdp
      rw [Q'.good.num.dt] at e6
      injection e6 with e6
      rw [e6]
      exact (le_abs_self _).trans b6
  obtain ⟨t, u, h, Q, h1, h2⟩ := key _ s hs
  have h2 := h2 (by omega)
  obtain ⟨⟨fuel, hr⟩, -⟩ := stepReturns_none_iff.1 hr
  obtain ⟨j, h4, q, r, _, _, _, _, hl, hdp, _⟩ := Q.good.step hr
  have r2 := r
  obtain ⟨ρ, ρ0, ρ1, e1⟩ := r.sane hS Q.good.ctl.safe_pos Q.good.ctl.facl_pos
  obtain ⟨b1, -, b3, -⟩ := DP5.first_bound E (by rw [hd]; ring) (h := h) Q.behind
  rw [hd] at b1 b3
  simp only [mul_one] at b1 b3
  have hf : E.first t h ≤ 1.01 * m := by
    unfold DP5.Env.first
    rw [hd]
    split
    · rename_i hc; norm_num at hc ⊢; linarith
    · norm_num; linarith
  refine ⟨h4, hdp, ?_, ?_⟩
  · rw [e1]; exact mul_nonneg ρ0.le (b3 h1)
  · rw [e1]
    have := b3 h1
    nlinarith

/-- **C28** The first step ignores `dtmax` (and `dtstart`): if the first attempt is accepted and `tfinal` is not
within reach, its size is exactly `1e-6`. -/
theorem C28_first_step_ignores_dtmax_dp5 (H : DP5.Problem E b t0 u0) (ht : t0 + 1.01e-6 ≤ E.tf)
    (hb : b.build DP5.alg = .ok s0) {s' : DP5.St X n P} {o : Option ℕ} (hr : StepReturns DP5.alg none s0 o s')
    (hrej : s'.stats.function_evals = 6) : s'.dtprev = fin 1e-6 ∧ s'.t = fin (t0 + 1e-6) := by
  have hd : E.d = 1 := by rw [H.dir, if_pos (by norm_num at ht; linarith)]
  obtain ⟨G, -, -, -, -, -, hst, -⟩ := H.build hb
  obtain ⟨⟨fuel, hr⟩, -⟩ := stepReturns_none_iff.1 hr
  obtain ⟨j, h4, q, r, _, _, _, G', hl, hdp, sp⟩ := G.step hr
  have hj : j = 0 := by have := sp.function_evals; rw [hst, hrej] at this; simp [Stats.new] at this; omega
  subst hj
  cases r
  have hf : E.first t0 1e-6 = 1e-6 := by
    unfold DP5.Env.first
    rw [hd, if_neg]
    norm_num at ht ⊢
    linarith
  rw [hf] at hdp G'
  exact ⟨hdp, G'.num.t⟩

/-! ### C56: the step after the first one -/

/-- **C56** Because the stored previous error is zero at the start, the step proposed after the first accepted step
is always `facl` times that step (for `beta > 0` and `facl <= facr`, as by default): the step is cut by the largest
possible factor however small the error was. -/
theorem C56_first_proposal_dp5 (hb : b.build DP5.alg = .ok s0) {sf fl fr be : ℝ} {mx : Option ℝ}
    (C : DP5.Ctl b.opts sf fl fr be mx) (hbe : 0 < be) (hfl : fl ≤ fr) {s' : DP5.St X n P} {o : Option ℕ} {h : ℝ}
    (hr : StepReturns DP5.alg none s0 o s') (hh : s'.dtprev = fin h)
    (hrej : s'.stats.function_evals = 6) (hm : ∀ m ∈ mx, |fl * h| ≤ m) : s'.dt = fin (fl * h) := by
  obtain ⟨ho, hrj, htd, -⟩ := DP5.run_fields hb (Steps.zero (alg := DP5.alg) (cb := none) s0)
  obtain ⟨d, hd, hd1⟩ := DP5.build_tdir hb
  have hst : s0.stats = Stats.new ∧ s0.cache.facold = (0.0 : X) := by rw [← Res.ok.inj hb]; exact ⟨rfl, rfl⟩
  obtain ⟨⟨fuel, hr⟩, -⟩ := stepReturns_none_iff.1 hr
  obtain ⟨k, e, q, sp, he, -, hq, q1, q2, hdt⟩ := DP5.step_dt_X (by rw [ho]; exact C) (htd.trans hd) hr hh
  have hk : k = 0 := by have := sp.function_evals; rw [hst.1, hrej] at this; simp [Stats.new] at this; omega
  have hq' : q = 1 / fl := by
    have hz : (0.0 : X) = fin 0 := by rw [X.sci]; norm_num
    have hw : ∀ w : X, Fl.min (fin (1 / fl)) (w / fin 0 / fin sf) = fin (1 / fl) ∨
        (∃ r : ℝ, w = fin r ∧ r < 0) ∨ w = ninf := by
      intro w
      cases w with
      | nan => exact .inl rfl
      | ninf => exact .inr (.inr rfl)
      | pinf =>
        left
        have e1 : (pinf : X) / fin 0 = pinf := by
          change (if (0:ℝ) < 0 then ninf else pinf : X) = pinf
          simp
        rw [e1]
        have e2 : (pinf : X) / fin sf = pinf := by
          change (if sf < 0 then ninf else pinf : X) = pinf
          rw [if_neg (not_lt.2 C.safe_pos.le)]
        rw [e2]; rfl
      | fin r =>
        rw [X.div_fin_zero]
        by_cases h0 : r < 0
        · exact .inr (.inl ⟨r, rfl, h0⟩)
        · left
          rcases (not_lt.1 h0).lt_or_eq with h1 | h1
          · have : X.infSign r = pinf := by unfold X.infSign; simp [h1]
            rw [this]
            have e2 : (pinf : X) / fin sf = pinf := by
              change (if sf < 0 then ninf else pinf : X) = pinf
              rw [if_neg (not_lt.2 C.safe_pos.le)]
            rw [e2]; rfl
          · have : X.infSign r = nan := by unfold X.infSign; simp [← h1]
            rw [this]; rfl
    have hneg : ∀ w : X, w = DP5.fac11 s0.opts e → ¬ ((∃ r : ℝ, w = fin r ∧ r < 0) ∨ w = ninf) := by
      obtain ⟨r, rfl, r0, -⟩ := he
      rintro w rfl
      rw [ho, C.fac11 r, powX_fin]
      unfold powR
      split
      · rintro (⟨x, hx, hx0⟩ | hx)
        · injection hx with hx; linarith
        · cases hx
      · split
        · rename_i hr
          rintro (⟨x, hx, hx0⟩ | hx)
          · injection hx with hx
            have := Real.rpow_pos_of_pos hr (DP5.expo be)
            linarith
          · cases hx
        · rename_i hr
          have : r = 0 := le_antisymm (not_lt.1 hr) r0
          rw [if_pos this]
          split
          · rintro (⟨x, hx, hx0⟩ | hx)
            · injection hx with hx; linarith
            · cases hx
          · rintro (⟨x, hx, hx0⟩ | hx)
            · cases hx
            · cases hx
    have hcl : DP5.stepFac s0.opts s0.cache.facold e = fin (1 / fl) := by
      unfold DP5.stepFac
      rw [ho, hst.2, C.facl, C.facr, C.beta, hz, X.powf_zero hbe, C.safe]
      simp only [DP5.inv_fin C C.facl_pos, DP5.inv_fin C C.facr_pos]
      rw [(hw _).resolve_right (by rw [← ho]; exact hneg _ rfl), max_fin, max_eq_right]
      exact one_div_le_one_div_of_le C.facl_pos hfl
    rw [hcl] at hq
    injection hq with hq
    exact hq.symm
  rw [hdt, hq', if_pos hk, hrj]
  unfold DP5.nextH
  have e1 : h / (1 / fl) = fl * h := by have := C.facl_pos; field_simp
  cases mx with
  | none => simp only [e1, if_false, Bool.false_eq_true]
  | some m =>
    have := hm m rfl
    simp only [e1, not_lt.2 this, if_false, Bool.false_eq_true]

/-! ### C33: calling `step()` after the end -/

/-- **C33** After `Success`, any number of further `step()` calls return, append copies of the final point and keep
`Success`. -/
theorem C33_after_success_dp5 (H : DP5.Problem E b t0 u0) (hS : E.Sane) (hb : b.build DP5.alg = .ok s0) {k : ℕ}
    {s : DP5.St X n P} (hs : Steps DP5.alg none k s0 s) (hc : s.sol.retcode = .Success) (j : ℕ) :
    ∃ s', Steps DP5.alg none j s s' ∧ s'.sol.retcode = .Success ∧ s'.t = s.t ∧ s'.u = s.u ∧
      s'.sol.ts = s.sol.ts ++ List.replicate j s.t ∧ s'.sol.us = s.sol.us ++ List.replicate j s.u := by
  induction j with
  | zero => exact ⟨s, Steps.zero (alg := DP5.alg) (cb := none) s, hc, rfl, rfl, by simp, by simp⟩
  | succ j ih =>
    obtain ⟨s1, h1, h2, h3, h4, h5, h6⟩ := ih
    obtain ⟨t, u, h, Q, h7⟩ := H.run hS hb (hs.append h1)
    have hl := h7.1 h2
    obtain ⟨ht, hh⟩ := Q.last hl
    obtain ⟨-, -, -, b4⟩ := DP5.first_bound E H.dir_sq.1 (h := h) Q.behind
    obtain ⟨s2, h8⟩ := DP5.step_first Q.good (by rw [b4 hh ht, DP5.err_zero]; norm_num)
    obtain ⟨i, h', h'', -, -, Q', sp, -, -, -, -, p, -⟩ := Q.step hS H.dir_sq.1 h8
    obtain ⟨rfl, -, hl2⟩ := p hl
    have hc2 : s2.sol.retcode = .Success := (sp.success fun _ => hl2).2 hl2
    have et : s2.t = s1.t := by rw [Q'.good.num.t, Q.good.num.t, add_zero]
    have eu : s2.u = s1.u := by rw [Q'.good.num.u, Q.good.num.u, DP5.next_zero]
    refine ⟨s2, .succ h1 (stepReturns_none_iff.2 ⟨⟨1, h8⟩, rfl⟩), hc2, et.trans h3, eu.trans h4, ?_, ?_⟩
    · rw [sp.ts, h5, et, h3, List.replicate_succ', List.append_assoc]
    · rw [sp.us, h6, eu, h4, List.replicate_succ', List.append_assoc]

/-- The sample run ends with `Success`, so C24, C25, C30 and C33 apply to it. -/
example : ∃ (E : DP5.Env 1) (b : Builder X 1 Unit) (s0 s : DP5.St X 1 Unit), DP5.Problem E b 0 (fun _ => 0) ∧
    E.Sane ∧ 0 < E.tf ∧ b.build DP5.alg = .ok s0 ∧ Steps DP5.alg none 2 s0 s ∧ IntegrateReturns DP5.alg none s0 s ∧
    s.sol.retcode = .Success := by
  obtain ⟨s0, s1, s2, hb, h1, h2, h3, -⟩ := DP5.sample_run
  exact ⟨_, _, s0, s2, DP5.sample_problem 1.1e-6, DP5.default_sane _ _ _, by norm_num [DP5.defaultEnv], hb,
    .succ (.succ (.zero _) h1) h2,
    (integrate_iff DP5.fuelMono).2 ⟨1, s1, SomeSteps.succ (SomeSteps.zero _) h1, h2⟩, h3⟩

/-! ### C26: backward integration -/

/-- **C26** Whatever the problem, a backward run first moves away from `tfinal`: the first recorded time after `t0`
is larger than `t0`. -/
theorem C26_first_step_wrong_direction_dp5 (H : DP5.Problem E b t0 u0) (ht : E.tf < t0)
    (hb : b.build DP5.alg = .ok s0) {s : DP5.St X n P} {o : Option ℕ} (hs : StepReturns DP5.alg none s0 o s) :
    ∃ t1, s.t = fin t1 ∧ s.sol.ts = [fin t0, fin t1] ∧ t0 < t1 := by
  have hd : E.d = -1 := by rw [H.dir, if_neg (by linarith)]
  obtain ⟨G, -, -, hts, -⟩ := H.build hb
  obtain ⟨⟨fuel, hs⟩, -⟩ := stepReturns_none_iff.1 hs
  obtain ⟨j, h1, q, r, _, _, _, G', -, -, sp⟩ := G.step hs
  have hf : E.first t0 1e-6 = 1e-6 := by
    unfold DP5.Env.first
    rw [hd, if_neg]
    norm_num
    linarith
  rw [hf] at r
  obtain ⟨ρ, ρ0, e⟩ := r.sign G.ctl.safe_pos G.ctl.facl_pos
  refine ⟨t0 + h1, G'.num.t, by rw [sp.ts, hts, G'.num.t]; rfl, ?_⟩
  have : 0 < h1 := by rw [e]; norm_num [ρ0]
  linarith

/-- The invariant of backward runs without rejections and with infinite `dtmax`. -/
theorem DP5.backward (H : DP5.Problem E b t0 u0) (ht : E.tf < t0) (hmx : E.mx = none)
    (hb : b.build DP5.alg = .ok s0) {k : ℕ} {s : DP5.St X n P} (hs : Steps DP5.alg none k s0 s) :
    6 * k ≤ s.stats.function_evals ∧ (s.stats.function_evals = 6 * k →
      ∃ l t u h, DP5.Good E s t u h ∧ 0 < h ∧ t0 ≤ t ∧ Recorded s.sol l ∧ (l.map Prod.fst).Pairwise (· < ·) ∧
        (∀ p ∈ l, p.1 ≤ t) ∧ s.cache.last = false ∧
        (s.sol.retcode = .Continue ∨ s.sol.retcode = .MaxIters)) := by
  have hd : E.d = -1 := by rw [H.dir, if_neg (by linarith)]
  induction k generalizing s with
  | zero =>
    obtain rfl := Steps.zero_eq rfl hs
    obtain ⟨G, -, hl, h1, h2, hc, -⟩ := H.build hb
    exact ⟨by omega, fun _ => ⟨[(t0, u0)], _, _, _, G, by norm_num, le_rfl, ⟨by simp [h1], by simp [h2]⟩, by simp,
      by simp, hl, .inl hc⟩⟩
  | succ k ih =>
    obtain ⟨s1, o, h1, h2⟩ := Steps.cases_snoc hs
    obtain ⟨i1, i2⟩ := ih h1
    have hrj := (DP5.run_fields hb h1).2.1
    obtain ⟨⟨fuel, h2⟩, -⟩ := stepReturns_none_iff.1 h2
    obtain ⟨_, _, _, _, _, _, _, sp⟩ := DP5.step_spec h2
    have := sp.function_evals
    refine ⟨by omega, fun hfe => ?_⟩
    obtain ⟨l, t, u, h, G, hh, ht0, hl, hp, hlt, hla, hc⟩ := i2 (by omega)
    obtain ⟨j, h4, q, r, _, q1, _, G', hl', -, sp⟩ := G.step h2
    have := sp.function_evals
    have hj : j = 0 := by omega
    subst hj
    cases r
    have hc1 : ¬ (t + 1.01 * h - E.tf) * E.d > 0 := by rw [hd]; norm_num; linarith
    have hf : E.first t h = h := by rw [DP5.Env.first, if_neg hc1]
    rw [hf] at G'
    rw [if_pos rfl, if_neg hc1, hla] at hl'
    have hq : 0 < q := lt_of_lt_of_le (by have := G.ctl.facr_pos; positivity) q1
    refine ⟨l ++ [(t + h, E.next t u h)], _, _, _, G', ?_, by linarith, ⟨?_, ?_⟩, ?_, ?_, hl', ?_⟩
    · rw [hmx]; simp only [DP5.nextH, if_true, hrj, Bool.false_eq_true, if_false]; positivity
    · rw [sp.ts, hl.1, G'.num.t]; simp
    · rw [sp.us, hl.2, G'.num.u]; simp
    · rw [List.map_append, List.pairwise_append]
      refine ⟨hp, by simp, ?_⟩
      intro x hx y hy
      obtain ⟨p, hp, rfl⟩ := List.mem_map.1 hx
      simp at hy
      have := hlt p hp
      linarith
    · intro p hp
      rcases List.mem_append.1 hp with hp | hp
      · have := hlt p hp; linarith
      · simp at hp; subst hp; exact le_rfl
    · obtain ⟨c, h5, h6⟩ := sp.code
      rw [h6, hl']
      simp only [Bool.false_eq_true, if_false]
      split
      · exact .inr rfl
      · rcases h5 with rfl | ⟨h5, -⟩
        · exact hc
        · exact absurd rfl h5

/-- **C26** As long as no attempt is rejected (six evaluations per call) and `dtmax` is infinite, every further
step moves away from `tfinal` as well and the run does not report `Success`. -/
theorem C26_moves_away_dp5 (H : DP5.Problem E b t0 u0) (ht : E.tf < t0) (hmx : E.mx = none)
    (hb : b.build DP5.alg = .ok s0) {k : ℕ} {s : DP5.St X n P} (hs : Steps DP5.alg none k s0 s)
    (hrej : s.stats.function_evals = 6 * k) :
    ∃ l, Recorded s.sol l ∧ l.length = k + 1 ∧ (l.map Prod.fst).Pairwise (· < ·) ∧
      (s.sol.retcode = .Continue ∨ s.sol.retcode = .MaxIters) := by
  obtain ⟨l, t, u, h, -, -, -, hl, hp, -, -, hc⟩ := (DP5.backward H ht hmx hb hs).2 hrej
  obtain ⟨l', h1, -, h2, -⟩ := C15_recorded_steps_dp5 H hb hs
  refine ⟨l, hl, ?_, hp, hc⟩
  have e := congrArg List.length (hl.1.symm.trans h1.1)
  simp at e
  omega

/-- **C26** Such a run of `integrate()` ends with `MaxIters`. -/
theorem C26_max_iters_dp5 (H : DP5.Problem E b t0 u0) (ht : E.tf < t0) (hmx : E.mx = none)
    (hb : b.build DP5.alg = .ok s0) {s : DP5.St X n P} (hs : IntegrateReturns DP5.alg none s0 s)
    (hrej : s.stats.function_evals = 6 * s.stats.steps) :
    s.sol.retcode = .MaxIters ∧ ∃ t, s.t = fin t ∧ t0 < t := by
  obtain ⟨k, s1, h1, h2⟩ := (integrate_iff DP5.fuelMono).1 hs
  have h3 : Steps DP5.alg none (k + 1) s0 s := .succ h1.steps h2
  have hsteps : s.stats.steps = k + 1 := by
    have := (C31_statistics_dp5 hb h3).1
    exact this
  obtain ⟨l, t, u, h, G, -, -, hl, hp, hlt, -, hc⟩ := (DP5.backward H ht hmx hb h3).2 (by rw [hrej, hsteps])
  have hne : s.sol.retcode ≠ .Continue := by
    have := (stepReturns_none_iff.1 h2).2
    intro hcon
    rw [hcon] at this
    simp at this
  refine ⟨hc.resolve_left hne, t, G.num.t, ?_⟩
  -- the first recorded time after `t0` is larger
  obtain ⟨l', h4, h5, h6, -⟩ := C15_recorded_steps_dp5 H hb h3
  have hll : l.map (fun p => fin p.1) = l'.map (fun p => fin p.1) := hl.1.symm.trans h4.1
  rcases l' with _ | ⟨p0, _ | ⟨p1, l'⟩⟩
  · simp at h6
  · simp at h6
  · rcases l with _ | ⟨q0, _ | ⟨q1, l⟩⟩
    · simp at hll
    · simp at hll
    · simp only [List.map_cons, List.cons.injEq, fin.injEq] at hll
      simp at h5
      subst h5
      simp only [List.map_cons, List.pairwise_cons] at hp
      have := hp.1 q1.1 (by simp)
      have := hlt q1 (by simp)
      have := hll.1
      linarith

/-- `u' = 1` from `1` to `0`: the call of `integrate()` returns, with `MaxIters`. -/
example : ∃ s0 s : DP5.St X 1 Unit, (Builder.default DP5.alg (DP5.constRhs fun _ => 1) (fv fun _ => 0)
    (fin 1, fin 0) ()).build DP5.alg = .ok s0 ∧ IntegrateReturns DP5.alg none s0 s ∧
    s.sol.retcode = .MaxIters := by
  obtain ⟨s0, hb⟩ : ∃ s0 : DP5.St X 1 Unit, (Builder.default DP5.alg (DP5.constRhs fun _ => 1)
    (fv fun _ => 0) (fin 1, fin 0) ()).build DP5.alg = .ok s0 := ⟨_, rfl⟩
  have H := DP5.default_problem (P := Unit) one_ne_zero (dudt := DP5.constRhs fun _ => 1) (p := ())
    (f := fun _ _ _ => 1) (fun _ _ _ => rfl) 1 0 (fun _ => 0)
  obtain ⟨s, hs⟩ := C13_integrate_returns_dp5 H (DP5.default_sane _ _ _) (by norm_num [DP5.defaultEnv])
    (by norm_num [DP5.defaultEnv]) (fun t u => ⟨1, one_pos, 1, fun _ _ _ _ _ => by simp [DP5.defaultEnv]⟩) hb
  refine ⟨s0, s, hb, hs, (C26_max_iters_dp5 H (by norm_num [DP5.defaultEnv]) rfl hb hs ?_).1⟩
  obtain ⟨k, s1, h1, h2⟩ := (integrate_iff DP5.fuelMono).1 hs
  have h3 : Steps DP5.alg none (k + 1) s0 s := .succ h1.steps h2
  rw [(C31_statistics_dp5 hb h3).1]
  generalize k + 1 = k at h3
  clear * - h3 H hb
  refine (Steps.induct (alg := DP5.alg) (I := fun k s => (∃ t u h, DP5.Good (DP5.defaultEnv (fun _ _ _ => 1) 1 0) s t u h) ∧
    s.stats.function_evals = 6 * k) ?_ ?_ h3).2
  · obtain ⟨G, -, -, -, -, -, h2, -⟩ := H.build hb
    exact ⟨⟨_, _, _, G⟩, by rw [h2]; rfl⟩
  · rintro k s o s' ⟨⟨t, u, h, G⟩, h1⟩ h2
    obtain ⟨⟨fuel, h2⟩, -⟩ := stepReturns_none_iff.1 h2
    obtain ⟨j, h4, q, r, _, q1, _, G', hl', -, sp⟩ := G.step h2
    refine ⟨⟨_, _, _, G'⟩, ?_⟩
    have hj : j = 0 := by
      cases r with
      | zero => rfl
      | succ he _ =>
        exfalso
        change 1 < DP5.errR 1e-7 1e-3 (fun _ _ => fun _ => 1) _ _ _ at he
        rw [DP5.const_err] at he
        linarith
    subst hj
    have := sp.function_evals
    omega

/-! ### Cases meeting the hypotheses of C27, C28, C29 and C56 -/

/-- The sample run: first step, with the options of C27 and C56. -/
example : ∃ (b : Builder X 1 Unit) (s0 s : DP5.St X 1 Unit), b.build DP5.alg = .ok s0 ∧
    DP5.Ctl b.opts 0.9 0.2 10 0.04 none ∧ StepReturns DP5.alg none s0 (some 1) s ∧ s.dtprev = fin 1e-6 ∧
    s.stats.function_evals = 6 ∧ s.dt = fin 2e-7 := by
  obtain ⟨s0, s1, s2, hb, h1, -⟩ := DP5.sample_run
  have H := DP5.sample_problem 1.1e-6
  have h1' := h1
  obtain ⟨G0, -, -, -, -, -, hst0, -⟩ := H.build hb
  obtain ⟨⟨fuel, h1'⟩, -⟩ := stepReturns_none_iff.1 h1'
  obtain ⟨k, h, q, r1, -, q1, q2, G1, l1, hdp, sp1⟩ := G0.step h1'
  obtain ⟨rfl, rfl⟩ := DP5.sampleEnv_rej r1
  have hfe : s1.stats.function_evals = 6 := by rw [sp1.function_evals, hst0]; rfl
  have hdp : s1.dtprev = fin 1e-6 := (C28_first_step_ignores_dtmax_dp5 H (by norm_num [DP5.defaultEnv]) hb h1 hfe).1
  refine ⟨_, s0, s1, hb, H.ctl, h1, hdp, hfe, ?_⟩
  rw [C56_first_proposal_dp5 hb H.ctl (by norm_num [DP5.defaultEnv]) (by norm_num [DP5.defaultEnv]) h1 hdp hfe
    (by simp [DP5.defaultEnv])]
  norm_num [DP5.defaultEnv]

/-- A call with a rejected attempt: the right-hand side jumps from `0` to `10^6` at the initial time. -/
example : ∃ (b : Builder X 1 Unit) (s0 s : DP5.St X 1 Unit) (o : Option ℕ) (h : ℝ), b.build DP5.alg = .ok s0 ∧
    DP5.Ctl b.opts 0.9 0.2 10 0.04 none ∧ StepReturns DP5.alg none s0 o s ∧ s.dtprev = fin h ∧
    s.stats.function_evals ≠ s0.stats.function_evals + 6 := by
  classical
  set f : ℝ → (Fin 1 → ℝ) → Fin 1 → ℝ := fun t _ _ => if t ≤ 0 then 0 else 1000000 with hf
  set dudt : Rhs X 1 Unit := fun _ _ _ t _ => match t with
    | fin t => if t ≤ 0 then fin 0 else fin 1000000
    | x => x with hdudt
  have H := DP5.default_problem (P := Unit) one_ne_zero (dudt := dudt) (p := ()) (f := f) (by
    intro _ t u
    funext i
    simp only [hdudt, hf, fv_apply]
    split <;> rfl) 0 1 (fun _ => 0)
  obtain ⟨s0, hb⟩ : ∃ s0 : DP5.St X 1 Unit, (Builder.default DP5.alg dudt (fv fun _ => 0) (fin 0, fin 1)
    ()).build DP5.alg = .ok s0 := ⟨_, rfl⟩
  obtain ⟨o, s, hs⟩ := C13_step_returns_dp5 H (DP5.default_sane _ _ _) (by norm_num [DP5.defaultEnv])
    (by norm_num [DP5.defaultEnv]) hb (Steps.zero (alg := DP5.alg) (cb := none) s0) (fun t u _ _ =>
      ⟨1, one_pos, 1000000, fun t' _ _ _ _ => by simp only [DP5.defaultEnv, hf]; split <;> norm_num⟩)
  obtain ⟨G0, -, -, -, -, -, hst0, -⟩ := H.build hb
  obtain ⟨⟨fuel, hs'⟩, -⟩ := stepReturns_none_iff.1 hs
  obtain ⟨k, h, q, r1, he, q1, q2, G1, l1, hdp, sp1⟩ := G0.step hs'
  refine ⟨_, s0, s, o, h, hb, H.ctl, hs, hdp, ?_⟩
  rw [sp1.function_evals]
  intro hk
  have hk : k = 0 := by omega
  subst hk
  cases r1
  have hfst : (DP5.defaultEnv f 0 1).first 0 1e-6 = 1e-6 := by
    unfold DP5.Env.first
    rw [if_neg]
    norm_num [DP5.defaultEnv]
  rw [hfst] at he
  clear_value f
  have hK : ∀ t v, 0 < t → f t v = fun _ => 1000000 := by
    intro t v ht; funext i; simp only [hf]; rw [if_neg (by linarith)]
  have k1 : DP5.K1 f 0 (fun _ => 0) = 0 := by funext i; simp [DP5.K1, hf]
  have k3 : DP5.K3 f 0 (fun _ => 0) 1e-6 = fun _ => 1000000 := by
    rw [DP5.K3, hK]; rw [DP5.C3_val]; norm_num
  have k4 : DP5.K4 f 0 (fun _ => 0) 1e-6 = fun _ => 1000000 := by
    rw [DP5.K4, hK]; rw [DP5.C4_val]; norm_num
  have k5 : DP5.K5 f 0 (fun _ => 0) 1e-6 = fun _ => 1000000 := by
    rw [DP5.K5, hK]; rw [DP5.C5_val]; norm_num
  have k6 : DP5.K6 f 0 (fun _ => 0) 1e-6 = fun _ => 1000000 := by
    rw [DP5.K6, hK]; norm_num
  have k7 : DP5.K7 f 0 (fun _ => 0) 1e-6 = fun _ => 1000000 := by
    rw [DP5.K7, hK]; norm_num
  have hun : DP5.unewR f 0 (fun _ => 0) 1e-6 = fun _ => 349 / 384 := by
    funext i
    simp only [DP5.unewR, k1, k3, k4, k5, k6, DP5.A71_val, DP5.A73_val, DP5.A74_val, DP5.A75_val, DP5.A76_val]
    norm_num
  have hue : DP5.uerrR f 0 (fun _ => 0) 1e-6 = fun _ => -71 / 57600 := by
    funext i
    simp only [DP5.uerrR, k1, k3, k4, k5, k6, k7, DP5.E1_val, DP5.E3_val, DP5.E4_val, DP5.E5_val, DP5.E6_val,
      DP5.E7_val]
    norm_num
  change DP5.errR 1e-7 1e-3 f 0 (fun _ => 0) 1e-6 ≤ 1 at he
  unfold DP5.errR Spec.errNorm at he
  rw [hun, hue, Real.sqrt_le_one] at he
  norm_num at he

/-- A problem with a finite `dtmax` and a call of `step()`. -/
example : ∃ (E : DP5.Env 1) (b : Builder X 1 Unit) (s0 s s' : DP5.St X 1 Unit) (o : Option ℕ) (h : ℝ),
    DP5.Problem E b 0 (fun _ => 0) ∧ E.Sane ∧ E.mx = some 1e-9 ∧ b.build DP5.alg = .ok s0 ∧
    Steps DP5.alg none 1 s0 s ∧ StepReturns DP5.alg none s o s' ∧ s'.dtprev = fin h := by
  have Q := DP5.sample_problem 1
  have H : DP5.Problem { DP5.defaultEnv (fun _ _ _ => 1) 0 1 with mx := some 1e-9 }
      ((DP5.sampleBuilder 1).sets [.dtmax (1e-9)]) 0 (fun _ => 0) :=
    ⟨Q.rhs, Q.u, Q.t, Q.dt, Q.tfinal, Q.dir, ⟨Q.tol.abstol, Q.tol.reltol, Q.tol.abs_pos,
      Q.tol.rel_nonneg⟩, ⟨Q.ctl.safe, Q.ctl.facl, Q.ctl.facr, Q.ctl.beta, Q.ctl.safe_pos, Q.ctl.facl_pos,
      Q.ctl.facr_pos, Q.ctl.beta_nonneg, rfl, by rintro m ⟨⟩; norm_num, Q.ctl.stiff⟩, Q.dim⟩
  have hS : DP5.Env.Sane { DP5.defaultEnv (n := 1) (fun _ _ _ => 1) 0 1 with mx := some 1e-9 } :=
    ⟨(DP5.default_sane (n := 1) (fun _ _ _ => 1) 0 1).safe, (DP5.default_sane (n := 1) (fun _ _ _ => 1) 0 1).facl,
     (DP5.default_sane (n := 1) (fun _ _ _ => 1) 0 1).expo⟩
  obtain ⟨s0, hb⟩ : ∃ s0 : DP5.St X 1 Unit, ((DP5.sampleBuilder 1).sets [.dtmax (1e-9)]).build DP5.alg = .ok s0 :=
    ⟨_, rfl⟩
  have hlb : ∀ t u, LocallyBounded (n := 1) (fun _ _ _ => 1) t u := fun t u =>
    ⟨1, one_pos, 1, fun _ _ _ _ _ => by simp⟩
  obtain ⟨o, s, hs⟩ := C13_step_returns_dp5 H hS (by norm_num [DP5.defaultEnv]) (by norm_num [DP5.defaultEnv]) hb
    (Steps.zero (alg := DP5.alg) (cb := none) s0) fun t u _ _ => hlb t u
  have hst : Steps DP5.alg none 1 s0 s := .succ (.zero _) hs
  obtain ⟨o', s', hs'⟩ := C13_step_returns_dp5 H hS (by norm_num [DP5.defaultEnv]) (by norm_num [DP5.defaultEnv]) hb
    hst fun t u _ _ => hlb t u
  obtain ⟨h, h1, -⟩ := C28_step_taken_dp5 H hS (by norm_num [DP5.defaultEnv]) hb rfl hst hs'
  exact ⟨_, _, s0, s, s', o', h, H, hS, rfl, hb, hst, hs', h1⟩

end
end Cyphus
