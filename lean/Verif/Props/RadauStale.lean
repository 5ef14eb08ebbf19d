import Verif.Proofs.RadauSample
/-!
# C44: a step with the decomposition of another step size
-/

namespace Cyphus
open X
set_option autoImplicit false
set_option linter.unusedSectionVars false
noncomputable section

/-- `u' = 1`, `u(0) = 0` on `[0, 2.00005e-6]`, with `dtmax = 1e-6`; all other options have their default values. -/
def staleBuilder : Builder X 1 Unit :=
  (Builder.default Radau.alg (fun _ _ _ _ => fv fun _ => 1) (fv fun _ => 0) (fin 0, fin 2.00005e-6) ()).set (.dtmax (fin 1e-6))

/-- **C44** The decomposition may belong to another step size than the step: `u' = 1` is integrated in two steps, of sizes
`1e-6` and `1.00005e-6`. Nothing is decomposed for the second step, although its size was changed to reach the end of the
interval; so the second increment is `1e-6`, like the first one, instead of `1.00005e-6`. The run ends with `Success`, but
the result is `2e-6` (up to the rounding of the constants) instead of `2.00005e-6`. -/
theorem C44_stale_radau : ∃ s0 s1 s2 : Radau.St X 1 Unit, staleBuilder.build Radau.alg = .ok s0 ∧
    StepReturns Radau.alg none s0 (some 1) s1 ∧ StepReturns Radau.alg none s1 none s2 ∧ s2.sol.retcode = .Success ∧
    s1.t = fin 1e-6 ∧ s2.t = fin 2.00005e-6 ∧ s2.stats.decompositions = s1.stats.decompositions ∧
    ∃ x, s2.u = fv (fun _ => x) ∧ |x - 2e-6| ≤ 1e-21 := by
  obtain ⟨s0, hb⟩ : ∃ s0 : Radau.St X 1 Unit, staleBuilder.build Radau.alg = .ok s0 := ⟨_, rfl⟩
  set C := Radau.defaultClock 0 2.00005e-6 (some 1e-6) with hC
  have T : Radau.Timed C staleBuilder := (Radau.default_timed _ _ _ _ _).dtmax (by norm_num)
  have R : Radau.RealProblem staleBuilder (fun _ _ _ => 1) (fun _ _ _ _ => 0) (fun _ => 0) :=
    Radau.quad_problem (fun _ _ => rfl) (fun _ _ _ => rfl) rfl rfl
  have D : Radau.DefTol staleBuilder.opts := ⟨Radau.default_tol.1, Radau.default_tol.2, Radau.default_tol.3⟩
  obtain ⟨φ, Q⟩ := Radau.quad_build R T D (by change 3 ≤ 7; norm_num) hb
  have I := T.idle hb
  have hst : s0.stats.steps = 0 := by rw [← Res.ok.inj hb]; rfl
  have hac : s0.stats.accepts = 0 := by rw [← Res.ok.inj hb]; rfl
  have hms : s0.opts.max_steps = 100000 := by rw [← Res.ok.inj hb]; rfl
  have hmn : s0.opts.max_newt_iter = 7 := by rw [← Res.ok.inj hb]; rfl
  have hth : s0.opts.theta = 0.001 := by rw [← Res.ok.inj hb]; rfl
  have hq2 : s0.opts.quot2 = 1.2 := by rw [← Res.ok.inj hb]; rfl
  have hcf : s0.cache.cfac = fin 13.5 := by
    have : s0.cache.cfac = (0.9 : X) * Fl.ofNat (1 + 2 * 7) := by rw [← Res.ok.inj hb]; rfl
    rw [this, show (0.9 : X) = fin 0.9 from rfl, ofNat_fin, mul_fin]
    norm_num
  have hdec : s0.cache.decompose = true := by rw [← Res.ok.inj hb]
  have hl0 : s0.cache.last = false := by rw [← Res.ok.inj hb]
  have hd1 : C.d = 1 := by norm_num [Radau.Clock.d, hC, Radau.defaultClock]
  have hc0 : Radau.clampLast s0 = s0 := I.clamp_no hd1 (by norm_num [hC, Radau.defaultClock])
  have he := Radau.eps_small
  have he0 := RealFl.eps_pos
  have hv : ∀ i : Fin 1, |(1:ℝ)| ≤ 1 := fun _ => by norm_num
  have hN := fun u => Radau.const_norm (c := 1e-6) (u := u) (v := fun _ => 1) (h := 1e-6) (hf := 1e-6) one_ne_zero hv C.t0
    (by norm_num) (by norm_num) (by norm_num) (by norm_num)
  obtain ⟨d, s1, S1⟩ := Q.go (h := 1e-6) (hf := 1e-6) one_ne_zero (fun _ _ => rfl) (fun _ _ => rfl)
    (by rw [hst, hms]; norm_num) (by rw [hc0]; exact I.step) (by change |(0:ℝ)| * _ < _; norm_num) (fun _ => rfl)
    (fun h => by rw [hdec] at h; simp at h) (lt_of_le_of_lt (hN _) (by norm_num))
  have c1 : s1.sol.retcode = .Continue := by
    rw [S1.code, hc0, hl0]; rfl
  have Q1 := S1.next c1
  have t1 : s1.t = fin 1e-6 := by
    rw [S1.time]
    change fin (0 + 1e-6) = _
    norm_num
  -- the decision after the first step
  obtain ⟨fo, ftd, ftf, ft, fcf⟩ := S1.frame
  have hctl : Radau.Ctl C d.opts := by rw [fo]; exact I.ctl
  have hq : Radau.stepQuot d = fin 0.125 := by
    refine Radau.quot_max (e := max _ _) hctl.facr hctl.facl hctl.safe (by rw [fcf, hcf]) (by rw [fo, hmn]) S1.newt S1.err
      (lt_max_of_lt_right (by norm_num)) (max_le ((hN _).trans (by norm_num)) (by norm_num))
  have key : s1.cache.decompose = false := by
    have hdl : d.cache.last = false := by rw [S1.last, hc0, hl0]
    have b := Radau.acceptState_fields (Radau.countAccept d)
    dsimp only at b
    obtain ⟨-, -, -, -, -, b6, -, -, -, b10, b11, b12, -, -, -, -, b17, b18, b19, -⟩ := b
    rw [S1.eq]
    unfold Radau.acceptStep
    dsimp only
    rw [if_neg (by rw [b17]; change ¬ d.cache.last = true; rw [hdl]; simp)]
    have hp : Radau.stepQuotPred (Radau.countAccept d) (Radau.stepQuot d) = fin 0.125 := by
      unfold Radau.stepQuotPred
      rw [if_neg]
      · exact hq
      · change ¬ (d.opts.modern_pred && decide (d.stats.accepts + 1 > 1)) = true
        rw [S1.accepts, hac]
        simp
    rw [hp]
    change (Radau.nextStep _ (d.dt / _)).cache.decompose = false
    rw [S1.dt, div_fin (by norm_num)]
    set m := Radau.newDeriv (Radau.acceptState (Radau.countAccept d)) with hm
    have m1 : m.opts = s0.opts := by rw [hm]; simp only [Radau.newDeriv]; rw [b12]; exact fo
    have m2 : m.tdir = fin C.d := by rw [hm]; simp only [Radau.newDeriv]; rw [b10]; exact ftd.trans I.tdir
    have m3 : m.tfinal = fin C.tf := by rw [hm]; simp only [Radau.newDeriv]; rw [b11]; exact ftf.trans I.tfinal
    have m4 : m.t = fin 1e-6 := by
      rw [hm]; simp only [Radau.newDeriv]; rw [b6]
      change d.t + d.dt = _
      rw [ft, I.time, S1.dt, add_fin]
      change fin (0 + 1e-6) = _
      norm_num
    have m5 : m.dt = fin 1e-6 := by rw [hm]; simp only [Radau.newDeriv]; rw [b19]; exact S1.dt
    have m6 : m.cache.reject = false := by rw [hm]; simp only [Radau.newDeriv]; rw [b18]; exact S1.reject
    have m7 : m.cache.theta = d.cache.theta := by
      rw [hm]; simp only [Radau.newDeriv, Radau.acceptState]; split <;> rfl
    clear_value m
    have hctl0 := I.ctl
    have ecap : Radau.capStep m (fin (1e-6 / 0.125)) = fin 1e-6 := by
      unfold Radau.capStep
      rw [m1, hctl0.cap_eq, m2, mul_fin, m6, if_neg (by simp), hd1, one_mul, fin_inj]
      simp only [hC, Radau.defaultClock, Radau.capR]
      norm_num [abs_of_pos]
    unfold Radau.nextStep
    dsimp only
    rw [ecap, m1, m2, m3, m4, m5, hctl0.quot1, hd1, show C.q1 = 1 from rfl, show C.tf = 2.00005e-6 from rfl,
      div_fin (by norm_num), div_fin (by norm_num), add_fin, sub_fin, mul_fin, show (0.0 : X) = fin 0.0 from rfl, ge_fin,
      if_neg (by norm_num), if_pos]
    rw [m7, hth, hq2, show (1.2 : X) = fin 1.2 from rfl, show (0.001 : X) = fin 0.001 from rfl, ge_fin, le_fin]
    have hle : Fl.le d.cache.theta (fin 0.001 : X) = true := by
      rcases S1.theta with h | h
      · rw [h, hth, show (0.001 : X) = fin 0.001 from rfl, abs_fin, le_fin]; norm_num [abs_of_pos]
      · rw [h, le_fin]; norm_num
    rw [hle]
    norm_num
  obtain ⟨h1, I1⟩ := S1.idle.idle
  have hh1 : h1 = 1e-6 := by
    have h2 := I1.step
    have h3 := S1.eq
    rw [h3] at key h2
    rw [Radau.acceptStep_keep _ S1.decompose key, S1.dt, fin_inj] at h2
    exact h2.symm
  subst hh1
  obtain ⟨cl1, cl2⟩ := I1.clamp_yes hd1 (by change (0:ℝ) ≤ 0 + 1e-6 + 1e-6 * 1.0001 - 2.00005e-6; norm_num)
  obtain ⟨d2, s2, S2⟩ := Q1.go (h := 1.00005e-6) (hf := 1e-6) one_ne_zero (fun _ _ => rfl) (fun _ _ => rfl)
    (by rw [S1.steps, S1.opts, hst, hms]; norm_num)
    (by rw [cl1]; change fin (2.00005e-6 - (0 + 1e-6)) = _; norm_num)
    (by change |(0:ℝ) + 1e-6| * _ < _; norm_num [abs_of_pos] at *; linarith)
    (fun h => by rw [key] at h; simp at h)
    (fun _ => S1.good)
    (lt_of_le_of_lt (Radau.const_norm (c := 1e-2) (v := fun _ => 1) one_ne_zero hv _ (by norm_num) (by norm_num) (by norm_num)
      (by norm_num [abs_of_pos])) (by norm_num))
  have c2 : s2.sol.retcode = .Success := by
    rw [S2.code, cl2]; rfl
  refine ⟨s0, s1, s2, hb, stepReturns_none_iff.2 ⟨⟨1, S1.step⟩, ?_⟩, stepReturns_none_iff.2 ⟨⟨1, S2.step⟩, ?_⟩, c2, t1, ?_,
    ?_, ?_⟩
  · rw [c1, S1.steps, hst]; rfl
  · rw [c2]; rfl
  · rw [S2.time]
    change fin (0 + 1e-6 + 1.00005e-6) = _
    norm_num
  · exact S2.decs key
  · refine ⟨0 + Radau.quadZ (fun _ _ (_ : Fin 1) => 1) 0 1e-6 1e-6 2 0 +
      Radau.quadZ (fun _ _ (_ : Fin 1) => 1) (0 + 1e-6) 1.00005e-6 1e-6 2 0, ?_, ?_⟩
    · rw [S2.state]
      funext i
      fin_cases i
      rfl
    · have a1 := abs_le.1 (Radau.const_inc (v := fun _ : Fin 1 => (1:ℝ)) 0 1e-6 1e-6 0)
      have a2 := abs_le.1 (Radau.const_inc (v := fun _ : Fin 1 => (1:ℝ)) (0 + 1e-6) 1.00005e-6 1e-6 0)
      rw [mul_one, abs_of_pos (by norm_num)] at a1 a2
      rw [abs_le]
      norm_num at *
      constructor <;> linarith

end
end Cyphus
