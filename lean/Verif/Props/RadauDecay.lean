import Verif.Props.RadauStability
import Verif.Proofs.RadauSample
/-!
# A run that meets the hypotheses of C60 and C61

`u' = -u`, `u(0) = 1` on `[0, 1e-8]` with default options: one step.
-/

namespace Cyphus
open X
set_option autoImplicit false
set_option linter.unusedSectionVars false
noncomputable section
variable {n : ℕ} {P : Type}

/-- **C60** The difference quotients of a linear right-hand side are its matrix, so no Jacobian has to be given. -/
theorem C60_difference_quotients {f : ℝ → (Fin n → ℝ) → Fin n → ℝ} {J : Fin n → Fin n → ℝ} {ue : Fin n → ℝ}
    (hf : ∀ t u i, f t u i = ∑ j, J i j * (u j - ue j)) : Spec.fdJacobian f = fun _ _ => J := by
  funext t u j i
  have h := (Radau.fdIncrement_pos (u i)).1
  simp only [Spec.fdJacobian]
  rw [hf, hf, ← Finset.sum_sub_distrib, div_eq_iff h.ne', Finset.sum_eq_single i]
  · simp only [Spec.bump, if_true]; ring
  · intro k _ hk
    simp only [Spec.bump, if_neg hk]; ring
  · simp

namespace Radau

/-- `u' = -u`, `u(0) = 1` on `[0, 1e-8]`. -/
def decayBuilder : Builder X 1 Unit := Builder.default alg (fun _ _ u _ => fun i => -(u i)) (fv fun _ => 1) (fin 0, fin 1e-8) ()

theorem decay_rhs (t : ℝ) (u : _root_.Fin 1 → ℝ) (i : _root_.Fin 1) :
    (fun _ u i => -u i : ℝ → (_root_.Fin 1 → ℝ) → _root_.Fin 1 → ℝ) t u i =
      ∑ j, (fun _ _ => -1 : _root_.Fin 1 → _root_.Fin 1 → ℝ) i j * (u j - (fun _ => 0 : _root_.Fin 1 → ℝ) j) := by
  simp [Subsingleton.elim i 0]

theorem decay_problem : RealProblem decayBuilder (fun _ u i => -u i) (fun _ _ _ _ => -1) (fun _ => 1) := by
  refine ⟨fun _ _ _ => rfl, rfl, ?_⟩
  exact (C60_difference_quotients decay_rhs).symm

theorem decay_timed : Timed (defaultClock 0 1e-8 none) decayBuilder := default_timed _ _ _ _ _

theorem default_fnewt : ∃ φ, (adjustOpts (default_opts : Opts X)).fnewt = fin φ ∧ 0.03 ≤ φ := by
  have e1 := default_tol.reltol
  change ∃ φ, (if Fl.le (0.0 : X) (0.0 : X) then Fl.max (10.0 * Fl.eps / (adjustOpts (default_opts : Opts X)).reltol)
      (Fl.min 0.03 (Fl.sqrt (adjustOpts (default_opts : Opts X)).reltol)) else (0.0 : X)) = fin φ ∧ 0.03 ≤ φ
  rw [e1, show (0.0 : X) = fin 0.0 from rfl, le_fin, if_pos (by simp), show (10.0 : X) = fin 10.0 from rfl, eps_fin, mul_fin,
    div_fin (by norm_num), sqrt_fin (by norm_num), show (0.03 : X) = fin 0.03 from rfl, min_fin, max_fin]
  refine ⟨_, rfl, le_max_of_le_right (le_min le_rfl ?_)⟩
  exact Real.le_sqrt_of_sq_le (by norm_num)

/-- The Newton norm of a small increment. -/
theorem newtonNorm_le (hn : n ≠ 0) {a r c : ℝ} (a0 : 0 < a) (r0 : 0 ≤ r) {u : _root_.Fin n → ℝ}
    {Δ : _root_.Fin 3 → _root_.Fin n → ℝ} (c0 : 0 ≤ c)
    (h : ∀ k i, |Δ k i| ≤ c * (a + r * |u i|)) : Spec.newtonNorm a r u Δ ≤ c := by
  unfold Spec.newtonNorm
  have hn' : (0 : ℝ) < n := by positivity
  refine Real.sqrt_le_iff.2 ⟨c0, ?_⟩
  rw [div_le_iff₀ (by positivity)]
  have : ∀ i k, (Δ k i / (a + r * |u i|)) ^ 2 ≤ c ^ 2 := by
    intro i k
    have h1 : 0 ≤ r * |u i| := mul_nonneg r0 (abs_nonneg _)
    have hs : 0 < a + r * |u i| := by linarith
    rw [sq_le_sq, abs_div, abs_of_pos hs, abs_of_nonneg c0, div_le_iff₀ hs]
    exact h k i
  calc ∑ i, ∑ k, (Δ k i / (a + r * |u i|)) ^ 2 ≤ ∑ _i : _root_.Fin n, ∑ _k : _root_.Fin 3, c ^ 2 :=
        Finset.sum_le_sum fun i _ => Finset.sum_le_sum fun k _ => this i k
    _ = c ^ 2 * (3 * n) := by simp; ring

theorem scaledNorm_le' (hn : n ≠ 0) {a r c : ℝ} (a0 : 0 < a) (r0 : 0 ≤ r) {u e : _root_.Fin n → ℝ} (c0 : 0 ≤ c)
    (h : ∀ i, |e i| ≤ c * (a + r * |u i|)) : Spec.scaledNorm a r u e ≤ c := by
  unfold Spec.scaledNorm
  have hn' : (0 : ℝ) < n := by positivity
  refine Real.sqrt_le_iff.2 ⟨c0, ?_⟩
  rw [div_le_iff₀ hn']
  have : ∀ i, (e i / (a + r * |u i|)) ^ 2 ≤ c ^ 2 := by
    intro i
    have h1 : 0 ≤ r * |u i| := mul_nonneg r0 (abs_nonneg _)
    have hs : 0 < a + r * |u i| := by linarith
    rw [sq_le_sq, abs_div, abs_of_pos hs, abs_of_nonneg c0, div_le_iff₀ hs]
    exact h i
  calc ∑ i, (e i / (a + r * |u i|)) ^ 2 ≤ ∑ _i : _root_.Fin n, c ^ 2 := Finset.sum_le_sum fun i _ => this i
    _ = c ^ 2 * n := by simp [mul_comm]

theorem radauE_le (k : _root_.Fin 3) : |Spec.radauE k| ≤ 11 := by
  obtain ⟨b1, b2⟩ := sqrt6_bounds
  rw [abs_le]
  fin_cases k <;> simp [Spec.radauE] <;> constructor <;> norm_num at * <;> linarith

/-- The first pass of the first step of `u' = -u`. -/
theorem decay_pass {Δ z : _root_.Fin 3 → _root_.Fin 1 → ℝ} {t h : ℝ} (h0 : 0 < h)
    (N : Spec.NewtonPass codeTransform codeC (fun _ u i => -u i) (fun _ _ => -1) t h h (fun _ => 1) (fun _ _ => 0)
      (fun _ _ => 0) Δ z) (k : _root_.Fin 3) (i : _root_.Fin 1) : |Δ k i| ≤ 120 * h ∧ |z k i| ≤ 360 * h := by
  have hw : ∀ j, ∑ i, (fun _ => 1 : _root_.Fin 1 → ℂ) i * ((fun _ _ => -1 : _root_.Fin 1 → _root_.Fin 1 → ℝ) i j : ℂ) =
      (-1 : ℂ) * (fun _ => 1 : _root_.Fin 1 → ℂ) j := by
    intro j; simp
  have hl : ((h : ℂ) * (-1 : ℂ)).re ≤ 0 := by simp [h0.le]
  have E := mode_eqs (w := fun _ => 1) (lam := -1) decay_rhs hw N
  have hD := fun k => NewtonIter.defect (w := fun _ => 1) (lam := -1) decay_rhs hw hl
    (.start (g := fun _ _ => 0) (y := fun _ _ => 0) (M := codeTransform) (c := codeC) (t := t) (u := fun _ => 1)
      (fun k i => by simp)) k
  obtain ⟨-, b1, b2, b3⟩ := E.bound code_consts hl (by norm_num) (hD 0) (hD 1) (hD 2)
  have ep : ∀ x : _root_.Fin 1 → ℝ, Spec.pair (fun _ => 1) x = ((x 0 : ℝ) : ℂ) := by
    intro x; simp [Spec.pair]
  have hn : ‖(h : ℂ) * (-1 : ℂ)‖ = h := by simp [abs_of_pos h0]
  simp only [ep, hn, Complex.ofReal_zero, zero_add, Complex.norm_real, Real.norm_eq_abs, sub_zero, abs_one, mul_one] at b1 b2 b3
  have hΔ : ∀ l, |Δ l 0| ≤ 120 * h := by intro l; fin_cases l <;> assumption
  rw [Subsingleton.elim i 0]
  refine ⟨hΔ k, ?_⟩
  rw [N.result k 0]
  have hT : ∀ k l, |codeTransform.T k l| ≤ 1 := by
    intro k l
    fin_cases k <;> fin_cases l <;>
      simp [codeTransform, T11, T12, T13, T21, T22, T23, T31] <;> norm_num [abs_le]
  calc |∑ l, codeTransform.T k l * (0 + Δ l 0)| ≤ ∑ l, |codeTransform.T k l * (0 + Δ l 0)| := Finset.abs_sum_le_sum_abs _ _
    _ ≤ ∑ _l : _root_.Fin 3, 1 * (120 * h) := by
      refine Finset.sum_le_sum fun l _ => ?_
      rw [zero_add, abs_mul]
      exact mul_le_mul (hT k l) (hΔ l) (abs_nonneg _) (by norm_num)
    _ = 360 * h := by simp; ring

/-- One step of `u' = -u` on `[0, 1e-8]` ends the run. -/
theorem decay_run : ∃ s0 s' : St X 1 Unit, decayBuilder.build alg = .ok s0 ∧ StepReturns alg none s0 none s' ∧
    s'.sol.retcode = .Success ∧ s0.stats.decompositions < s'.stats.decompositions := by
  obtain ⟨s0, hb⟩ : ∃ s0 : St X 1 Unit, decayBuilder.build alg = .ok s0 := ⟨_, rfl⟩
  have T := decay_timed
  have R := decay_problem
  set C := defaultClock 0 1e-8 none with hC
  have hn : (1 : ℕ) ≠ 0 := by norm_num
  have ok : (env (fun _ u i => -u i) (fun _ _ _ _ => -1) ⊤ (fun _ => 1 : _root_.Fin 1 → ℝ)).Ok (C.Sane ∧ C.t0 ≤ C.tf) := by
    refine ⟨fun _ _ _ => trivial, fun t u _ => ⟨fun v _ => trivial, fun lam h hl h2 => ?_⟩⟩
    omega
  have I := R.idle (V := ⊤) T ok hb
  have Rd : Ready s0 := build_ready hb
  have hst : s0.stats.steps = 0 := by rw [← Res.ok.inj hb]; rfl
  have hms : s0.opts.max_steps = 100000 := by rw [← Res.ok.inj hb]; rfl
  have hmn : s0.opts.max_newt_iter = 7 := by rw [← Res.ok.inj hb]; rfl
  have hdec : s0.cache.decompose = true := by rw [← Res.ok.inj hb]
  have hfirst : s0.cache.first = true := by rw [← Res.ok.inj hb]
  have hfc : s0.cache.faccon = 1.0 := by rw [← Res.ok.inj hb]
  have ho : s0.opts = adjustOpts default_opts := by rw [← Res.ok.inj hb]; rfl
  have hu0 : s0.u = fv fun _ => 1 := by rw [← Res.ok.inj hb]; rfl
  have hJ0 : s0.cache.dfdu = fmat fun _ _ => -1 := by
    have e : s0.cache.dfdu = (jacobian_u s0.dudt s0.dfdu (fun _ _ => 0.0) s0.u s0.t s0.params).1 := by
      rw [← Res.ok.inj hb]
    rw [e, hu0, (T.idle hb).time, I.num.jacs]
    rfl
  have hd1 : C.d = 1 := by norm_num [Clock.d, defaultClock, hC]
  obtain ⟨cl1, cl2⟩ := (T.idle hb).clamp_yes hd1 (by norm_num [defaultClock, hC])
  replace cl1 : (clampLast s0).dt = fin 1e-8 := by rw [cl1]; norm_num [defaultClock, hC]
  have hcf : Frame s0 (clampLast s0) := by
    unfold clampLast; split
    · constructor <;> rfl
    · exact Frame.refl s0
  have hcl := clampLast_fields s0
  have hcc : (clampLast s0).cache.dfdu = s0.cache.dfdu ∧ (clampLast s0).cache.decompose = s0.cache.decompose ∧
      (clampLast s0).cache.first = s0.cache.first ∧ (clampLast s0).cache.faccon = s0.cache.faccon ∧
      (clampLast s0).cache.reject = s0.cache.reject ∧ (clampLast s0).stats = s0.stats := by
    unfold clampLast; split <;> exact ⟨rfl, rfl, rfl, rfl, rfl, rfl⟩
  obtain ⟨q1, q2, q3, q4, q5, q6⟩ := hcc
  have ext : ∀ (M : Mat 1 ℝ) (i j : _root_.Fin 1), extM M i j = M i j := by
    intro M i j
    simp only [extM]
    rw [dif_pos ⟨i.2, j.2⟩]
  have hU : (0 : ℝ) < U1 := U1_pos
  have hA : (0 : ℝ) < ALPHA := by unfold ALPHA; norm_num
  obtain ⟨s1, h1⟩ := perform_of_det (s := clampLast s0) hn (q1.trans hJ0) cl1 (by norm_num)
    (det_scalar hn (c := U1 / 1e-8 + 1) (by positivity) fun i j => by rw [ext]; simp [Subsingleton.elim i j])
    (det_scalar (c := ⟨ALPHA / 1e-8 + 1, BETA / 1e-8⟩) hn (fun hc => by
        have := congrArg Complex.re hc
        simp only [Complex.zero_re] at this
        have h : (0 : ℝ) < ALPHA / 1e-8 + 1 := by positivity
        exact h.ne' this) fun i j => by
      unfold Spec.complexMatrix
      rw [ext, ext]
      simp [Subsingleton.elim i j])
  have hd : decPhase 1 (clampLast s0) = .ok (s1, true) := by
    unfold decPhase
    rw [q2, hdec, if_pos rfl, decLoop, h1]
    rfl
  have fr := Frame.perform h1
  have e : s1.dt = (clampLast s0).dt ∧ s1.cache.last = (clampLast s0).cache.last ∧
      s1.cache.reject = (clampLast s0).cache.reject ∧ s1.stats.steps = (clampLast s0).stats.steps ∧
      s1.sol = (clampLast s0).sol ∧ s1.cache.dfdu = (clampLast s0).cache.dfdu ∧
      s1.cache.first = (clampLast s0).cache.first ∧ s1.cache.faccon = (clampLast s0).cache.faccon ∧
      (clampLast s0).stats.decompositions < s1.stats.decompositions := by
    obtain ⟨-, s2, s3, h2, h3, rfl⟩ | ⟨hb, -⟩ := perform_ok h1
    · obtain ⟨r1, -, rfl⟩ := decomp_real_ok h2
      obtain ⟨r2, -, rfl⟩ := decomp_complex_ok h3
      exact ⟨rfl, rfl, rfl, rfl, rfl, rfl, rfl, rfl, Nat.lt_succ_self _⟩
    · simp at hb
  obtain ⟨e1, e2, e3, e4, e5, e6, e7, e8, e9⟩ := e
  have hs1 : s1.dt = fin 1e-8 := e1.trans cl1
  have ht1 : s1.t = fin 0 := by rw [fr.t, hcf.t]; exact (T.idle hb).time
  have hts : tooSmall s1 = false := by
    unfold tooSmall
    rw [hs1, ht1, show (0.1 : X) = fin 0.1 from rfl, abs_fin, abs_fin, eps_fin, mul_fin, mul_fin, le_fin]
    norm_num
  obtain ⟨-, hnum, hf', J', hJ', hG, hfr⟩ := (I.head Rd.retcode).dec hd hts
  obtain ⟨g1, g2⟩ := hfr (q2.trans hdec)
  obtain rfl : hf' = 1e-8 := by
    rw [hs1, fin_inj] at g1
    exact g1.symm
  obtain rfl : J' = fun _ _ => -1 := by
    rw [e6, q1, hJ0] at g2
    funext i j
    exact (fin_inj.1 (congrFun (congrFun g2 i) j)).symm
  have frs : Frame s0 s1 := hcf.trans fr
  obtain ⟨φ, hφ, φ1⟩ := default_fnewt
  have habs : s0.opts.abstol = fin 1e-7 := by rw [ho]; exact default_tol.abstol
  have hrel : s0.opts.reltol = fin 1e-3 := by rw [ho]; exact default_tol.reltol
  have hscal : s1.cache.scal = fun i => fin 1e-7 + fin 1e-3 * Fl.abs (fin ((fun _ => 1 : _root_.Fin 1 → ℝ) i)) := by
    have : s0.cache.scal = fun i => s0.opts.abstol + s0.opts.reltol * Fl.abs (s0.u i) := by
      rw [← Res.ok.inj hb]
    rw [frs.scal, this, habs, hrel, hu0]
    rfl
  have hder : s1.cache.u0 = fv fun _ => -1 := by
    have : s0.cache.u0 = s0.dudt s0.params (fun _ => 0.0) s0.u s0.t := by rw [← Res.ok.inj hb]
    rw [frs.u0, this, hu0, (T.idle hb).time, I.num.lifts]
    rfl
  -- the Newton iteration
  have H0 : Num (env (fun _ u i => -u i) (fun _ _ _ _ => -1) ⊤ (fun _ => 1 : _root_.Fin 1 → ℝ)) (C.Sane ∧ C.t0 ≤ C.tf)
    (tick s1) := { hnum with }
  have H1 := H0.init (h := 1e-8) hs1
  have hwf : (newtonInit (tick s1)).dt = fin 1e-8 ∧ facsOf (newtonInit (tick s1)) = facsOf s1 ∧
      (newtonInit (tick s1)).cache.newt = 0 ∧ (newtonInit (tick s1)).cache.faccon = fin 1 ∧ Linked (newtonInit (tick s1)) ∧
      (newtonInit (tick s1)).cache.f1 = fv (fun _ => 0) ∧ (newtonInit (tick s1)).cache.f2 = fv (fun _ => 0) ∧
      (newtonInit (tick s1)).cache.f3 = fv (fun _ => 0) ∧ (newtonInit (tick s1)).cache.z1 = fv (fun _ => 0) ∧
      (newtonInit (tick s1)).cache.z2 = fv (fun _ => 0) ∧ (newtonInit (tick s1)).cache.z3 = fv (fun _ => 0) := by
    have hfi : (tick s1).cache.first = true := by
      change s1.cache.first = true
      rw [e7, q3, hfirst]
    have hz : (fun _ => 0.0 : Vec 1 X) = fv (fun _ => 0) := by
      funext i; rw [fv_apply, X.sci]; norm_num
    have hfa : Fl.powf (Fl.max s1.cache.faccon Fl.eps) 0.8 = fin 1 := by
      have he := eps_small
      rw [e8, q4, hfc, show (1.0 : X) = fin 1.0 from rfl, eps_fin, max_fin, max_eq_left (he.trans (by norm_num)),
        show (0.8 : X) = fin 0.8 from rfl, powf_fin (by norm_num)]
      norm_num
    simp only [newtonInit, prepare_newton, hfi, Bool.true_or, if_true]
    exact ⟨hs1, rfl, trivial, hfa, .inl ⟨rfl, rfl, rfl, rfl, rfl, rfl⟩, hz, hz, hz, hz, hz, hz⟩
  have fi := Frame.newtonInit (tick s1)
  have hN0 := newton_eq (tick s1)
  generalize newtonInit (tick s1) = w at *
  obtain ⟨w1, w2, w3, w4, w5, w6, w7, w8, w9, w10, w11⟩ := hwf
  have hGw : Good 1e-8 (fun _ _ => -1) (facsOf w) := by rw [w2]; exact hG
  have frw : Frame s0 w := frs.trans ((show Frame s1 (tick s1) by constructor <;> rfl).trans fi)
  obtain ⟨u1, g, y, Δ, z, p1, p2, d1, d2, d3, N, p3, p4, p5, p6, p7, p8⟩ := H1.pass hGw (fi.t.trans ht1) w1 w5
  obtain rfl : u1 = fun _ => 1 := by
    rw [frw.u, hu0] at p1
    funext i
    exact (fin_inj.1 (congrFun p1 i)).symm
  have zz : ∀ {v : Vec 1 X} {x : _root_.Fin 1 → ℝ}, v = fv (fun _ => 0) → v = fv x → ∀ i, x i = 0 := by
    intro v x h1 h2 i
    rw [h1] at h2
    exact (fin_inj.1 (congrFun h2 i)).symm
  obtain rfl : g = fun _ _ => 0 := by
    funext k i
    fin_cases k
    · exact zz w6 p3 i
    · exact zz w7 p4 i
    · exact zz w8 p5 i
  obtain rfl : y = fun _ _ => 0 := by
    funext k i
    fin_cases k
    · exact zz w9 p6 i
    · exact zz w10 p7 i
    · exact zz w11 p8 i
  have hB := decay_pass (by norm_num) N
  have hom : (tick s1).opts = s0.opts := frs.opts
  obtain ⟨a1, a2, a3, a4, a5, a6, a7, -, -, -⟩ := solved_fields w
  have hc0 : newtonCheck (solved w) (newtonNorm (solved w)) 0.0 = (solved w, false) := by
    simp only [newtonCheck]
    rw [if_neg (by rw [a6, w3]; omega)]
  have hnn : newtonNorm (solved w) = fin (Spec.newtonNorm 1e-7 1e-3 (fun _ => 1) Δ) :=
    newtonNorm_fin (by norm_num) (by norm_num) hn (by rw [a4, frw.scal, ← frs.scal, hscal]) d1 d2 d3
  have hnl : Spec.newtonNorm 1e-7 1e-3 (fun _ => 1) Δ ≤ 0.03 := by
    refine newtonNorm_le hn (by norm_num) (by norm_num) (by norm_num) fun k i => (hB k i).1.trans ?_
    norm_num
  have hN : newton (tick s1) = .ok (newtonUpdate (solved w), true) := by
    rw [hN0, newtonLoop_pass _ (by rw [w3, frw.opts, hmn]; norm_num) hc0, if_pos]
    rw [show (solved w).cache.faccon = w.cache.faccon from rfl, w4, hnn, a1, frw.opts, ho, hφ, mul_fin, le_fin]
    simpa using hnl.trans φ1
  -- the error estimate
  have fl := newton_flags hN
  simp only [if_true] at fl
  obtain ⟨fl1, fl2, fl3⟩ := fl
  obtain ⟨z1, z2, z3⟩ := p2 (solved w) ⟨rfl, rfl, rfl, rfl, rfl, rfl⟩
  have frn := Frame.newton hN
  have hns := newton_sol hN
  have hfc2 := (facs_closedN (facsOf s1) s1.stats.decompositions s1.cache.decompose).newton (s := tick s1) ⟨rfl, rfl, rfl⟩ hN
  generalize newtonUpdate (solved w) = s2 at *
  have hdt2 : s2.dt = fin 1e-8 := fl3.trans hs1
  obtain ⟨⟨e, r1, r2⟩, -⟩ := Num.errFirst_real (s := s2) (J := fun _ _ => -1) (hf := 1e-8) (by rw [hfc2.1]; exact hG) hdt2
    (by norm_num) z1 z2 z3 (frn.u0.trans hder)
  have hel : ∀ i, |e i| ≤ 0.5 * (1e-7 + 1e-3 * |(fun _ => 1 : _root_.Fin 1 → ℝ) i|) := by
    intro i
    have h2 := r2 i
    have hS : |∑ k, Spec.radauE k * z k i| ≤ 1.2e-4 := by
      calc |∑ k, Spec.radauE k * z k i| ≤ ∑ k, |Spec.radauE k * z k i| := Finset.abs_sum_le_sum_abs _ _
        _ ≤ ∑ _k : _root_.Fin 3, 11 * (360 * 1e-8) := by
          refine Finset.sum_le_sum fun k _ => ?_
          rw [abs_mul]
          exact mul_le_mul (radauE_le k) (hB k i).2 (abs_nonneg _) (by norm_num)
        _ ≤ 1.2e-4 := by norm_num
    have hU2 : (1 : ℝ) ≤ U1 := by unfold U1; norm_num
    rw [Fin.sum_univ_one, Subsingleton.elim i 0] at h2
    rw [Subsingleton.elim i 0] at hS ⊢
    have h3 : (U1 / 1e-8 + 1) * e 0 = -1 + (∑ k, Spec.radauE k * z k 0) / 1e-8 := by linarith
    have h4 : |(U1 / 1e-8 + 1) * e 0| ≤ 1.3e4 := by
      rw [h3]
      refine (abs_add_le _ _).trans ?_
      rw [abs_div, abs_of_pos (by norm_num : (0:ℝ) < 1e-8)]
      have : |∑ k, Spec.radauE k * z k 0| / 1e-8 ≤ 1.2e-4 / 1e-8 := div_le_div_of_nonneg_right hS (by norm_num)
      norm_num at this ⊢
      linarith
    have h5 : (1e8 : ℝ) ≤ U1 / 1e-8 + 1 := by
      have : (1e8 : ℝ) ≤ U1 / 1e-8 := by rw [le_div_iff₀ (by norm_num)]; norm_num; exact hU2
      linarith
    rw [abs_mul, abs_of_pos (by linarith)] at h4
    have h6 := mul_le_mul_of_nonneg_right h5 (abs_nonneg (e 0))
    norm_num at h4 h6 ⊢
    linarith
  have er1 : (errFirst s2).cache.err = fin (max (Spec.scaledNorm 1e-7 1e-3 (fun _ => 1) e) 1.0e-10) := by
    change errNorm (errFirst s2) = _
    exact errNorm_fin (by norm_num) (by norm_num) hn (frn.scal.trans hscal) r1
  have hlt : Fl.lt (errFirst s2).cache.err 1.0 = true := by
    rw [er1, show (1.0 : X) = fin 1.0 from rfl, lt_fin]
    refine decide_eq_true (max_lt ?_ (by norm_num))
    exact lt_of_le_of_lt (scaledNorm_le' hn (by norm_num) (by norm_num) (by norm_num) hel) (by norm_num)
  have hde : decided s2 = { errFirst s2 with cache := { (errFirst s2).cache with decompose := true } } := by
    simp only [decided, error_estimate, hlt, if_true]
  have hrej : (decided s2).cache.reject = false := by
    rw [hde]
    change s2.cache.reject = false
    rw [fl1]
    change s1.cache.reject = false
    rw [e3, q5]
    exact Rd.reject
  have hlast : (decided s2).cache.last = true := by
    rw [hde]
    change s2.cache.last = true
    rw [fl2]
    change s1.cache.last = true
    rw [e2, cl2]
  have hstep := one_attempt (s := s0) hd
    (by change ¬ s1.stats.steps + 1 ≥ s1.opts.max_steps; rw [e4, hcl.2.2.1, frs.opts, hst, hms]; norm_num) hts hN
    (by rw [hde]; exact hlt) (acceptStep_reject_of_L _ (by intro hr; rw [hrej] at hr; simp at hr))
  have af := acceptStep_fields (decided s2) (stepQuot (decided s2))
  dsimp only at af
  have hc : (acceptStep (decided s2) (stepQuot (decided s2))).sol.retcode = .Success := by
    rw [af.2.2.2.2.2.2.2.2.2.2.2.2.2.2.1, hlast]
    rfl
  refine ⟨s0, _, hb, stepReturns_none_iff.2 ⟨⟨1, hstep⟩, ?_⟩, hc, ?_⟩
  · rw [hc]; rfl
  · rw [acceptStep_decs, (decided_facs s2).2.1, hfc2.2.1, ← q6]
    exact e9

end Radau

theorem decay_first : Spec.FirstNotEigen (n := 1) ((Radau.defaultClock 0 1e-8 none).Sane ∧
    (Radau.defaultClock 0 1e-8 none).t0 ≤ (Radau.defaultClock 0 1e-8 none).tf) (fun _ _ => -1) :=
  fun h => absurd h (by norm_num)

/-- C60 for this run: the step multiplies the state by `R(-1e-8)`, up to `1e-10`. -/
example : ∃ s0 s' : Radau.St X 1 Unit, Radau.decayBuilder.build Radau.alg = .ok s0 ∧ StepReturns Radau.alg none s0 none s' ∧
    s'.sol.retcode = .Success ∧ ∃ t h u u', s0.t = fin t ∧ s0.u = fv u ∧ s'.t = fin (t + h) ∧ s'.u = fv u' ∧ 0 < h ∧
      ‖Spec.pair (fun _ => 1) (fun i => u' i - 0) - Spec.radauR (h * (-1)) * Spec.pair (fun _ => 1) (fun i => u i - 0)‖ ≤
        1e-10 * ‖Spec.pair (fun _ => 1) fun i => u i - 0‖ := by
  obtain ⟨s0, s', hb, h, hc, hd⟩ := Radau.decay_run
  refine ⟨s0, s', hb, h, hc, ?_⟩
  exact C60_stability_function_radau (w := fun _ => 1) (lam := -1) Radau.decay_problem Radau.decay_rhs Radau.decay_timed
    (Radau.defaultClock_sane _ _ _) (by norm_num [Radau.defaultClock]) one_ne_zero decay_first hb
    (.zero (alg := Radau.alg) s0) h (.inr hc) hd (by intro j; simp) (by norm_num)

/-- The run meets the hypotheses of C61. -/
example : ∃ s0 s : Radau.St X 1 Unit, Radau.decayBuilder.build Radau.alg = .ok s0 ∧ IntegrateReturns Radau.alg none s0 s ∧
    (∀ k s o s', SomeSteps Radau.alg none k s0 s → StepReturns Radau.alg none s o s' →
      s'.sol.retcode = .Continue ∨ s'.sol.retcode = .Success →
      s.stats.decompositions < s'.stats.decompositions ∨ s'.dtprev = s.dt) := by
  obtain ⟨s0, s', hb, h, hc, hd⟩ := Radau.decay_run
  refine ⟨s0, s', hb, (integrate_iff Radau.fuelMono).2 ⟨0, s0, .zero (alg := Radau.alg) s0, h⟩, ?_⟩
  intro k s o s1 hs h1 _
  cases k with
  | zero =>
    rw [SomeSteps.cases_zero hs] at h1 ⊢
    rw [(stepReturns_unique Radau.fuelMono h1 h).2]
    exact .inl hd
  | succ k =>
    obtain ⟨_, _, h2, _⟩ := SomeSteps.cases_cons hs
    exact absurd (stepReturns_unique Radau.fuelMono h2 h).1 (by simp)

end
end Cyphus
