import Verif.Proofs.RadauTry
/-!
# C79: Radau5 reaches `tfinal`
-/

namespace Cyphus
open X
set_option autoImplicit false
set_option linter.unusedSectionVars false
noncomputable section

variable {n : ℕ} {P : Type}

namespace Radau
variable {C : Clock} {ρ σ ε : ℝ}

/-! ## The quotient after a small error -/

theorem Clock.clip_le_one {x : ℝ} (h1 : C.fr ≤ 1) (h2 : x ≤ 1) : C.clip x ≤ 1 := max_le h1 ((min_le_right _ _).trans h2)

theorem rpow_quarter_le {x y : ℝ} (hx : 0 ≤ x) (hy : 0 ≤ y) (h : x ≤ y ^ 4) : x ^ (1 / 4 : ℝ) ≤ y := by
  rw [← Real.rpow_le_rpow_iff (z := 4) (by positivity) hy (by norm_num), ← Real.rpow_mul hx]
  norm_num
  exact_mod_cast h

theorem Clock.classic_le_one {N : ℕ} {e : ℝ} (hfr : C.fr ≤ 1) (hs : 0 < C.sf) (e0 : 0 ≤ e) (he : e ≤ C.sf ^ 4) :
    C.classic N 1 e ≤ 1 := by
  unfold Clock.classic
  refine C.clip_le_one hfr ?_
  have : C.sf * (1 + 2 * N) / ((1 : ℕ) + 2 * N) = C.sf := by
    have : (1 + 2 * (N:ℝ)) ≠ 0 := by positivity
    push_cast
    field_simp
  rw [this, min_self, div_le_one hs]
  exact rpow_quarter_le e0 hs.le he

theorem Clock.predictive_le_one {hp ep h e : ℝ} (hfr : C.fr ≤ 1) (hs : 0 < C.sf) (e0 : 0 ≤ e) (ρ0 : 0 < ρ)
    (he : e ≤ 0.1 * (ρ * C.sf) ^ 2) (h0 : 0 < h) (hph : ρ * hp ≤ h) : C.predictive hp ep h e ≤ 1 := by
  unfold Clock.predictive
  refine C.clip_le_one hfr ?_
  rw [div_le_one hs]
  have h1 : (e ^ 2 / max 1e-2 ep) ^ (1 / 4 : ℝ) ≤ ρ * C.sf := by
    refine rpow_quarter_le (by positivity) (by positivity) ?_
    rw [div_le_iff₀ (by positivity)]
    calc e ^ 2 ≤ (0.1 * (ρ * C.sf) ^ 2) ^ 2 := pow_le_pow_left₀ e0 he 2
      _ = (ρ * C.sf) ^ 4 * 1e-2 := by ring
      _ ≤ _ := mul_le_mul_of_nonneg_left (le_max_left _ _) (by positivity)
  have h2 : (0:ℝ) ≤ (e ^ 2 / max 1e-2 ep) ^ (1 / 4 : ℝ) := by positivity
  have h3 : hp / h ≤ 1 / ρ := by
    rw [div_le_div_iff₀ h0 ρ0]
    linarith
  calc hp / h * (e ^ 2 / max 1e-2 ep) ^ (1 / 4 : ℝ) ≤ 1 / ρ * (e ^ 2 / max 1e-2 ep) ^ (1 / 4 : ℝ) := mul_le_mul_of_nonneg_right h3 h2
    _ ≤ 1 / ρ * (ρ * C.sf) := mul_le_mul_of_nonneg_left h1 (by positivity)
    _ = C.sf := by field_simp

theorem Clock.stepQuot_bounds {N m : ℕ} {prev : Option (ℝ × ℝ)} {h e : ℝ} :
    C.fr ≤ C.stepQuot N m prev h e ∧ C.stepQuot N m prev h e ≤ max C.fr C.fl := by
  have hc : ∀ x, C.fr ≤ C.clip x ∧ C.clip x ≤ max C.fr C.fl := fun x => ⟨le_max_left _ _, max_le_max le_rfl (min_le_left _ _)⟩
  cases prev with
  | none => exact hc _
  | some x => exact ⟨(hc _).1.trans (le_max_left _ _), max_le (hc _).2 (hc _).2⟩

theorem Clock.le_proposal {rej : Bool} {h q c : ℝ} (hd : C.d = 1) (h0 : 0 < h) (q0 : 0 < q) (c0 : 0 < c) (h1 : c ≤ h / q)
    (h2 : c ≤ h) (h3 : ∀ m ∈ C.mx, c ≤ m) : c ≤ C.proposal rej h q := by
  have hx : c ≤ capR C.mx (h / q) := by
    unfold capR
    have ha : |h / q| = h / q := abs_of_pos (div_pos h0 q0)
    split
    · rw [ha]; exact h1
    · rename_i m hm
      exact le_min (by rw [ha]; exact h1) (h3 m (by rw [hm]; rfl))
  unfold Clock.proposal
  simp only [hd, one_mul]
  split
  · exact le_min (hx.trans (le_abs_self _)) (h2.trans (le_abs_self _))
  · exact hx

theorem Clock.proposal_le {rej : Bool} {h q : ℝ} (hd : C.d = 1) (hm : ∀ m ∈ C.mx, 0 < m) (m : ℝ) (h3 : m ∈ C.mx) :
    C.proposal rej h q ≤ m := by
  have hx : capR C.mx (h / q) ≤ m ∧ 0 ≤ capR C.mx (h / q) := by
    unfold capR
    rw [show C.mx = some m from h3]
    exact ⟨min_le_right _ _, le_min (abs_nonneg _) (hm m h3).le⟩
  unfold Clock.proposal
  simp only [hd, one_mul]
  split
  · exact (min_le_left _ _).trans (by rw [abs_of_nonneg hx.2]; exact hx.1)
  · exact hx.1

/-! ## Progress -/

theorem Lively.no_keep (H : Lively C ρ σ) {q : X} (h1 : Fl.ge q (fin C.q1) = true) : Fl.le q C.q2 = false := by
  have hk := H.keep
  cases h2 : C.q2 with
  | nan => cases q <;> rfl
  | pinf => rw [h2] at hk; simp [show Fl.le (fin C.q1) pinf = true from rfl] at hk
  | ninf =>
    cases q with
    | nan => rfl
    | pinf => rfl
    | fin x => rfl
    | ninf => simp [show Fl.ge ninf (fin C.q1) = false from rfl] at h1
  | fin y =>
    rw [h2, le_fin] at hk
    have hk : ¬ C.q1 ≤ y := by simpa using hk
    cases q with
    | nan => rfl
    | pinf => rfl
    | ninf => simp [show Fl.ge ninf (fin C.q1) = false from rfl] at h1
    | fin x =>
      rw [ge_fin] at h1
      have h1 : C.q1 ≤ x := by simpa using h1
      rw [le_fin]
      simp
      linarith

variable {b : Builder X n P} {f : ℝ → (_root_.Fin n → ℝ) → _root_.Fin n → ℝ}
  {jac : ℝ → (_root_.Fin n → ℝ) → _root_.Fin n → _root_.Fin n → ℝ} {u0 : _root_.Fin n → ℝ} {s0 : St X n P} {a r φ M B hs δ : ℝ} {K S : ℕ}

/-- The invariant between two calls, after `k` accepted steps. -/
structure Going (C : Clock) (ρ σ δ : ℝ) (K k : ℕ) (s : St X n P) (t h : ℝ) : Prop where
  time : s.t = fin t
  step : s.dt = fin h
  fac : FacOk s
  dec : s.cache.decompose = true
  pace : C.t0 + k * δ ≤ t
  left : min 1e-4 (1 - σ) * δ ≤ C.tf - t
  size : h = C.tf - t ∨ (δ ≤ h ∧ (0 < k → ∃ hp, s.dtprev = fin hp ∧ ρ * hp ≤ h))
  cap : ∀ m ∈ C.mx, h ≤ m
  steps : s.stats.steps ≤ k * (K + 1)

/-- Everything about a state between two calls. -/
theorem run_trying (R : RealProblem b f jac u0) (T : Timed C b) (hS : C.Sane) (ht : C.t0 < C.tf)
    (hc : ∀ t u, Spec.FirstNotEigen (C.Sane ∧ C.t0 ≤ C.tf) (jac t u)) (hb : b.build Radau.alg = .ok s0)
    (ha : s0.opts.abstol = fin a) (a0 : 0 < a) (hr : s0.opts.reltol = fin r) (r0 : 0 ≤ r) (hφ : s0.opts.fnewt = fin φ)
    (hN : 1 ≤ b.opts.max_newt_iter) (hx : b.opts.use_ext_col = false) {k : ℕ} {s : St X n P} {t h : ℝ}
    (hs : SomeSteps Radau.alg none k s0 s) (hfac : FacOk s) (hdec : s.cache.decompose = true) (ht' : s.t = fin t) (hh : s.dt = fin h)
    (hpos : 0 < C.tried t h) :
    ∃ l u, Trying b f jac u0 C (C.Sane ∧ C.t0 ≤ C.tf) l a r φ t u (clampLast s) (C.tried t h) ∧ C.tried t h ≤ C.tf - t ∧ s.opts = s0.opts := by
  let I : St X n P → Prop := fun s => Scaled s ∧ (s.sol.retcode = .Continue → Derived s) ∧ JacInv b.dudt b.dfdu b.params s
  have hI : I s := by
    refine run_induct (I := I) hb ?_ ?_ (.inl ⟨k, hs⟩)
    · refine ⟨?_, fun _ => ?_, .build hb⟩
      · rw [← Res.ok.inj hb]; rfl
      · rw [← Res.ok.inj hb]; exact ⟨_, rfl⟩
    · rintro s s' fuel hr ⟨h1, h2, h3⟩ h
      exact ⟨h1.step h, fun hc => .step hr h hc, h3.step h⟩
  have hRun := R.run (V := ⊤) T ⟨fun _ _ _ => trivial, fun t u _ => ⟨fun _ _ => trivial,
    fun lam h1 h2 h3 => hc t u h3 lam h1 h2⟩⟩ hb (.inl ⟨k, hs⟩)
  obtain ⟨hrd, ho⟩ := Radau.run_opts hb hs
  obtain ⟨t1, hi⟩ := hRun.idle hrd.retcode
  obtain ⟨l, hl, -⟩ := hRun.pts
  obtain ⟨h1, hid⟩ := hi.idle
  obtain rfl : t1 = t := fin_inj.1 (hid.time.symm.trans ht')
  obtain rfl : h1 = h := fin_inj.1 (hid.step.symm.trans hh)
  obtain ⟨u, hu, -⟩ := hi.num.u
  obtain ⟨i1, i2, i3⟩ := hI
  obtain ⟨buf, hd⟩ := i2 hrd.retcode
  have fr := Frame.clampLast s
  have hcl := clampLast_fields s
  obtain ⟨h2, hck⟩ := hid.clamp hrd.retcode
  have htr := tried_val hid
  obtain rfl : h2 = C.tried t1 h1 := fin_inj.1 (hck.step.symm.trans htr)
  refine ⟨l, u, ⟨hi.head hrd.retcode, htr, hpos, L_clampLast hrd.reject, by rw [hcl.2.2.2]; exact hdec, hfac.congr (by rw [hcl.2.2.2]),
    fr.u.trans hu, ?_, a0, r0, ?_, by rw [fr.opts, ho, hφ], ?_, ?_, ?_, ?_⟩, ?_, ho⟩
  · rw [fr.u0, hd, hu, ht', hi.num.lifts]; rfl
  · rw [fr.scal]
    unfold Scaled at i1
    rw [i1, ho, ha, hr, hu]
    rfl
  · rw [fr.opts, ho, ← Res.ok.inj hb]; exact hN
  · rw [fr.opts, ho, ← Res.ok.inj hb]; exact hx
  · unfold clampLast; split <;> exact i3
  · exact ⟨fr.ts.trans hl.1, fr.us.trans hl.2⟩
  · have := hck.room ⟨hS, ht.le⟩
    linarith

/-- The attempt which ends a call accepts the step, if the step is not too small and the number of attempts is below the limit. -/
theorem Trying.finish {fwd : Prop} {l : List (ℝ × (_root_.Fin n → ℝ))} {t h : ℝ} {u : _root_.Fin n → ℝ} {s s' : St X n P} (hn : n ≠ 0)
    (H : Trying b f jac u0 C fwd l a r φ t u s h) (R : RealProblem b f jac u0) (hm : Mild f jac M B h)
    (ht : s.t = fin t) (hsp : |t| * 2 ^ (-52 : ℤ) < 0.1 * h) (hlim : s.stats.steps + 1 < s.opts.max_steps) (hf : Fin s s') :
    s'.dtprev = fin h ∧ s'.stats.steps = s.stats.steps + 1 ∧
      s'.sol.retcode = (if s.cache.last then .Success else s.sol.retcode) ∧
      ((∀ q : X, Fl.ge q s.opts.quot1 = true → Fl.le q s.opts.quot2 = false) → s'.cache.decompose = true) ∧
      (SmallStep M B a φ ε h → s'.cache.newt = 1 ∧ ∃ e, s'.cache.err = fin e ∧ 0 < e ∧ e ≤ ε) := by
  have hk : ∀ {fuel : ℕ} {s1 : St X n P} {c : Bool}, decPhase fuel s = .ok (s1, c) → s1.stats.steps = s.stats.steps := fun h1 =>
    ((keepSol _ _ _ _ _).decPhase ⟨rfl, rfl, rfl, rfl, rfl⟩ h1).2.2.2.2
  cases hf with
  | singular h1 =>
    obtain ⟨h2, -⟩ := H.decs hn R hm h1
    simp at h2
  | maxIters h1 h2 =>
    rw [hk h1, (Frame.decPhase h1).opts] at h2
    omega
  | @small s1 fuel h1 h2 h3 =>
    obtain ⟨-, d1, -⟩ := H.decs hn R hm h1
    unfold tooSmall at h3
    rw [d1, (Frame.decPhase h1).t, ht, abs_fin, abs_fin, eps_fin, X.sci, mul_fin, mul_fin, le_fin] at h3
    have h3 : (0.1 : ℝ) * |h| ≤ |t| * Fl.eps := by simpa using h3
    rw [abs_of_pos H.pos, show (Fl.eps : ℝ) = 2 ^ (-52 : ℤ) from rfl] at h3
    exact absurd h3 (not_le.2 hsp)
  | @done s1 s2 fuel h1 h2 h3 h4 h5 =>
    obtain ⟨p, hJ⟩ := H.jac_at R
    obtain ⟨-, e1, e2, e3, e4, e5⟩ := decPhase_regular hn hJ H.step H.pos.ne' (hm.regular p.1 p.2 h H.pos le_rfl) h1
    have fl := newton_flags h4
    simp only [if_true] at fl
    have n1 := newton_sol h4
    have r1 := decPhase_retcode h1
    simp at r1
    have hl : (decided s2).cache.last = s.cache.last := by
      refine (error_estimate_sol s2).2.2.2.2.2.2.1.trans (fl.2.1.trans ?_)
      exact e4
    have hdt : (decided s2).dt = fin h := by
      rw [decided_dt, fl.2.2]
      exact e1.trans H.step
    have hst : (decided s2).stats.steps = s.stats.steps + 1 := by
      rw [decided_steps, n1.2.1]
      change s1.stats.steps + 1 = _
      rw [hk h1]
    have hrc : (decided s2).sol.retcode = s.sol.retcode := by
      rw [decided_sol, n1.1]; exact r1
    have ho : (decided s2).opts = s.opts :=
      ((Frame.decPhase h1).trans ((Frame.tick _).trans ((Frame.newton h4).trans (Frame.decided _)))).opts
    have hsm := fun (Z : SmallStep M B a φ ε h) => H.small hn R hm Z.jac Z.newt Z.err Z.ε0 Z.ε1 h1 h3 h4
    have hnt := decided_newt s2
    have hdec := (decided_facs s2).2.2.1
    rw [control_eq] at h5 ⊢
    split at h5
    · rename_i hlt
      rw [if_pos hlt]
      have a := acceptStep_fields (decided s2) (stepQuot (decided s2))
      simp only at a
      obtain ⟨-, -, -, -, -, -, -, -, a9, -, -, -, -, -, a15, -, a17, -⟩ := a
      refine ⟨a9.trans hdt, a17.trans hst, by rw [a15, hl, hrc], fun hq => ?_, fun Z => ?_⟩
      · by_contra hc
        obtain ⟨-, q, q1, q2⟩ := acceptStep_skip (stepQuot (decided s2)) hdec (by simpa using hc)
        rw [ho] at q1 q2
        rw [hq q q1] at q2
        simp at q2
      · obtain ⟨-, z1, -, e, z2, z3⟩ := hsm Z
        exact ⟨by rw [(acceptStep_memory _ _).1, hnt, z1], e, by rw [acceptStep_err, z2], z3⟩
    · rw [(rejectStep_fields _ _).2.2.1] at h5; simp at h5

theorem clampLast_last {fwd : Prop} {s : St X n P} {t h : ℝ} (H : Idle C fwd s t h) (hc : 0 ≤ t + h * 1.0001 - C.tf * C.d) :
    (clampLast s).cache.last = true := by
  unfold clampLast
  simp only [H.time, H.step, H.tfinal, H.tdir]
  rw [show (1.0001 : X) = X.fin 1.0001 from rfl, show (0.0 : X) = X.fin 0.0 from rfl, mul_fin, mul_fin, add_fin, sub_fin, ge_fin,
    if_pos]
  norm_num at hc ⊢
  exact hc

/-- One call during a run: either the run ends with `Success`, or the invariant is kept. -/
theorem Going.next (R : RealProblem b f jac u0) (T : Timed C b) (hn : n ≠ 0) (hS : C.Sane) (ht : C.t0 < C.tf)
    (hc : ∀ t u, Spec.FirstNotEigen (C.Sane ∧ C.t0 ≤ C.tf) (jac t u)) (hb : b.build Radau.alg = .ok s0)
    (ha : s0.opts.abstol = fin a) (a0 : 0 < a) (hr : s0.opts.reltol = fin r) (r0 : 0 ≤ r) (hφ : s0.opts.fnewt = fin φ)
    (hN : 1 ≤ b.opts.max_newt_iter) (hx : b.opts.use_ext_col = false) (hm : Mild f jac M B (C.tf - C.t0)) (V : Lively C ρ σ)
    (Z : SmallStep M B a φ ε hs) (z1 : ε ≤ C.sf ^ 4) (z2 : ε ≤ 0.1 * (ρ * C.sf) ^ 2) (D : Budget C ρ σ hs δ K S b.opts.max_steps)
    {k : ℕ} {s : St X n P} {t h : ℝ} (hk : SomeSteps Radau.alg none k s0 s) (G : Going C ρ σ δ K k s t h) :
    (∃ s' t' h', SomeSteps Radau.alg none (k + 1) s0 s' ∧ Going C ρ σ δ K (k + 1) s' t' h') ∨
      ∃ s', IntegrateReturns Radau.alg none s0 s' ∧ s'.sol.retcode = .Success ∧ s'.stats.steps ≤ S * (K + 1) := by
  obtain ⟨Kn, hrd, t1, h1, hI⟩ := T.run_knows hb hk
  obtain rfl : t1 = t := fin_inj.1 (hI.time.symm.trans G.time)
  obtain rfl : h1 = h := fin_inj.1 (hI.step.symm.trans G.step)
  have hd : C.d = 1 := hI.dir ⟨hS, ht.le⟩
  have δ0 := D.pos
  have σ1 := V.σ1
  have σ0 : 0 < σ := lt_of_lt_of_le (by norm_num) V.σ2
  have ρ0 := V.ρ0
  have ρ1 := V.ρ1
  have κ0 : 0 < min 1e-4 (1 - σ) := lt_min (by norm_num) (by linarith)
  have κ1 : min 1e-4 (1 - σ) ≤ 1e-4 := min_le_left _ _
  have κ2 : min 1e-4 (1 - σ) ≤ 1 - σ := min_le_right _ _
  generalize hκ : min 1e-4 (1 - σ) = κ at κ0 κ1 κ2
  have Gl := G.left
  rw [hκ] at Gl
  have Dsp := D.spacing
  rw [hκ] at Dsp
  have κδ : 0 < κ * δ := mul_pos κ0 δ0
  have κδ1 : κ * δ ≤ δ := mul_le_of_le_one_left δ0.le (κ1.trans (by norm_num))
  have kδ : (0:ℝ) ≤ k * δ := by positivity
  have Gp := G.pace
  -- the step tried first
  have h0 : κ * δ ≤ h1 := by
    rcases G.size with e | ⟨e, -⟩
    · rw [e]; exact Gl
    · exact κδ1.trans e
  have hh0 : 0 < h1 := κδ.trans_le h0
  have htr : κ * δ ≤ C.tried t1 h1 ∧ C.tried t1 h1 ≤ h1 * 1.0001 := by
    unfold Clock.tried
    rw [hd, mul_one]
    split
    · exact ⟨Gl, by linarith⟩
    · exact ⟨h0, by linarith⟩
  have htp : 0 < C.tried t1 h1 := κδ.trans_le htr.1
  obtain ⟨l, u, Y, hroom, ho⟩ := run_trying R T hS ht hc hb ha a0 hr r0 hφ hN hx hk G.fac G.dec G.time G.step htp
  have hms : s0.opts.max_steps = b.opts.max_steps := by rw [← Res.ok.inj hb]; rfl
  have hmT : Mild f jac M B (C.tried t1 h1) := hm.mono (by linarith)
  obtain ⟨s', o, hst⟩ := C12_step_terminates_radau hn s
  have hst' : StepReturns Radau.alg none s o s' := ⟨_, hst⟩
  obtain ⟨⟨fuel, hs1⟩, ho'⟩ := stepReturns_none_iff.1 hst'
  obtain ⟨j, s1, -, hat, hfin⟩ := step_ok hs1
  have sp := hat.spec (L_clampLast hrd.reject)
  obtain ⟨hh, Y1, y1, y2, y3, y4⟩ := Y.atts hn R V.toShrink Z hat hmT
  have hjK : j ≤ K := y4 K ((mul_le_mul_of_nonneg_left (hroom.trans (by linarith)) (by positivity)).trans D.retries)
  have hs0 := Z.pos
  have hδs : δ ≤ ρ * hs := D.small.trans (by
    rw [sq, mul_assoc]
    exact mul_le_of_le_one_left (by positivity) (by linarith))
  have hhκ : κ * δ ≤ hh := by
    by_cases hj : j = 0
    · rw [y2 hj]; exact htr.1
    · exact κδ1.trans (hδs.trans (y3 hj).1)
  have htabs : |t1| ≤ max |C.t0| |C.tf| := by
    rcases abs_cases t1 with ⟨e, -⟩ | ⟨e, -⟩
    · rw [e]; exact le_trans (by linarith [le_abs_self C.tf]) (le_max_right _ _)
    · rw [e]; exact le_trans (by linarith [neg_le_abs C.t0]) (le_max_left _ _)
  have hsp : |t1| * 2 ^ (-52 : ℤ) < 0.1 * hh := by
    have e1 := mul_le_mul_of_nonneg_right htabs (show (0:ℝ) ≤ 2 ^ (-52 : ℤ) by positivity)
    linarith
  -- the number of attempts
  have hkS : k + 1 ≤ S := by
    have e1 : (k : ℝ) * δ < S * δ := by have := D.calls; linarith
    have e2 : (k : ℝ) < S := lt_of_mul_lt_mul_right e1 δ0.le
    exact_mod_cast e2
  have hst1 : s1.stats.steps + 1 ≤ (k + 1) * (K + 1) := by
    have e1 := G.steps
    have e2 := sp.steps
    rw [(clampLast_fields s).2.2.1] at e2
    calc s1.stats.steps + 1 ≤ k * (K + 1) + (K + 1) := by omega
      _ = _ := by ring
  have hstS : (k + 1) * (K + 1) ≤ S * (K + 1) := Nat.mul_le_mul_right _ hkS
  have hopt : s1.opts = s0.opts := sp.frame.opts.trans ((Frame.clampLast s).opts.trans ho)
  have htime : s1.t = fin t1 := sp.frame.t.trans ((Frame.clampLast s).t.trans G.time)
  obtain ⟨p1, p2, p3, p4, p5⟩ := Y1.finish (ε := ε) hn R (hmT.mono y1) htime hsp (by
    rw [hopt, hms]; have := D.steps; omega) hfin
  have hctl := hI.ctl
  rw [ho] at hctl
  have hsteps' : s'.stats.steps ≤ (k + 1) * (K + 1) := by rw [p2]; exact hst1
  by_cases hlast : s1.cache.last = true
  · right
    rw [hlast, if_pos rfl] at p3
    have : o = none := by rw [ho', p3]; rfl
    subst this
    exact ⟨s', (integrate_iff Radau.fuelMono).2 ⟨k, s, hk, hst'⟩, p3, hsteps'.trans hstS⟩
  · left
    have hcode : s'.sol.retcode = .Continue := by
      rw [p3, if_neg hlast, sp.retcode, (clampLast_fields s).2.1, hrd.retcode]
    obtain ⟨-, x1, x2, e, prev, rt, c1, c2, c3, c4, c5, c6, -, c8⟩ := hI.law hrd Kn hs1 hcode
    obtain rfl : x1 = hh := fin_inj.1 (c2.symm.trans p1)
    have hxp : 0 < x1 := Y1.pos
    -- without a failed attempt the step is not the last one
    have hj0 : j = 0 → x1 = h1 ∧ δ ≤ h1 ∧ (0 < k → ∃ hp, s.dtprev = fin hp ∧ ρ * hp ≤ h1) ∧ h1 * 1.0001 < C.tf - t1 := by
      intro hj
      have hncl : ¬ 0 ≤ t1 + h1 * 1.0001 - C.tf * C.d := fun hcl => hlast (by rw [sp.last, if_pos hj, clampLast_last hI hcl])
      have e1 : x1 = h1 := by rw [y2 hj]; unfold Clock.tried; rw [if_neg hncl]
      rw [hd, mul_one] at hncl
      rcases G.size with e | ⟨e2, e3⟩
      · exact absurd (show 0 ≤ t1 + h1 * 1.0001 - C.tf by linarith) hncl
      · exact ⟨e1, e2, e3, by linarith⟩
    have hδx : δ ≤ x1 := by
      by_cases hj : j = 0
      · rw [(hj0 hj).1]; exact (hj0 hj).2.1
      · exact hδs.trans (y3 hj).1
    have hleft : κ * δ ≤ C.tf - (t1 + x1) := by
      by_cases hj : j = 0
      · obtain ⟨e1, e2, -, e3⟩ := hj0 hj
        have : κ * δ ≤ 1e-4 * h1 := mul_le_mul κ1 e2 δ0.le (by norm_num)
        rw [e1]
        norm_num at e3 this
        linarith
      · have e1 := (y3 hj).2
        have e2 : δ ≤ C.tried t1 h1 := hδx.trans y1
        have e3 : κ * δ ≤ (1 - σ) * C.tried t1 h1 := mul_le_mul κ2 e2 δ0.le (by linarith)
        linarith
    -- the proposal
    obtain ⟨q1, q2⟩ := C.stepQuot_bounds (N := b.opts.max_newt_iter) (m := s'.cache.newt) (prev := prev) (h := x1) (e := e)
    have hq0 := hctl.facr_pos.trans_le q1
    have cap1 : ∀ m ∈ C.mx, ρ * x1 ≤ m := fun m hm' => by
      have e1 := G.cap m hm'
      have e2 : x1 ≤ m * 1.0001 := by have := htr.2; linarith
      have e3 : 0 < m := hctl.dtmax_pos m hm'
      calc ρ * x1 ≤ 0.1 * (m * 1.0001) := mul_le_mul ρ1 e2 hxp.le (by norm_num)
        _ ≤ m := by norm_num; linarith
    have hprop : ρ * x1 ≤ C.proposal rt x1 (C.stepQuot b.opts.max_newt_iter s'.cache.newt prev x1 e) := by
      refine C.le_proposal hd hxp hq0 (by positivity) ?_ (mul_le_of_le_one_left hxp.le (by linarith)) cap1
      rw [le_div_iff₀ hq0]
      have := (mul_le_mul_of_nonneg_left q2 ρ0.le).trans V.ρ2
      calc ρ * x1 * _ = ρ * C.stepQuot b.opts.max_newt_iter s'.cache.newt prev x1 e * x1 := by ring
        _ ≤ 1 * x1 := mul_le_mul_of_nonneg_right this hxp.le
        _ = x1 := one_mul _
    have hprop' : δ ≤ C.proposal rt x1 (C.stepQuot b.opts.max_newt_iter s'.cache.newt prev x1 e) := by
      by_cases hj : j = 0
      · obtain ⟨e1, e2, e3, -⟩ := hj0 hj
        by_cases hbig : x1 ≤ hs
        · have i0 : _root_.Fin n := ⟨0, Nat.pos_of_ne_zero hn⟩
          have M0 : 0 ≤ M := (abs_nonneg _).trans (hm.rhs 0 0 i0)
          have B0 : 0 ≤ B := (Finset.sum_nonneg fun _ _ => abs_nonneg _).trans (hm.rows 0 0 i0)
          obtain ⟨g1, g2, g3⟩ := Z.mono M0 B0 hbig
          obtain ⟨n1, e', n2, n3, n4⟩ := p5 ⟨hxp, g1, g2, g3, Z.ε0, Z.ε1⟩
          obtain rfl : e' = e := fin_inj.1 (n2.symm.trans c4)
          have hq : C.stepQuot b.opts.max_newt_iter s'.cache.newt prev x1 e' ≤ 1 := by
            rw [n1]
            have k1 := C.classic_le_one (N := b.opts.max_newt_iter) V.facr hctl.safe_pos n3.le (n4.trans z1)
            cases prev with
            | none => exact k1
            | some p =>
              refine max_le k1 ?_
              have hk0 : 0 < k := by
                by_contra hk0
                have := c5.2 (fun h => hk0 h.2)
                simp at this
              obtain ⟨hp, w1, w2⟩ := e3 hk0
              obtain ⟨w3, -⟩ := c6 p.1 p.2 rfl
              obtain rfl : hp = p.1 := fin_inj.1 (w1.symm.trans w3)
              exact C.predictive_le_one V.facr hctl.safe_pos n3.le ρ0 (n4.trans z2) hxp (by rw [e1]; exact w2)
          refine C.le_proposal hd hxp hq0 δ0 ?_ hδx fun m hm' => D.start.trans (V.dtmax m hm')
          rw [le_div_iff₀ hq0]
          exact (mul_le_of_le_one_right δ0.le hq).trans hδx
        · refine le_trans ?_ hprop
          exact hδs.trans (mul_le_mul_of_nonneg_left (not_le.1 hbig).le ρ0.le)
      · refine le_trans ?_ hprop
        refine D.small.trans ?_
        rw [sq, mul_assoc]
        exact mul_le_mul_of_nonneg_left (y3 hj).1 ρ0.le
    have hnext := c8.next
    generalize hX : C.proposal rt x1 (C.stepQuot b.opts.max_newt_iter s'.cache.newt prev x1 e) = x at hprop hprop' hnext
    have hxm : ∀ m ∈ C.mx, x ≤ m := fun m hm' => by rw [← hX]; exact C.proposal_le hd hctl.dtmax_pos m hm'
    have hdec : s'.cache.decompose = true := p4 fun q hq => by
      rw [hopt] at hq ⊢
      rw [hctl.quot1] at hq
      rw [hctl.quot2]
      exact V.no_keep hq
    have hsucc : SomeSteps Radau.alg none (k + 1) s0 s' := by
      have : o = some s'.stats.steps := by rw [ho', hcode]; rfl
      subst this
      exact .succ (alg := Radau.alg) hk hst'
    refine ⟨s', t1 + x1, x2, hsucc, c1, c3, G.fac.step hs1, hdec, by push_cast; linarith, by rw [hκ]; exact hleft, ?_, ?_, hsteps'⟩
    · unfold Clock.next at hnext
      split at hnext
      · exact .inl hnext
      · split at hnext
        · rename_i hkp
          have := V.no_keep (q := fin (x / x1)) (by rw [ge_fin]; simpa using hkp.2.1)
          rw [hkp.2.2] at this
          simp at this
        · subst hnext
          exact .inr ⟨hprop', fun _ => ⟨x1, c2, hprop⟩⟩
    · intro m hm'
      unfold Clock.next at hnext
      split at hnext
      · rename_i hend
        rw [hd, mul_one] at hend
        have e1 : x / C.q1 ≤ x := div_le_self (δ0.le.trans hprop') hS.quot1
        have := hxm m hm'
        rw [hnext]; linarith
      · split at hnext
        · rename_i hkp
          have := V.no_keep (q := fin (x / x1)) (by rw [ge_fin]; simpa using hkp.2.1)
          rw [hkp.2.2] at this
          simp at this
        · rw [hnext]; exact hxm m hm'

end Radau

/-- **C79** Radau5 reaches `tfinal`: a forward run ends with `Success` at `tfinal` after at most `S (K + 1)` attempts, if `max_steps`
is larger. The right-hand side is bounded by `M`, the rows of the Jacobian function by `B` (it need not be the derivative), and the
matrices of the Newton iteration are regular for all steps up to `tf - t0`. Every Newton iteration starts from zero
(`use_ext_col = false`), every step has its own factorization (`quot2 < quot1`). `hs` is a step size for which one iteration
suffices and the error is small, `δ` a lower bound for the steps, above the spacing of the doubles. -/
theorem C79_success_radau {C : Radau.Clock} {b : Builder X n P} {f : ℝ → (Fin n → ℝ) → Fin n → ℝ}
    {jac : ℝ → (Fin n → ℝ) → Fin n → Fin n → ℝ} {u0 : Fin n → ℝ} {s0 : Radau.St X n P} {a r φ M B ε hs δ ρ σ : ℝ} {K S : ℕ}
    (R : Radau.RealProblem b f jac u0) (T : Radau.Timed C b) (hn : n ≠ 0) (hS : C.Sane) (ht : C.t0 < C.tf)
    (hc : ∀ t u, Spec.FirstNotEigen (C.Sane ∧ C.t0 ≤ C.tf) (jac t u)) (hb : b.build Radau.alg = .ok s0)
    (ha : s0.opts.abstol = fin a) (a0 : 0 < a) (hr : s0.opts.reltol = fin r) (r0 : 0 ≤ r) (hφ : s0.opts.fnewt = fin φ)
    (hN : 1 ≤ b.opts.max_newt_iter) (hx : b.opts.use_ext_col = false) (hm : Radau.Mild f jac M B (C.tf - C.t0))
    (V : Radau.Lively C ρ σ) (Z : Radau.SmallStep M B a φ ε hs) (z1 : ε ≤ C.sf ^ 4) (z2 : ε ≤ 0.1 * (ρ * C.sf) ^ 2)
    (D : Radau.Budget C ρ σ hs δ K S b.opts.max_steps) :
    ∃ s, IntegrateReturns Radau.alg none s0 s ∧ s.sol.retcode = .Success ∧ s.t = fin C.tf ∧
      s.sol.ts.getLast? = some (fin C.tf) ∧ s.stats.steps ≤ S * (K + 1) := by
  have κ : 0 < min 1e-4 (1 - σ) := lt_min (by norm_num) (by linarith [V.σ1])
  have hid := T.idle hb
  have start : Radau.Going C ρ σ δ K 0 s0 C.t0 1e-6 := by
    refine ⟨hid.time, hid.step, .of_le (y := 1) ?_ (by norm_num), ?_, by simp, ?_, .inr ⟨D.start, by simp⟩, V.dtmax, ?_⟩
    · rw [← Res.ok.inj hb]
      change (1.0 : X) = _
      rw [X.sci]; norm_num
    · rw [← Res.ok.inj hb]
    · exact (mul_le_of_le_one_left D.pos.le ((min_le_left _ _).trans (by norm_num))).trans D.span
    · rw [← Res.ok.inj hb]; simp; rfl
  have all : ∀ k, (∃ s t h, SomeSteps Radau.alg none k s0 s ∧ Radau.Going C ρ σ δ K k s t h) ∨
      ∃ s', IntegrateReturns Radau.alg none s0 s' ∧ s'.sol.retcode = .Success ∧ s'.stats.steps ≤ S * (K + 1) := by
    intro k
    induction k with
    | zero => exact .inl ⟨s0, _, _, .zero (alg := Radau.alg) s0, start⟩
    | succ k ih =>
      rcases ih with ⟨s, t, h, h1, G⟩ | h
      · exact G.next R T hn hS ht hc hb ha a0 hr r0 hφ hN hx hm V Z z1 z2 D h1
      · exact .inr h
  rcases all S with ⟨s, t, h, -, G⟩ | ⟨s, h1, h2, h3⟩
  · have e1 := G.pace
    have e2 := G.left
    have e3 := D.calls
    have e4 := mul_pos κ D.pos
    linarith
  · obtain ⟨h4, h5⟩ := C25_success_radau T hb h1 h2
    exact ⟨s, h1, h2, h4, h5, h3⟩

/-! ## An example -/

/-- `u' = 1 / (1 + u²)` on `[0, 1]`, with the Jacobian of the user, a rough tolerance and a factorization for every step. -/
def slowBuilder : Builder X 1 Unit :=
  ((((((Builder.default Radau.alg (fun _ _ u _ => fun i => fin 1 / (fin 1 + u i * u i)) (fv fun _ => 0) (fin 0, fin 1) ()).set
    (.dfdu fun _ _ u _ => fun i _ => -(fin 2 * u i) / ((fin 1 + u i * u i) * (fin 1 + u i * u i)))).set (.abstol (fin 1))).set
    (.fnewt (fin 0.03))).set (.quot2 (fin 0))).set (.use_ext_col false)).set (.max_steps 2000000000)

/-- The default options, but `quot2 = 0`. -/
def slowClock : Radau.Clock := ⟨0, 1, 0.9, 5, 0.125, 1, fin 0, none⟩

/-- For C79. -/
example : ∃ s0 s : Radau.St X 1 Unit, slowBuilder.build Radau.alg = .ok s0 ∧ IntegrateReturns Radau.alg none s0 s ∧
    s.sol.retcode = .Success ∧ s.t = fin 1 := by
  obtain ⟨s0, hb⟩ : ∃ s0 : Radau.St X 1 Unit, slowBuilder.build Radau.alg = .ok s0 := ⟨_, rfl⟩
  have hpos : ∀ x : ℝ, 0 < 1 + x * x := fun x => by nlinarith [mul_self_nonneg x]
  have R : Radau.RealProblem slowBuilder (fun _ u i => 1 / (1 + u i * u i))
      (fun _ u i _ => -(2 * u i) / ((1 + u i * u i) * (1 + u i * u i))) (fun _ => 0) := by
    refine ⟨fun _ _ _ => ?_, rfl, fun _ _ _ => ?_⟩
    · funext i
      simp only [slowBuilder, Builder.set, Builder.default, fv]
      rw [mul_fin, add_fin, div_fin (hpos _).ne']
    · funext i j
      simp only [slowBuilder, Builder.set, Builder.default, fv]
      rw [mul_fin, mul_fin, add_fin, mul_fin, neg_fin, div_fin (mul_pos (hpos _) (hpos _)).ne']
  have T : Radau.Timed slowClock slowBuilder := by
    have := Radau.default_timed (n := 1) (P := Unit) (fun _ _ u _ => fun i => fin 1 / (fin 1 + u i * u i)) () 0 1 (fv fun _ => 0)
    exact ⟨this.1, this.2, this.3, ⟨this.4.1, this.4.2, this.4.3, this.4.4, rfl, this.4.6, this.4.7, this.4.8, this.4.9, this.4.10, this.4.11⟩⟩
  have hS : slowClock.Sane :=
    ⟨(Radau.defaultClock_sane 0 1 none).1, (Radau.defaultClock_sane 0 1 none).2, (Radau.defaultClock_sane 0 1 none).3⟩
  have hJ : ∀ x : ℝ, |-(2 * x) / ((1 + x * x) * (1 + x * x))| ≤ 1 := fun x => by
    have h1 := hpos x
    have h2 : |2 * x| ≤ 1 + x * x := abs_le.2 ⟨by nlinarith [sq_nonneg (x + 1)], by nlinarith [sq_nonneg (x - 1)]⟩
    rw [abs_div, abs_neg, abs_of_pos (mul_pos h1 h1), div_le_one (mul_pos h1 h1)]
    nlinarith [mul_self_nonneg x]
  have hm : Radau.Mild (fun (_ : ℝ) (u : Fin 1 → ℝ) i => 1 / (1 + u i * u i))
      (fun _ u i _ => -(2 * u i) / ((1 + u i * u i) * (1 + u i * u i))) 1 1 1 := by
    refine ⟨fun t u i => ?_, fun t u i => ?_, fun t u h h0 h1 => ⟨fun v hv => ?_, fun v hv => ?_⟩⟩
    · rw [abs_of_pos (div_pos one_pos (hpos _)), div_le_one (hpos _)]
      nlinarith [mul_self_nonneg (u i)]
    · simpa using hJ (u i)
    · have h2 := hv 0
      simp only [Finset.univ_unique, Finset.sum_singleton] at h2
      have h3 : (1 : ℝ) < Radau.U1 / h := by
        rw [lt_div_iff₀ h0]
        have : (1 : ℝ) < Radau.U1 := by unfold Radau.U1; norm_num
        linarith
      have h4 := (abs_le.1 (hJ (u 0))).2
      have h5 : v 0 = 0 := by
        have h6 : (Radau.U1 / h - -(2 * u 0) / ((1 + u 0 * u 0) * (1 + u 0 * u 0))) * v 0 = 0 := by
          rw [sub_mul, sub_eq_zero]; exact h2.symm
        rcases mul_eq_zero.1 h6 with h | h
        · linarith
        · exact h
      funext i
      rw [Subsingleton.elim i 0]; exact h5
    · have h2 := hv 0
      simp only [Finset.univ_unique, Finset.sum_singleton] at h2
      have h5 : v 0 = 0 := by
        have h6 : ((⟨Radau.ALPHA / h, Radau.BETA / h⟩ : ℂ) - ((-(2 * u 0) / ((1 + u 0 * u 0) * (1 + u 0 * u 0)) : ℝ) : ℂ)) * v 0 = 0 := by
          rw [sub_mul, sub_eq_zero]; exact h2.symm
        rcases mul_eq_zero.1 h6 with h7 | h7
        · have h8 := congrArg Complex.im h7
          rw [Complex.sub_im, Complex.ofReal_im, sub_zero, Complex.zero_im] at h8
          have h9 : (0 : ℝ) < Radau.BETA := by unfold Radau.BETA; norm_num
          exact absurd h8 (div_pos h9 h0).ne'
        · exact h7
      funext i
      rw [Subsingleton.elim i 0]; exact h5
  have e1 : s0.opts.reltol = fin 1e-3 := by
    rw [← Res.ok.inj hb]
    exact Radau.default_tol.reltol
  have e2 : s0.opts.abstol = fin 1 := by
    have : s0.opts.abstol = s0.opts.reltol * (fin 1 / (1e-3 : X)) := by rw [← Res.ok.inj hb]; rfl
    rw [this, e1, show (1e-3 : X) = fin 1e-3 from rfl, div_fin (by norm_num), mul_fin, fin_inj]
    norm_num
  have e3 : s0.opts.fnewt = fin 0.03 := by
    have : ∃ x, s0.opts.fnewt = if Fl.le (fin 0.03) (0.0 : X) then x else fin 0.03 := by rw [← Res.ok.inj hb]; exact ⟨_, rfl⟩
    obtain ⟨x, this⟩ := this
    rw [this, show (0.0 : X) = fin 0.0 from rfl, le_fin, if_neg (by norm_num)]
  have V : Radau.Lively slowClock 0.1 0.9 := by
    refine ⟨⟨?_, ?_, ?_, ?_, ?_, ?_, ?_⟩, ?_, ?_, ?_⟩
    · norm_num
    · norm_num
    · norm_num [slowClock]
    · norm_num
    · norm_num
    · norm_num [slowClock]
    · norm_num [slowClock]
    · norm_num [slowClock]
    · rw [slowClock, le_fin]; norm_num
    · simp [slowClock]
  have Z : Radau.SmallStep 1 1 1 0.03 8e-4 3e-5 := ⟨by norm_num, by norm_num, by norm_num, by norm_num, by norm_num, by norm_num⟩
  have D : Radau.Budget slowClock 0.1 0.9 3e-5 1e-7 100 10000000 slowBuilder.opts.max_steps := by
    refine ⟨by norm_num, by norm_num, by norm_num, by norm_num [slowClock], ?_, ?_, ?_, ?_⟩
    · rw [show min 1e-4 (1 - 0.9 : ℝ) = 1e-4 from min_eq_left (by norm_num)]
      norm_num [slowClock]
    · norm_num [slowClock]
    · norm_num [slowClock]
    · change 10000000 * (100 + 1) < 2000000000; norm_num
  obtain ⟨s, h1, h2, h3, -⟩ := C79_success_radau R T one_ne_zero hS (by norm_num [slowClock])
    (fun _ _ h => absurd h (by norm_num)) hb e2 one_pos e1 (by norm_num) e3 (by change 1 ≤ 7; norm_num) rfl
    (hm.mono (by norm_num [slowClock])) V Z (by norm_num [slowClock]) (by norm_num [slowClock]) D
  exact ⟨s0, s, hb, h1, h2, h3⟩

end
end Cyphus
