import Verif.Proofs.RadauQuad
/-!
# Sample runs of `Radau5`

Right-hand sides which do not depend on the state.
-/

namespace Cyphus
open X
set_option autoImplicit false
set_option linter.unusedSectionVars false

namespace Radau
open Linalg
noncomputable section
variable {n : ℕ} {P : Type} {E : NEnv n} {fwd : Prop} {s : St X n P} {t h hf : ℝ}

/-- The decompositions succeed if both matrices are nonsingular. -/
theorem perform_of_det {J : _root_.Fin n → _root_.Fin n → ℝ} (hn : n ≠ 0) (hJ : s.cache.dfdu = fmat J) (hh : s.dt = fin h)
    (h0 : h ≠ 0) (d1 : Spec.det n (extM (fun i j => (if i = j then U1 / h else 0) - J i j : Mat n ℝ)) ≠ 0)
    (d2 : Spec.det n (Spec.complexMatrix (extM (fun i j => (if i = j then ALPHA / h else 0) - J i j : Mat n ℝ))
      (extM (fun i j => if i = j then BETA / h else 0 : Mat n ℝ))) ≠ 0) :
    ∃ s1, perform_decompositions s = .ok (s1, true) := by
  have hn1 : 1 ≤ n := by omega
  have e1 : (U1 : X) / fin h = fin (U1 / h) := by rw [show (U1 : X) = fin U1 from rfl, div_fin h0]
  have e2 : (ALPHA : X) / fin h = fin (ALPHA / h) := by rw [show (ALPHA : X) = fin ALPHA from rfl, div_fin h0]
  have e3 : (BETA : X) / fin h = fin (BETA / h) := by rw [show (BETA : X) = fin BETA from rfl, div_fin h0]
  obtain ⟨st, hd, -⟩ := C34_nonsingular hn1 d1 s.cache.ip1
  obtain ⟨st', hd', -⟩ := C37_nonsingular hn1 d2 s.cache.ip2
  unfold perform_decompositions
  simp only [decomp_real, hh, hJ, e1, e2, e3]
  rw [shift_fmat, extM_fmat, dec_fm hd]
  simp only [Res.bind, if_true]
  simp only [decomp_complex, hJ]
  rw [shift_fmat, scale_fmat, extM_fmat, extM_fmat, decc_fm hd']
  simp only [Res.bind, if_true]
  exact ⟨_, rfl⟩

theorem det_scalar {K : Type} [Field K] (hn : n ≠ 0) {c : K} (hc : c ≠ 0) {A : ℕ → ℕ → K}
    (hA : ∀ i j : _root_.Fin n, A i j = if i = j then c else 0) : Spec.det n A ≠ 0 := by
  unfold Spec.det
  have : (Matrix.of fun i j : _root_.Fin n => A i j) = Matrix.diagonal fun _ => c := by
    ext i j
    rw [Matrix.of_apply, hA, Matrix.diagonal_apply]
  rw [this, Matrix.det_diagonal]
  simp [hc]

/-- The decompositions succeed for a zero Jacobian. -/
theorem decPhase_zero (hn : n ≠ 0) (hJ : s.cache.dfdu = fmat fun _ _ => 0) (hh : s.dt = fin h)
    (h0 : h ≠ 0) : ∃ s1, decPhase 1 s = .ok (s1, true) ∧ Frame s s1 ∧ s1.dt = s.dt ∧ s1.cache.last = s.cache.last ∧
      s1.cache.reject = s.cache.reject ∧ s1.stats.steps = s.stats.steps ∧ s1.sol.retcode = s.sol.retcode ∧
      s1.cache.dfdu = s.cache.dfdu := by
  unfold decPhase
  split
  · have ext : ∀ (M : Mat n ℝ) (i j : _root_.Fin n), extM M i j = M i j := by
      intro M i j
      simp only [extM]
      rw [dif_pos ⟨i.2, j.2⟩]
    obtain ⟨s1, h1⟩ := perform_of_det hn hJ hh h0
      (det_scalar hn (div_ne_zero U1_pos.ne' h0) fun i j => by rw [ext, sub_zero])
      (det_scalar (c := ⟨ALPHA / h, BETA / h⟩) hn (fun hc => by
          have := congrArg Complex.im hc
          simp only [Complex.zero_im, div_eq_zero_iff] at this
          rcases this with h | h
          · revert h; unfold BETA; norm_num
          · exact h0 h) fun i j => by
        unfold Spec.complexMatrix
        rw [ext, ext, sub_zero]
        split
        · rfl
        · rfl)
    refine ⟨s1, ?_, Frame.perform h1, ?_⟩
    · rw [decLoop, h1]
      rfl
    · obtain ⟨-, s2, s3, h2, h3, rfl⟩ | ⟨hb, -⟩ := perform_ok h1
      · obtain ⟨r1, -, rfl⟩ := decomp_real_ok h2
        obtain ⟨r2, -, rfl⟩ := decomp_complex_ok h3
        exact ⟨rfl, rfl, rfl, rfl, rfl, rfl⟩
      · simp at hb
  · exact ⟨s, rfl, Frame.refl s, rfl, rfl, rfl, rfl, rfl, rfl⟩

variable {C : Clock} {a r φ : ℝ} {u : _root_.Fin n → ℝ}

/-- What is needed to know the next step. -/
structure QuadIdle (E : NEnv n) (C : Clock) (fwd : Prop) (s : St X n P) (t a r φ : ℝ) (u : _root_.Fin n → ℝ) : Prop where
  idle : IdleN E C fwd t s
  ready : Ready s
  scal : Scaled s
  deriv : Derived s
  state : s.u = fv u
  abstol : s.opts.abstol = fin a
  reltol : s.opts.reltol = fin r
  a0 : 0 < a
  r0 : 0 ≤ r
  fnewt : s.opts.fnewt = fin φ
  fnewt_pos : 0 < φ
  max_newt : 3 ≤ s.opts.max_newt_iter
  jinv : JacInv s.dudt s.dfdu s.params s
  recd : ∃ l, Recorded s.sol l

/-- The outcome of a step, in terms of the state `d` in which the decision to accept it was made. -/
structure QuadStep (E : NEnv n) (C : Clock) (fwd : Prop) (s d s' : St X n P) (t h hf a r φ : ℝ) (u : _root_.Fin n → ℝ) :
    Prop where
  step : Radau.step 1 s = .ok s'
  eq : s' = acceptStep d (stepQuot d)
  err : d.cache.err = fin (max (Spec.scaledNorm a r u (quadErr E.f t h hf)) 1.0e-10)
  newt : d.cache.newt ≤ 2
  theta : d.cache.theta = Fl.abs s.opts.theta ∨ d.cache.theta = fin 0
  dt : d.dt = fin h
  last : d.cache.last = (clampLast s).cache.last
  reject : d.cache.reject = false
  decompose : d.cache.decompose = true
  accepts : d.stats.accepts = s.stats.accepts
  steps : s'.stats.steps = s.stats.steps + 1
  code : s'.sol.retcode = if (clampLast s).cache.last then .Success else .Continue
  time : s'.t = fin (t + h)
  state : s'.u = fv fun i => u i + quadZ E.f t h hf 2 i
  opts : s'.opts = s.opts
  frame : d.opts = s.opts ∧ d.tdir = s.tdir ∧ d.tfinal = s.tfinal ∧ d.t = s.t ∧ d.cache.cfac = s.cache.cfac
  good : Good hf (fun _ _ => 0) (facsOf s')
  decs : s.cache.decompose = false → s'.stats.decompositions = s.stats.decompositions
  idle : IdleN E C fwd (t + h) s'
  next : s'.sol.retcode = .Continue → QuadIdle E C fwd s' (t + h) a r φ (fun i => u i + quadZ E.f t h hf 2 i)

theorem acceptStep_decs (s : St X n P) (q : X) :
    (acceptStep s q).stats.decompositions = s.stats.decompositions := by
  have h1 : (acceptState (countAccept s)).stats.decompositions = s.stats.decompositions := by
    simp only [acceptState]; split <;> rfl
  have h2 : ∀ s : St X n P, (finishNext s).stats.decompositions = s.stats.decompositions := by
    intro s; simp only [finishNext]; split <;> rfl
  have h3 : ∀ (s : St X n P) d, (nextStep s d).stats.decompositions = s.stats.decompositions := by
    intro s d; simp only [nextStep]; split
    · rw [h2]
    · split
      · rfl
      · rw [h2]
  simp only [acceptStep]
  split
  · exact h1
  · rw [h3]; exact h1

theorem QuadIdle.jac (hz : ∀ t u, E.jac t u = fun _ _ => 0) (H : QuadIdle E C fwd s t a r φ u) :
    s.cache.dfdu = fmat fun _ _ => 0 := by
  obtain ⟨-, -, x, hx, buf, h⟩ := H.jinv
  obtain ⟨l, h1, h2⟩ := H.recd
  rw [h1, h2, List.zip_map'] at hx
  obtain ⟨p, -, rfl⟩ := List.mem_map.1 hx
  rw [h, H.idle.num.jacs, hz]

theorem QuadIdle.go (hn : n ≠ 0) (hq : ∀ t u, E.f t u = E.f t 0) (hz : ∀ t u, E.jac t u = fun _ _ => 0)
    (H : QuadIdle E C fwd s t a r φ u) (hst : s.stats.steps + 1 < s.opts.max_steps)
    (hh : (clampLast s).dt = fin h) (hsm : |t| * Fl.eps < 0.1 * |h|)
    (hf1 : s.cache.decompose = true → hf = h) (hf2 : s.cache.decompose = false → Good hf (fun _ _ => 0) (facsOf s))
    (he : Spec.scaledNorm a r u (quadErr E.f t h hf) < 1) : ∃ d s', QuadStep E C fwd s d s' t h hf a r φ u := by
  have hJ := H.jac hz
  have h0 : h ≠ 0 := by
    rintro rfl
    have := RealFl.eps_pos
    have := abs_nonneg t
    norm_num at hsm
    nlinarith
  have hH := H.idle.head H.ready.retcode
  have hcf : Frame s (clampLast s) := by
    unfold clampLast; split
    · constructor <;> rfl
    · exact Frame.refl s
  have hcl := clampLast_fields s
  have hJc : (clampLast s).cache.dfdu = fmat fun _ _ => 0 := by
    unfold clampLast; split <;> exact hJ
  obtain ⟨s1, hd, fr, e1, e2, e3, e4, e5, e6⟩ := decPhase_zero hn hJc hh h0
  have hs1 : s1.dt = fin h := e1.trans hh
  have ht1 : s1.t = fin t := by rw [fr.t, hcf.t]; exact H.idle.idle.choose_spec.time
  have hts : tooSmall s1 = false := by
    unfold tooSmall
    rw [hs1, ht1, show (0.1 : X) = fin 0.1 from rfl, abs_fin, abs_fin, eps_fin, mul_fin, mul_fin, le_fin]
    simpa using hsm
  obtain ⟨⟨h', h0', hc⟩, hnum, hf', J', hJ', hG, hfr⟩ := hH.dec hd hts
  obtain rfl : h' = h := by
    have := hc.step
    rw [hs1, fin_inj] at this
    exact this.symm
  have hdec : (clampLast s).cache.decompose = s.cache.decompose := by
    unfold clampLast; split <;> rfl
  have hfac : facsOf (clampLast s) = facsOf s := by
    unfold clampLast; split <;> rfl
  have hjz : JOk E fwd fun _ _ => 0 := by
    obtain ⟨J, eJ, hJ1⟩ := H.idle.num.dfdu
    have : J = fun _ _ => 0 := by
      rw [hJ] at eJ
      funext i j
      exact (fin_inj.1 (congrFun (congrFun eJ i) j)).symm
    rwa [this] at hJ1
  have hgood : Good hf (fun _ _ => 0) (facsOf s1) := by
    cases hb : s.cache.decompose with
    | true =>
      rw [hdec] at hfr
      obtain ⟨g1, g2⟩ := hfr hb
      rw [e6, hJc] at g2
      have : J' = fun _ _ => 0 := by
        funext i j
        exact (fin_inj.1 (congrFun (congrFun g2 i) j)).symm
      rw [hs1, fin_inj] at g1
      rw [hf1 hb, g1, ← this]
      exact hG
    | false =>
      have : s1 = clampLast s := by
        have hd' := hd
        unfold decPhase at hd'
        rw [hdec, hb] at hd'
        exact (Prod.mk.inj (Res.ok.inj hd')).1.symm
      rw [this, hfac]
      exact hf2 hb
  have frs : Frame s s1 := hcf.trans fr
  have hder : s1.cache.u0 = fv (E.f t u) := by
    obtain ⟨buf, hD⟩ := H.deriv
    rw [frs.u0, hD, H.state, H.idle.idle.choose_spec.time, H.idle.num.lifts]
  have Q : QuadHead E C fwd s1 t h' hf a r φ u := by
    refine ⟨hc, hnum, hgood, hjz, h0, by rw [frs.u, H.state], hder, H.a0, H.r0, ?_, by rw [frs.opts, H.fnewt], H.fnewt_pos,
      by rw [frs.opts]; exact H.max_newt⟩
    rw [frs.scal, H.scal, H.abstol, H.reltol, H.state]
    rfl
  obtain ⟨s2, hN, n1, n2, n3, n4, n5, n6, n7⟩ := Q.tick.accept hn hq he
  obtain ⟨s2', hN', -, -, -, -, -, z3, hff, -⟩ := Q.tick.newton hn hq
  obtain rfl : s2' = s2 := by
    rw [hN] at hN'
    exact (Prod.mk.inj (Res.ok.inj hN')).1.symm
  have fl := newton_flags hN
  simp only [if_true] at fl
  obtain ⟨fl1, fl2, fl3⟩ := fl
  have hrej : s2'.cache.reject = false := by
    rw [fl1]
    change s1.cache.reject = false
    rw [e3, ← H.ready.reject]
    unfold clampLast; split <;> rfl
  have hlast : s2'.cache.last = (clampLast s).cache.last := by
    rw [fl2]; exact e2
  have fr2 : Frame s (decided s2') := frs.trans ((show Frame s1 (tick s1) by constructor <;> rfl).trans (n4.trans (Frame.decided s2')))
  have hacc : (acceptStep (decided s2') (stepQuot (decided s2'))).cache.reject = false := by
    apply acceptStep_reject_of_L
    intro hr
    rw [n5] at hr
    change s2'.cache.reject = true at hr
    rw [hrej] at hr
    simp at hr
  have hst1 : (tick s1).stats.steps = s.stats.steps + 1 := by
    change s1.stats.steps + 1 = _
    rw [e4, hcl.2.2.1]
  have hstep := one_attempt (s := s) hd (by rw [hst1]; change ¬ _ ≥ s1.opts.max_steps; rw [frs.opts]; omega) hts hN n7 hacc
  set d := decided s2' with hd'
  set s' := acceptStep d (stepQuot d) with hs'
  have af := acceptStep_fields d (stepQuot d)
  dsimp only at af
  rw [← hs'] at af
  have d1 : d.cache.newt = s2'.cache.newt ∧ d.cache.theta = s2'.cache.theta ∧ d.cache.last = s2'.cache.last ∧
      d.cache.reject = s2'.cache.reject ∧ d.cache.decompose = true ∧ d.cache.z3 = s2'.cache.z3 := by
    rw [n5]
    exact ⟨rfl, rfl, rfl, rfl, rfl, rfl⟩
  obtain ⟨d1, d2, d3, d4, d5, d6⟩ := d1
  have hns := newton_sol hN
  have hdt : d.dt = fin h' := by rw [hd', decided_dt, n3]
  have hcode : d.sol.retcode = .Continue := by
    rw [hd', decided_sol, hns.1]
    change s1.sol.retcode = _
    rw [e5, hcl.2.1, H.ready.retcode]
  have hus : s'.u = fv fun i => u i + quadZ E.f t h' hf 2 i := by
    rw [af.2.2.2.2.1, fr2.u, H.state, d6, z3]
    funext i
    simp only [fv_apply, add_fin]
  have hti : s'.t = fin (t + h') := by
    rw [af.2.2.2.2.2.1, fr2.t, H.idle.idle.choose_spec.time, hdt, add_fin]
  have hop : s'.opts = s.opts := by rw [af.2.2.2.2.2.2.2.2.2.2.2.1, fr2.opts]
  have hco : s'.sol.retcode = if (clampLast s).cache.last then .Success else .Continue := by
    rw [af.2.2.2.2.2.2.2.2.2.2.2.2.2.2.1, d3, hlast, hcode]
  have hidle : IdleN E C fwd (t + h') s' := by
    obtain ⟨k, a', s1', s2', h3, hf', J, -, -, S⟩ | ⟨c1, c2, -⟩ := H.idle.step H.ready hstep
    · have := S.idle
      obtain ⟨_, hi⟩ := this.idle
      have e := hi.time
      rw [hti, fin_inj] at e
      rw [e]
      exact this
    · exfalso
      rw [hco] at c1 c2
      split at c1 <;> simp_all
  refine ⟨d, s', hstep, rfl, n6, by rw [d1]; exact n1, ?_, hdt, by rw [d3, hlast], by rw [d4, hrej], d5, fr2.accepts, ?_, hco,
    hti, hus, hop, ⟨fr2.opts, fr2.tdir, fr2.tfinal, fr2.t, fr2.cfac⟩, ?_, fun hb => ?_, hidle, fun hc => ?_⟩
  · rw [d2]
    rcases n2 with h | h
    · left
      rw [h]
      change Fl.abs s1.opts.theta = _
      rw [frs.opts]
    · exact .inr h
  · rw [af.2.2.2.2.2.2.2.2.2.2.2.2.2.2.2.2.1, hd', decided_steps, hns.2.1, hst1]
  · rw [hs', acceptStep_facs, hd', (decided_facs s2').1, hff]
    exact hgood
  · have h1 : s1 = clampLast s := by
      have hd' := hd
      unfold decPhase at hd'
      rw [hdec, hb] at hd'
      exact (Prod.mk.inj (Res.ok.inj hd')).1.symm
    rw [hs', acceptStep_decs, hd', (decided_facs s2').2.1, ((facs_closedN _ _ _).newton ⟨rfl, rfl, rfl⟩ hN).2.1]
    change s1.stats.decompositions = _
    rw [h1]
    unfold clampLast; split <;> rfl
  · refine ⟨hidle, H.ready.step hstep hc, Scaled.accept _ _, Derived.step H.ready hstep hc, hus, by rw [hop, H.abstol],
      by rw [hop, H.reltol], H.a0, H.r0, by rw [hop, H.fnewt], H.fnewt_pos, by rw [hop]; exact H.max_newt, ?_, ?_⟩
    · have := H.jinv.step hstep
      obtain ⟨⟨e1, e2, e3, -⟩, -⟩ := this
      rw [e1, e2, e3]
      exact H.jinv.step hstep
    · obtain ⟨l, h1, h2⟩ := H.recd
      refine ⟨l ++ [(t + h', fun i => u i + quadZ E.f t h' hf 2 i)], ?_, ?_⟩
      · rw [af.2.2.2.2.2.2.2.2.2.2.2.2.1, fr2.ts, h1, ← af.2.2.2.2.2.1, hti]
        simp
      · rw [af.2.2.2.2.2.2.2.2.2.2.2.2.2.1, fr2.us, h2, ← af.2.2.2.2.1, hus]
        simp

/-! ### Constant right-hand sides -/

theorem rowSum (k : _root_.Fin 3) : |∑ l, codeTransform.A k l - Spec.radauC k| ≤ 3e-16 := by
  have h0 := C43_published_method.1 k 0
  simp only [Fin.val_zero, pow_zero, mul_one, zero_add, pow_one, Nat.cast_zero, div_one] at h0
  have h1 := fun l => abs_le.1 (C43_constants.1 k l)
  rw [← h0, ← Finset.sum_sub_distrib, Fin.sum_univ_three, abs_le]
  have := h1 0
  have := h1 1
  have := h1 2
  norm_num at *
  constructor <;> linarith

theorem errSum : |1 + ∑ k, Spec.radauE k * ∑ l, codeTransform.A k l| ≤ 1e-14 := by
  obtain ⟨b1, b2⟩ := sqrt6_bounds
  have e : 1 + ∑ k, Spec.radauE k * ∑ l, codeTransform.A k l =
      ∑ k, Spec.radauE k * (∑ l, codeTransform.A k l - Spec.radauC k) := by
    have : ∑ k, Spec.radauE k * Spec.radauC k = -1 := by
      simp [Fin.sum_univ_three, Spec.radauE, Spec.radauC]
      have := sqrt6_sq
      ring_nf
      rw [show √6 ^ 2 = 6 by rw [pow_two, this]]
      norm_num
    simp only [mul_sub, Finset.sum_sub_distrib, this]
    ring
  rw [e]
  refine (Finset.abs_sum_le_sum_abs _ _).trans ?_
  simp only [abs_mul]
  have hE : ∀ k, |Spec.radauE k| ≤ 11 := by
    intro k
    rw [abs_le]
    fin_cases k <;> simp [Spec.radauE] <;> constructor <;> norm_num at * <;> linarith
  calc ∑ k, |Spec.radauE k| * |∑ l, codeTransform.A k l - Spec.radauC k| ≤ ∑ k : _root_.Fin 3, (11 * 3e-16 : ℝ) :=
        Finset.sum_le_sum fun k _ => mul_le_mul (hE k) (rowSum k) (abs_nonneg _) (by norm_num)
    _ ≤ 1e-14 := by simp; norm_num

/-- The error estimate for `u' = v`. -/
theorem const_err {v : _root_.Fin n → ℝ} (t : ℝ) {h hf : ℝ} (h0 : h ≠ 0) (i : _root_.Fin n) :
    |quadErr (fun _ _ => v) t h hf i| ≤ |hf| / 3 * |v i| * (|1 - hf / h| + |hf / h| * 1e-14) := by
  have e : quadErr (fun _ _ => v) t h hf i = hf / U1 * v i *
      ((1 - hf / h) + hf / h * (1 + ∑ k, Spec.radauE k * ∑ l, codeTransform.A k l)) := by
    have e1 : ∀ k, quadZ (fun _ _ => v) t h hf k i = hf * v i * ∑ l, codeTransform.A k l := by
      intro k
      simp only [quadZ]
      rw [← Finset.sum_mul]
      ring
    simp only [quadErr, e1]
    have e2 : ∑ k, Spec.radauE k * (hf * v i * ∑ l, codeTransform.A k l) =
        hf * v i * ∑ k, Spec.radauE k * ∑ l, codeTransform.A k l := by
      rw [Finset.mul_sum]
      exact Finset.sum_congr rfl fun _ _ => by ring
    rw [e2]
    field_simp
    ring
  have hU : (3 : ℝ) ≤ |U1| := by unfold U1; norm_num
  rw [e, abs_mul, abs_mul, abs_div]
  have hv := abs_nonneg (v i)
  have := errSum
  refine mul_le_mul (mul_le_mul_of_nonneg_right (div_le_div_of_nonneg_left (abs_nonneg _) (by norm_num) hU) hv) ?_
    (abs_nonneg _) (by positivity)
  refine (abs_add_le _ _).trans ?_
  rw [abs_mul]
  gcongr

/-- The increment for `u' = v`. -/
theorem const_inc {v : _root_.Fin n → ℝ} (t h hf : ℝ) (i : _root_.Fin n) :
    |quadZ (fun _ _ => v) t h hf 2 i - hf * v i| ≤ |hf * v i| * 3e-16 := by
  have e1 : quadZ (fun _ _ => v) t h hf 2 i - hf * v i = hf * v i * (∑ l, codeTransform.A 2 l - Spec.radauC 2) := by
    simp only [quadZ]
    rw [← Finset.sum_mul]
    simp [Spec.radauC]
    ring
  rw [e1, abs_mul]
  exact mul_le_mul_of_nonneg_left (rowSum 2) (abs_nonneg _)

/-- The scaled norm of a vector with small entries. -/
theorem scaledNorm_le (hn : n ≠ 0) {a r c : ℝ} (a0 : 0 < a) (r0 : 0 ≤ r) {u e : _root_.Fin n → ℝ} (c0 : 0 ≤ c)
    (h : ∀ i, |e i| ≤ c * a) : Spec.scaledNorm a r u e ≤ c := by
  unfold Spec.scaledNorm
  have hn' : (0 : ℝ) < n := by positivity
  refine Real.sqrt_le_iff.2 ⟨c0, ?_⟩
  rw [div_le_iff₀ hn']
  have : ∀ i, (e i / (a + r * |u i|)) ^ 2 ≤ c ^ 2 := by
    intro i
    have h1 : 0 ≤ r * |u i| := mul_nonneg r0 (abs_nonneg _)
    have hs : 0 < a + r * |u i| := by linarith
    rw [sq_le_sq, abs_div, abs_of_pos hs, abs_of_nonneg c0, div_le_iff₀ hs]
    refine (h i).trans ?_
    exact mul_le_mul_of_nonneg_left (by linarith) c0
  calc ∑ i, (e i / (a + r * |u i|)) ^ 2 ≤ ∑ _i : _root_.Fin n, c ^ 2 := Finset.sum_le_sum fun i _ => this i
    _ = c ^ 2 * n := by simp [mul_comm]

/-! ### Builders -/

/-- The controller options of a problem with default options, but possibly a maximal step. -/
def defaultClock (t0 tf : ℝ) (mx : Option ℝ) : Clock := ⟨t0, tf, 0.9, 5, 0.125, 1, 1.2, mx⟩

theorem defaultClock_sane (t0 tf : ℝ) (mx : Option ℝ) : (defaultClock t0 tf mx).Sane :=
  ⟨by norm_num [defaultClock], by norm_num [defaultClock], by norm_num [defaultClock]⟩

theorem default_timed (dudt : Rhs X n P) (p : P) (t0 tf : ℝ) (u : Vec n X) :
    Timed (defaultClock t0 tf none) (Builder.default alg dudt u (fin t0, fin tf) p) where
  t := rfl
  dt := rfl
  tfinal := rfl
  ctl := by
    refine ⟨rfl, ?_, ?_, ?_, rfl, ?_, ?_, ?_, ?_, rfl, ?_⟩
    · change (5.0 : X) = _; rw [X.sci]; norm_num [defaultClock]
    · change (1.0 / 8.0 : X) = _
      rw [show (1.0 : X) = fin 1.0 from rfl, show (8.0 : X) = fin 8.0 from rfl, div_fin (by norm_num)]
      norm_num [defaultClock]
    · change (1.0 : X) = _; rw [X.sci]; norm_num [defaultClock]
    · norm_num [defaultClock]
    · norm_num [defaultClock]
    · norm_num [defaultClock]
    · norm_num [defaultClock]
    · intro m hm; simp [defaultClock] at hm

theorem Timed.dtmax {b : Builder X n P} {t0 tf m : ℝ} (H : Timed (defaultClock t0 tf none) b) (hm : 0 < m) :
    Timed (defaultClock t0 tf (some m)) (b.set (.dtmax (fin m))) where
  t := H.t
  dt := H.dt
  tfinal := H.tfinal
  ctl := ⟨H.ctl.safe, H.ctl.facl, H.ctl.facr, H.ctl.quot1, H.ctl.quot2, H.ctl.safe_pos, H.ctl.facl_pos, H.ctl.facr_pos, H.ctl.quot1_pos,
    rfl, fun x hx => by simp [defaultClock] at hx; rw [← hx]; exact hm⟩

/-- The tolerances after `build` for the default options. -/
structure DefTol (o : Opts X) : Prop where
  abstol : (adjustOpts o).abstol = fin 1e-7
  reltol : (adjustOpts o).reltol = fin 1e-3
  fnewt : ∃ φ, (adjustOpts o).fnewt = fin φ ∧ 0 < φ

theorem default_tol : DefTol (default_opts : Opts X) := by
  have e1 : (adjustOpts (default_opts : Opts X)).reltol = fin 1e-3 := by
    change (0.1 : X) * Fl.powf (1e-3 : X) (2.0 / 3.0) = _
    rw [show (2.0 : X) = fin 2.0 from rfl, show (3.0 : X) = fin 3.0 from rfl, div_fin (by norm_num),
      show (1e-3 : X) = fin 1e-3 from rfl, powf_fin (by norm_num), show (0.1 : X) = fin 0.1 from rfl, mul_fin, fin_inj]
    rw [show (1e-3 : ℝ) = (0.1 : ℝ) ^ (3 : ℝ) by norm_num, ← Real.rpow_mul (by norm_num),
      show (3 : ℝ) * (2.0 / 3.0) = (2 : ℕ) by norm_num, Real.rpow_natCast]
    norm_num
  refine ⟨?_, e1, ?_⟩
  · change (adjustOpts (default_opts : Opts X)).reltol * ((1e-7 : X) / (1e-3 : X)) = _
    rw [e1, show (1e-3 : X) = fin 1e-3 from rfl, show (1e-7 : X) = fin 1e-7 from rfl, div_fin (by norm_num), mul_fin, fin_inj]
    norm_num
  · change ∃ φ, (if Fl.le (0.0 : X) (0.0 : X) then Fl.max (10.0 * Fl.eps / (adjustOpts (default_opts : Opts X)).reltol)
      (Fl.min 0.03 (Fl.sqrt (adjustOpts (default_opts : Opts X)).reltol)) else (0.0 : X)) = fin φ ∧ 0 < φ
    rw [e1, show (0.0 : X) = fin 0.0 from rfl, le_fin, if_pos (by simp), show (10.0 : X) = fin 10.0 from rfl, eps_fin, mul_fin,
      div_fin (by norm_num), sqrt_fin (by norm_num), show (0.03 : X) = fin 0.03 from rfl, min_fin, max_fin]
    refine ⟨_, rfl, lt_max_of_lt_right (lt_min (by norm_num) (Real.sqrt_pos.2 (by norm_num)))⟩

/-- Problems with a right-hand side which does not depend on the state, without a Jacobian of the user. -/
theorem quad_problem {b : Builder X n P} {f : ℝ → (_root_.Fin n → ℝ) → _root_.Fin n → ℝ} {u0 : _root_.Fin n → ℝ}
    (hq : ∀ t u, f t u = f t 0) (h1 : Lifts b.dudt b.params f) (h2 : b.u = fv u0) (h3 : b.dfdu = none) :
    RealProblem b f (fun _ _ _ _ => 0) u0 := by
  refine ⟨h1, h2, ?_⟩
  rw [h3]
  funext t u j i
  simp only [Spec.fdJacobian]
  rw [hq t u, hq t (Spec.bump _ _ _), sub_self, zero_div]

theorem zero_ok {f : ℝ → (_root_.Fin n → ℝ) → _root_.Fin n → ℝ} {u0 : _root_.Fin n → ℝ}
    {V : Submodule ℝ (_root_.Fin n → ℝ)} (hV : ∀ t u, u - u0 ∈ V → f t u ∈ V) (fwd : Prop) :
    (env f (fun _ _ _ _ => 0) V u0).Ok fwd := by
  refine ⟨hV, fun t u _ => ⟨fun v _ => ?_, fun lam h _ h2 => ?_⟩⟩
  · have : mv (fun _ _ => 0 : _root_.Fin n → _root_.Fin n → ℝ) v = 0 := by
      funext i
      simp [mv]
    change mv (fun _ _ => 0) v ∈ V
    rw [this]
    exact V.zero_mem
  · exact ⟨⟨0, by omega⟩, by rw [if_pos rfl]; exact h.symm⟩

theorem quad_build {b : Builder X n P} {f : ℝ → (_root_.Fin n → ℝ) → _root_.Fin n → ℝ} {u0 : _root_.Fin n → ℝ} {s0 : St X n P}
    (R : RealProblem b f (fun _ _ _ _ => 0) u0) (T : Timed C b) (D : DefTol b.opts) (hm : 3 ≤ b.opts.max_newt_iter)
    (hb : b.build alg = .ok s0) :
    ∃ φ, QuadIdle (env f (fun _ _ _ _ => 0) ⊤ u0) C (C.Sane ∧ C.t0 ≤ C.tf) s0 C.t0 1e-7 1e-3 φ u0 := by
  obtain ⟨φ, hφ, φ0⟩ := D.fnewt
  have ho : s0.opts = adjustOpts b.opts := by rw [← Res.ok.inj hb]
  refine ⟨φ, R.idle (V := ⊤) T (zero_ok (f := f) (u0 := u0) (V := ⊤) (fun _ _ _ => trivial) _) hb, build_ready hb, ?_, ?_, ?_, by rw [ho, D.abstol],
    by rw [ho, D.reltol], by norm_num, by norm_num, by rw [ho, hφ], φ0, by rw [ho]; exact hm, ?_, ?_⟩
  · rw [← Res.ok.inj hb]; rfl
  · rw [← Res.ok.inj hb]; exact ⟨_, rfl⟩
  · rw [← Res.ok.inj hb]; exact R.u
  · have h := JacInv.build hb
    obtain ⟨⟨e1, e2, e3, -⟩, -⟩ := h
    rw [e1, e2, e3]
    exact JacInv.build hb
  · obtain ⟨h1, h2, -⟩ := build_fields hb
    exact ⟨[(C.t0, u0)], by rw [h1, T.t]; rfl, by rw [h2, R.u]; rfl⟩

/-- The controller proposes the largest possible step if the error estimate is small. -/
theorem quot_max {d : St X n P} {e : ℝ} (h1 : d.opts.facr = fin 0.125) (h2 : d.opts.facl = fin 5) (h3 : d.opts.safe = fin 0.9)
    (h4 : d.cache.cfac = fin 13.5) (h5 : d.opts.max_newt_iter = 7) (h6 : d.cache.newt ≤ 2) (h7 : d.cache.err = fin e)
    (e0 : 0 < e) (e1 : e ≤ 1e-4) : stepQuot d = fin 0.125 := by
  unfold stepQuot
  simp only [h1, h2, h3, h4, h5, h7]
  rw [ofNat_fin, div_fin (by positivity), min_fin, show (0.25 : X) = fin 0.25 from rfl, powf_fin e0]
  have h8 : ((d.cache.newt + 2 * 7 : ℕ) : ℝ) ≤ 16 := by exact_mod_cast (by omega : d.cache.newt + 2 * 7 ≤ 16)
  have h9 : (0 : ℝ) < ((d.cache.newt + 2 * 7 : ℕ) : ℝ) := by positivity
  have hm : (0.84 : ℝ) ≤ min 0.9 (13.5 / ((d.cache.newt + 2 * 7 : ℕ) : ℝ)) := by
    refine le_min (by norm_num) ?_
    rw [le_div_iff₀ h9]
    nlinarith
  rw [div_fin (by linarith), min_fin, max_fin, fin_inj]
  have hp : e ^ (0.25 : ℝ) ≤ 0.1 := by
    have : (0.1 : ℝ) = (1e-4 : ℝ) ^ (0.25 : ℝ) := by
      rw [show (1e-4 : ℝ) = (0.1 : ℝ) ^ (4 : ℝ) by norm_num, ← Real.rpow_mul (by norm_num)]
      norm_num
    rw [this]
    exact Real.rpow_le_rpow e0.le e1 (by norm_num)
  apply max_eq_left
  refine (min_le_right _ _).trans ?_
  rw [div_le_iff₀ (by linarith)]
  nlinarith

/-- `u' = v` with default options, but with dense output. -/
def constBuilder (v u0 : _root_.Fin n → ℝ) (t0 tf : ℝ) : Builder X n Unit :=
  (Builder.default alg (fun _ _ _ _ => fv v) (fv u0) (fin t0, fin tf) ()).set (.dense true)

theorem const_problem (v u0 : _root_.Fin n → ℝ) (t0 tf : ℝ) :
    RealProblem (constBuilder v u0 t0 tf) (fun _ _ => v) (fun _ _ _ _ => 0) u0 :=
  quad_problem (fun _ _ => rfl) (fun _ _ _ => rfl) rfl rfl

theorem const_timed (v u0 : _root_.Fin n → ℝ) (t0 tf : ℝ) :
    Timed (defaultClock t0 tf none) (constBuilder v u0 t0 tf) := by
  have := default_timed (n := n) (P := Unit) (fun _ _ _ _ => fv v) () t0 tf (fv u0)
  exact ⟨this.1, this.2, this.3,
    ⟨this.4.1, this.4.2, this.4.3, this.4.4, this.4.5, this.4.6, this.4.7, this.4.8, this.4.9, this.4.10, this.4.11⟩⟩

theorem const_tol (v u0 : _root_.Fin n → ℝ) (t0 tf : ℝ) : DefTol (constBuilder v u0 t0 tf).opts :=
  ⟨default_tol.1, default_tol.2, default_tol.3⟩

theorem Idle.clamp_no {s : St X n P} (I : Idle C fwd s t h) (hd : C.d = 1) (hc : t + h * 1.0001 - C.tf < 0) : clampLast s = s := by
  unfold clampLast
  rw [I.time, I.step, I.tfinal, I.tdir, show (1.0001 : X) = fin 1.0001 from rfl, show (0.0 : X) = fin 0.0 from rfl, mul_fin,
    mul_fin, add_fin, sub_fin, ge_fin, hd, mul_one]
  rw [if_neg]
  simp only [decide_eq_true_eq, not_le]
  norm_num at *
  linarith

theorem Idle.clamp_yes {s : St X n P} (I : Idle C fwd s t h) (hd : C.d = 1) (hc : 0 ≤ t + h * 1.0001 - C.tf) :
    (clampLast s).dt = fin (C.tf - t) ∧ (clampLast s).cache.last = true := by
  unfold clampLast
  rw [I.time, I.step, I.tfinal, I.tdir, show (1.0001 : X) = fin 1.0001 from rfl, show (0.0 : X) = fin 0.0 from rfl, mul_fin,
    mul_fin, add_fin, sub_fin, ge_fin, hd, mul_one]
  rw [if_pos]
  · exact ⟨sub_fin _ _, rfl⟩
  · simp only [decide_eq_true_eq]
    norm_num at *
    linarith

theorem eps_small : (Fl.eps : ℝ) ≤ 1e-3 := by
  rw [RealFl.eps_eq]; norm_num

theorem const_norm (hn : n ≠ 0) {v u : _root_.Fin n → ℝ} (hv : ∀ i, |v i| ≤ 1) (t : ℝ) {h hf c : ℝ} (h0 : 0 < h)
    (hf0 : 0 < hf) (c0 : 0 ≤ c) (hc : hf / 3 * (|1 - hf / h| + hf / h * 1e-14) ≤ c * 1e-7) :
    Spec.scaledNorm 1e-7 1e-3 u (quadErr (fun _ _ => v) t h hf) ≤ c := by
  refine scaledNorm_le hn (by norm_num) (by norm_num) c0 fun i => (const_err t h0.ne' i).trans (le_trans ?_ hc)
  rw [abs_of_pos hf0, abs_of_pos (div_pos hf0 h0)]
  refine mul_le_mul_of_nonneg_right ?_ (by positivity)
  exact mul_le_of_le_one_right (by positivity) (hv i)

/-- A run of two steps for `u' = v` on `[0, 1.1e-6]`: the first one has the fixed size `1e-6`, the second one ends at
`tfinal`. -/
theorem const_run (hn : n ≠ 0) (v u0 : _root_.Fin n → ℝ) (hv : ∀ i, |v i| ≤ 1) :
    ∃ s0 s1 s2 : St X n Unit, (constBuilder v u0 0 1.1e-6).build alg = .ok s0 ∧
      StepReturns alg none s0 (some 1) s1 ∧ StepReturns alg none s1 none s2 ∧ s2.sol.retcode = .Success ∧
      s1.sol.retcode = .Continue ∧ s1.t = fin 1e-6 ∧ s2.t = fin 1.1e-6 := by
  obtain ⟨s0, hb⟩ : ∃ s0 : St X n Unit, (constBuilder v u0 0 1.1e-6).build alg = .ok s0 := ⟨_, rfl⟩
  have T := const_timed v u0 0 1.1e-6
  obtain ⟨φ, Q⟩ := quad_build (const_problem v u0 0 1.1e-6) T (const_tol _ _ _ _) (by change 3 ≤ 7; norm_num) hb
  have I := T.idle hb
  have hst : s0.stats.steps = 0 := by rw [← Res.ok.inj hb]; rfl
  have hms : s0.opts.max_steps = 100000 := by rw [← Res.ok.inj hb]; rfl
  have hdec : s0.cache.decompose = true := by rw [← Res.ok.inj hb]
  have hl0 : s0.cache.last = false := by rw [← Res.ok.inj hb]
  have hd1 : (defaultClock 0 1.1e-6 none).d = 1 := by norm_num [Clock.d, defaultClock]
  have hc0 : clampLast s0 = s0 := I.clamp_no hd1 (by norm_num [defaultClock])
  have he := eps_small
  have he0 := RealFl.eps_pos
  obtain ⟨d, s1, S1⟩ := Q.go (h := 1e-6) (hf := 1e-6) hn (fun _ _ => rfl) (fun _ _ => rfl) (by rw [hst, hms]; norm_num)
    (by rw [hc0]; exact I.step) (by change |(0:ℝ)| * _ < _; norm_num) (fun _ => rfl) (fun h => by rw [hdec] at h; simp at h)
    (lt_of_le_of_lt (const_norm (c := 1e-6) hn hv _ (by norm_num) (by norm_num) (by norm_num) (by norm_num)) (by norm_num))
  have c1 : s1.sol.retcode = .Continue := by
    rw [S1.code, hc0, hl0]; rfl
  have Q1 := S1.next c1
  have t1 : s1.t = fin 1e-6 := by
    rw [S1.time]
    change fin (0 + 1e-6) = _
    norm_num
  obtain ⟨h1, I1, hnx⟩ : ∃ h1, Idle (defaultClock 0 1.1e-6 none) ((defaultClock 0 1.1e-6 none).Sane ∧ (0 : ℝ) ≤ 1.1e-6) s1 1e-6 h1 ∧ h1 = 1e-7 := by
    obtain ⟨h2, h', T⟩ | ⟨c, -⟩ := I.run_step Q.ready S1.step
    · have e2 : h2 = 1e-6 := by
        have := T.idle.time
        rw [t1, fin_inj] at this
        change (1e-6 : ℝ) = 0 + h2 at this
        linarith
      subst e2
      refine ⟨h', ?_, ?_⟩
      · have := T.idle
        change Idle _ _ s1 (0 + 1e-6) h' at this
        rwa [zero_add] at this
      · obtain ⟨q, rej, q1, q2, -, hN⟩ := T.next c1
        have hq : (0:ℝ) < q := by norm_num [defaultClock] at q1; linarith
        have hq5 : q ≤ 5 := by norm_num [defaultClock] at q2; exact q2
        have hx : (2e-7 : ℝ) ≤ (defaultClock 0 1.1e-6 none).proposal rej 1e-6 q := by
          have h5 : (2e-7 : ℝ) ≤ 1e-6 / q := by rw [le_div_iff₀ hq]; norm_num; linarith
          have h6 : (0:ℝ) < 1e-6 / q := by positivity
          simp only [Clock.proposal, hd1, one_mul, show (defaultClock 0 1.1e-6 none).mx = none from rfl, capR, abs_of_pos h6]
          split
          · exact le_min h5 (by norm_num [abs_of_pos])
          · exact h5
        cases hN with
        | toEnd => change (1.1e-6 : ℝ) - (0 + 1e-6) = _; norm_num
        | keep h => exfalso; rw [hd1] at h; norm_num [defaultClock] at h hx; linarith
        | change h => exfalso; rw [hd1] at h; norm_num [defaultClock] at h hx; linarith
    · exact absurd c1 c
  subst hnx
  obtain ⟨cl1, cl2⟩ := I1.clamp_yes hd1 (by norm_num [defaultClock])
  have hdec1 : s1.cache.decompose = true := by
    by_contra hcon
    have h1 := S1.eq
    have h2 := I1.step
    rw [h1] at hcon h2
    rw [acceptStep_keep _ S1.decompose (Bool.eq_false_iff.2 hcon), S1.dt, fin_inj] at h2
    norm_num at h2
  obtain ⟨d2, s2, S2⟩ := Q1.go (h := 1e-7) (hf := 1e-7) hn (fun _ _ => rfl) (fun _ _ => rfl)
    (by rw [S1.steps, S1.opts, hst, hms]; norm_num)
    (by rw [cl1]; norm_num [defaultClock]) (by change |(0:ℝ) + 1e-6| * _ < _; norm_num at *; linarith) (fun _ => rfl)
    (fun h => by rw [hdec1] at h; simp at h)
    (lt_of_le_of_lt (const_norm (c := 1e-6) hn hv _ (by norm_num) (by norm_num) (by norm_num) (by norm_num)) (by norm_num))
  have c2 : s2.sol.retcode = .Success := by
    rw [S2.code, cl2]; rfl
  refine ⟨s0, s1, s2, hb, stepReturns_none_iff.2 ⟨⟨1, S1.step⟩, ?_⟩, stepReturns_none_iff.2 ⟨⟨1, S2.step⟩, ?_⟩, c2, c1, t1, ?_⟩
  · rw [c1, S1.steps, hst]; rfl
  · rw [c2]; rfl
  · rw [S2.time]
    change fin (0 + 1e-6 + 1e-7) = _
    norm_num

/-- Two steps of a longer run. -/
theorem const_run_long (hn : n ≠ 0) (v u0 : _root_.Fin n → ℝ) (hv : ∀ i, |v i| ≤ 1) :
    ∃ s0 s1 s2 : St X n Unit, (constBuilder v u0 0 1).build alg = .ok s0 ∧
      StepReturns alg none s0 (some 1) s1 ∧ StepReturns alg none s1 (some 2) s2 := by
  obtain ⟨s0, hb⟩ : ∃ s0 : St X n Unit, (constBuilder v u0 0 1).build alg = .ok s0 := ⟨_, rfl⟩
  have T := const_timed v u0 0 1
  obtain ⟨φ, Q⟩ := quad_build (const_problem v u0 0 1) T (const_tol _ _ _ _) (by change 3 ≤ 7; norm_num) hb
  have I := T.idle hb
  have hst : s0.stats.steps = 0 := by rw [← Res.ok.inj hb]; rfl
  have hms : s0.opts.max_steps = 100000 := by rw [← Res.ok.inj hb]; rfl
  have hdec : s0.cache.decompose = true := by rw [← Res.ok.inj hb]
  have hl0 : s0.cache.last = false := by rw [← Res.ok.inj hb]
  have hd1 : (defaultClock 0 1 none).d = 1 := by norm_num [Clock.d, defaultClock]
  have hc0 : clampLast s0 = s0 := I.clamp_no hd1 (by norm_num [defaultClock])
  have he := eps_small
  have he0 := RealFl.eps_pos
  obtain ⟨d, s1, S1⟩ := Q.go (h := 1e-6) (hf := 1e-6) hn (fun _ _ => rfl) (fun _ _ => rfl) (by rw [hst, hms]; norm_num)
    (by rw [hc0]; exact I.step) (by change |(0:ℝ)| * _ < _; norm_num) (fun _ => rfl) (fun h => by rw [hdec] at h; simp at h)
    (lt_of_le_of_lt (const_norm (c := 1e-6) hn hv _ (by norm_num) (by norm_num) (by norm_num) (by norm_num)) (by norm_num))
  have c1 : s1.sol.retcode = .Continue := by
    rw [S1.code, hc0, hl0]; rfl
  have Q1 := S1.next c1
  have t1 : s1.t = fin 1e-6 := by
    rw [S1.time]
    change fin (0 + 1e-6) = _
    norm_num
  obtain ⟨h1, I1, hb1, hb2⟩ : ∃ h1, Idle (defaultClock 0 1 none) ((defaultClock 0 1 none).Sane ∧ (0 : ℝ) ≤ 1) s1 1e-6 h1 ∧
      2e-7 ≤ h1 ∧ h1 ≤ 8e-6 := by
    obtain ⟨h2, h', T⟩ | ⟨c, -⟩ := I.run_step Q.ready S1.step
    · have e2 : h2 = 1e-6 := by
        have := T.idle.time
        rw [t1, fin_inj] at this
        change (1e-6 : ℝ) = 0 + h2 at this
        linarith
      subst e2
      refine ⟨h', ?_, ?_⟩
      · have := T.idle
        change Idle _ _ s1 (0 + 1e-6) h' at this
        rwa [zero_add] at this
      · obtain ⟨q, rej, q1, q2, -, hN⟩ := T.next c1
        have hq8 : (1 / 8 : ℝ) ≤ q := by norm_num [defaultClock] at q1; linarith
        have hq : (0:ℝ) < q := by linarith
        have hq5 : q ≤ 5 := by norm_num [defaultClock] at q2; exact q2
        have hx : (2e-7 : ℝ) ≤ (defaultClock 0 1 none).proposal rej 1e-6 q ∧
            (defaultClock 0 1 none).proposal rej 1e-6 q ≤ 8e-6 := by
          have h5 : (2e-7 : ℝ) ≤ 1e-6 / q := by rw [le_div_iff₀ hq]; norm_num; linarith
          have h7 : 1e-6 / q ≤ (8e-6 : ℝ) := by rw [div_le_iff₀ hq]; norm_num; linarith
          have h6 : (0:ℝ) < 1e-6 / q := by positivity
          simp only [Clock.proposal, hd1, one_mul, show (defaultClock 0 1 none).mx = none from rfl, capR, abs_of_pos h6]
          split
          · exact ⟨le_min h5 (by norm_num [abs_of_pos]), (min_le_left _ _).trans h7⟩
          · exact ⟨h5, h7⟩
        cases hN with
        | toEnd h => exfalso; rw [hd1] at h; norm_num [defaultClock] at h hx; linarith
        | keep h => constructor <;> norm_num
        | change h => exact hx
    · exact absurd c1 c
  have hc1 : clampLast s1 = s1 := I1.clamp_no hd1 (by norm_num [defaultClock] at hb2 ⊢; linarith)
  have hl1 : s1.cache.last = false := by
    cases hl : s1.cache.last with
    | false => rfl
    | true =>
      have := I1.last hl c1
      norm_num [defaultClock] at this hb2
      linarith
  have hp1 : 0 < h1 := lt_of_lt_of_le (by norm_num) hb1
  obtain ⟨d2, s2, S2⟩ := Q1.go (h := h1) (hf := h1) hn (fun _ _ => rfl) (fun _ _ => rfl)
    (by rw [S1.steps, S1.opts, hst, hms]; norm_num) (by rw [hc1]; exact I1.step)
    (by
      change |(0:ℝ) + 1e-6| * _ < _
      rw [abs_of_pos hp1]
      norm_num at hb1 he ⊢
      linarith)
    (fun _ => rfl)
    (fun hd => by
      have h1 := S1.eq
      have h2 := I1.step
      rw [h1] at hd h2
      rw [acceptStep_keep _ S1.decompose hd, S1.dt, fin_inj] at h2
      rw [← h2]
      exact S1.good)
    (lt_of_le_of_lt (const_norm (c := 1e-6) hn hv _ hp1 hp1 (by norm_num)
      (by
        rw [div_self hp1.ne', sub_self, abs_zero]
        norm_num at hb2 ⊢
        linarith)) (by norm_num))
  have c2 : s2.sol.retcode = .Continue := by
    rw [S2.code, hc1, hl1]; rfl
  refine ⟨s0, s1, s2, hb, stepReturns_none_iff.2 ⟨⟨1, S1.step⟩, ?_⟩, stepReturns_none_iff.2 ⟨⟨1, S2.step⟩, ?_⟩⟩
  · rw [c1, S1.steps, hst]; rfl
  · rw [c2, S2.steps, S1.steps, hst]; rfl

end
end Radau
end Cyphus
