import Verif.Spec.Dissipative
import Verif.Props.RadauSuccess
import Verif.Props.RadauBack
/-!
# C83: the failing return codes of `Radau5`
-/

namespace Cyphus
open X
set_option autoImplicit false
set_option linter.unusedSectionVars false
noncomputable section

variable {n : ℕ} {P : Type}

theorem Spec.NoGrowth.first {J : Fin n → Fin n → ℝ} (H : Spec.NoGrowth J) : Spec.FirstNotEigen True J := by
  intro hn lam _ h0
  by_contra hc
  push Not at hc
  have := H (lam : ℂ) (by simpa using h0 trivial) (fun i => if i.val = 0 then 1 else 0) (fun i => by
    rw [Finset.sum_eq_single (⟨0, by omega⟩ : Fin n)]
    · show ((J i ⟨0, by omega⟩ : ℝ) : ℂ) * _ = _
      rw [hc i]
      split <;> simp
    · intro j _ hj
      rw [if_neg (fun h => hj (Fin.ext h)), mul_zero]
    · simp)
  have := congrFun this ⟨0, by omega⟩
  simp at this

/-- A dissipative matrix has no eigenvalue with positive real part. -/
theorem Spec.Dissipative.noGrowth {J : Fin n → Fin n → ℝ} (H : Spec.Dissipative J) : Spec.NoGrowth J := by
  intro lam hl v hv
  have re : ∀ i, ∑ j, J i j * (v j).re = lam.re * (v i).re - lam.im * (v i).im := fun i => by
    have := congrArg Complex.re (hv i)
    simpa [Complex.mul_re] using this
  have im : ∀ i, ∑ j, J i j * (v j).im = lam.re * (v i).im + lam.im * (v i).re := fun i => by
    have := congrArg Complex.im (hv i)
    simpa [Complex.mul_im] using this
  have h1 := H fun j => (v j).re
  have h2 := H fun j => (v j).im
  simp only [re] at h1
  simp only [im] at h2
  have h3 : lam.re * ∑ i, ((v i).re ^ 2 + (v i).im ^ 2) ≤ 0 := by
    rw [Finset.mul_sum]
    calc _ = ∑ i, (v i).re * (lam.re * (v i).re - lam.im * (v i).im) +
          ∑ i, (v i).im * (lam.re * (v i).im + lam.im * (v i).re) := by
          rw [← Finset.sum_add_distrib]
          exact Finset.sum_congr rfl fun i _ => by ring
      _ ≤ 0 := by linarith
  have h4 : ∑ i, ((v i).re ^ 2 + (v i).im ^ 2) = 0 :=
    le_antisymm (by by_contra hc; exact absurd h3 (not_le.2 (mul_pos hl (not_le.1 hc)))) (Finset.sum_nonneg fun i _ => by positivity)
  funext i
  have h5 := (Finset.sum_eq_zero_iff_of_nonneg (fun i _ => by positivity)).1 h4 i (Finset.mem_univ i)
  refine Complex.ext ?_ ?_
  · show (v i).re = 0
    nlinarith [sq_nonneg (v i).re, sq_nonneg (v i).im]
  · show (v i).im = 0
    nlinarith [sq_nonneg (v i).re, sq_nonneg (v i).im]

namespace Radau

theorem regular_of_noGrowth {J : _root_.Fin n → _root_.Fin n → ℝ} (H : Spec.NoGrowth J) {h : ℝ} (h0 : 0 < h) :
    Regular J h := by
  refine ⟨fun v hv => ?_, H _ ?_⟩
  · have := H ((U1 / h : ℝ) : ℂ) (by rw [Complex.ofReal_re]; exact div_pos U1_pos h0) (fun i => (v i : ℂ)) (fun i => by
      have := congrArg (fun x : ℝ => (x : ℂ)) (hv i)
      push_cast at this
      push_cast
      exact this)
    funext i
    have := congrFun this i
    simpa using this
  · show 0 < ALPHA / h
    exact div_pos (by unfold ALPHA; norm_num) h0

variable {b : Builder X n P} {f : ℝ → (_root_.Fin n → ℝ) → _root_.Fin n → ℝ}
  {jac : ℝ → (_root_.Fin n → ℝ) → _root_.Fin n → _root_.Fin n → ℝ} {u0 : _root_.Fin n → ℝ} {s0 : St X n P}
  {C : Clock} {fwd : Prop} {l : List (ℝ × (_root_.Fin n → ℝ))} {t h ρ σ : ℝ} {s s' : St X n P}

/-- The head of the loop in a forward run. -/
structure Fit (b : Builder X n P) (f : ℝ → (_root_.Fin n → ℝ) → _root_.Fin n → ℝ)
    (jac : ℝ → (_root_.Fin n → ℝ) → _root_.Fin n → _root_.Fin n → ℝ) (u0 : _root_.Fin n → ℝ) (C : Clock) (fwd : Prop)
    (l : List (ℝ × (_root_.Fin n → ℝ))) (t : ℝ) (s : St X n P) (h : ℝ) : Prop where
  head : HeadN (env f jac ⊤ u0) C fwd t s
  step : s.dt = fin h
  pos : 0 < h
  lst : L s
  jinv : JacInv b.dudt b.dfdu b.params s
  recd : Recorded s.sol l
  room : s.cache.last = false → t + h < C.tf

theorem Fit.jac_at (H : Fit b f jac u0 C fwd l t s h) (R : RealProblem b f jac u0) :
    ∃ p : ℝ × (_root_.Fin n → ℝ), s.cache.dfdu = fmat (jac p.1 p.2) := by
  obtain ⟨J, hJ, -⟩ := H.head.num.dfdu
  obtain ⟨⟨e1, e2, e3, -⟩, -, x, hx, buf, hd⟩ := H.jinv
  obtain ⟨p, -, rfl⟩ := recorded_jac R H.jinv H.recd (J := J) ⟨x, hx, buf, by rw [← hJ, hd, e1, e2, e3]⟩
  exact ⟨p, hJ⟩

/-- The decompositions succeed. -/
theorem Fit.decs (hn : n ≠ 0) (H : Fit b f jac u0 C fwd l t s h) (R : RealProblem b f jac u0)
    (hG : ∀ t u, Spec.NoGrowth (jac t u)) {fuel : ℕ} {s1 : St X n P} {c : Bool} (hd : decPhase fuel s = .ok (s1, c)) :
    c = true ∧ s1.dt = fin h ∧ s1.cache.last = s.cache.last := by
  obtain ⟨p, hJ⟩ := H.jac_at R
  obtain ⟨e0, e1, e2, e3, e4, -⟩ := decPhase_regular hn hJ H.step H.pos.ne' (regular_of_noGrowth (hG p.1 p.2) H.pos) hd
  exact ⟨e0, e1.trans H.step, e4⟩

theorem Fit.att (hn : n ≠ 0) (H : Fit b f jac u0 C fwd l t s h) (hf : fwd) (R : RealProblem b f jac u0)
    (hG : ∀ t u, Spec.NoGrowth (jac t u)) (S : Shrink C ρ σ) (ha : Att s s') :
    ∃ h', Fit b f jac u0 C fwd l t s' h' := by
  have sp := ha.spec H.lst
  have σ1 := S.σ1
  have key : ∃ h', s'.dt = fin h' ∧ 0 < h' ∧ h' < h := by
    cases ha with
    | @diverged s1 s2 fuel h1 h2 h3 h4 =>
      obtain ⟨-, d1, -⟩ := H.decs hn R hG h1
      obtain ⟨y, y1, y2, y3⟩ := newton_retry (s := tick s1) d1 h4
      have y0 : 0 < y := lt_of_lt_of_le (by norm_num) y2
      exact ⟨_, y1, mul_pos H.pos y0, mul_lt_of_lt_one_right H.pos (lt_of_le_of_lt y3 (by norm_num))⟩
    | @again s1 s2 fuel h1 h2 h3 h4 h5 =>
      obtain ⟨-, d1, -⟩ := H.decs hn R hG h1
      have hL2 : L (decided s2) := L.closed.decided (L.closed.newton (s := tick s1) (show L s1 from L.closed.decPhase H.lst h1) h4)
      rw [control_eq] at h5 ⊢
      split at h5
      · rw [acceptStep_reject_of_L _ hL2] at h5; simp at h5
      · rename_i hlt
        rw [if_neg hlt]
        have hlt : Fl.lt (decided s2).cache.err 1.0 = false := by simpa using hlt
        obtain ⟨h', hc⟩ := Clk.closed.decided (Clk.closed.newton (Clk.tick (Clk.closed.decPhase H.head.clk h1)) h4)
        have fl := newton_flags h4
        simp at fl
        obtain rfl : h' = h := by
          have := hc.step
          rw [decided_dt, fl.2.2, show (tick s1).dt = fin h from d1, fin_inj] at this
          exact this.symm
        obtain ⟨h'', k1, k2, k3⟩ := hc.reject_dt S H.pos hlt
        exact ⟨h'', k1, (mul_pos S.ρ0 H.pos).trans_le k2, k3.trans_lt (mul_lt_of_lt_one_left H.pos σ1)⟩
  obtain ⟨h', k1, k2, k3⟩ := key
  have fr := sp.frame
  refine ⟨h', H.head.att H.lst ha, k1, k2, sp.L, ?_, ⟨fr.ts.trans H.recd.1, fr.us.trans H.recd.2⟩, fun _ => ?_⟩
  · exact Closed.attsL (JacInv.closed (f := b.dudt) (g := b.dfdu) (p := b.params)) (fun h => h) (fun h _ => h.reject _) H.lst H.jinv
      (.succ ha (.zero _))
  · obtain ⟨h2, hc⟩ := H.head.clk
    obtain rfl : h2 = h := fin_inj.1 (hc.step.symm.trans H.step)
    have := hc.room hf
    linarith

theorem Fit.atts {j : ℕ} (hn : n ≠ 0) (hf : fwd) (R : RealProblem b f jac u0)
    (hG : ∀ t u, Spec.NoGrowth (jac t u)) (S : Shrink C ρ σ) (ha : Atts j s s') :
    ∀ {h : ℝ}, Fit b f jac u0 C fwd l t s h → ∃ h', Fit b f jac u0 C fwd l t s' h' := by
  induction ha with
  | zero => exact fun H => ⟨_, H⟩
  | succ h1 _ ih =>
    intro h H
    obtain ⟨h', H'⟩ := H.att hn hf R hG S h1
    exact ih H'

/-- How the last attempt of a call ends. -/
theorem Fit.last (hn : n ≠ 0) (H : Fit b f jac u0 C fwd l t s h) (R : RealProblem b f jac u0)
    (hG : ∀ t u, Spec.NoGrowth (jac t u)) (hc : s.sol.retcode = .Continue) (hf : Fin s s') :
    s'.sol.retcode ≠ .SingularMatrix ∧ (s'.sol.retcode = .Continue → s'.dtprev = fin h ∧ t + h < C.tf) := by
  cases hf with
  | singular h1 =>
    obtain ⟨h2, -⟩ := H.decs hn R hG h1
    simp at h2
  | maxIters h1 h2 => exact ⟨by simp [setCode], by simp [setCode]⟩
  | small h1 h2 h3 => exact ⟨by simp [setCode], by simp [setCode]⟩
  | @done s1 s2 fuel h1 h2 h3 h4 h5 =>
    obtain ⟨-, e1, e4⟩ := H.decs hn R hG h1
    have fl := newton_flags h4
    simp only [if_true] at fl
    have n1 := newton_sol h4
    have r1 := decPhase_retcode h1
    simp at r1
    have hl : (decided s2).cache.last = s.cache.last :=
      (error_estimate_sol s2).2.2.2.2.2.2.1.trans (fl.2.1.trans e4)
    have hdt : (decided s2).dt = fin h := by
      rw [decided_dt, fl.2.2]
      exact e1
    have hrc : (decided s2).sol.retcode = s.sol.retcode := by
      rw [decided_sol, n1.1]; exact r1
    rw [control_eq] at h5 ⊢
    split at h5
    · rename_i hlt
      rw [if_pos hlt]
      have a := acceptStep_fields (decided s2) (stepQuot (decided s2))
      simp only at a
      obtain ⟨-, -, -, -, -, -, -, -, a9, -, -, -, -, -, a15, -⟩ := a
      rw [hl, hrc, hc] at a15
      refine ⟨?_, fun hc => ⟨a9.trans hdt, H.room ?_⟩⟩
      · rw [a15]; split <;> simp
      · rw [a15] at hc
        by_contra hc'
        rw [if_pos (by simpa using hc')] at hc
        simp at hc
    · rw [(rejectStep_fields _ _).2.2.1] at h5; simp at h5

theorem shrink_of (h1 : C.sf < 1) (h2 : 1 < C.fl) : ∃ ρ σ, Shrink C ρ σ := by
  have hm : 0 < max C.fr C.fl := lt_max_of_lt_right (by linarith)
  refine ⟨min 0.1 (1 / max C.fr C.fl), max 0.8 (max C.sf (1 / C.fl)), ?_, min_le_left _ _, ?_, ?_, le_max_left _ _,
    (le_max_left _ _).trans (le_max_right _ _), ?_⟩
  · exact lt_min (by norm_num) (by positivity)
  · calc _ ≤ 1 / max C.fr C.fl * max C.fr C.fl := mul_le_mul_of_nonneg_right (min_le_right _ _) hm.le
      _ = 1 := by field_simp
  · exact max_lt (by norm_num) (max_lt h1 (by rw [div_lt_one (by linarith)]; exact h2))
  · calc (1:ℝ) = 1 / C.fl * C.fl := by field_simp
      _ ≤ _ := mul_le_mul_of_nonneg_right ((le_max_right _ _).trans (le_max_right _ _)) (by linarith)

theorem Ctl.proposal_lt {o : Opts X} (H : Ctl C o) (hd : C.d = 1) (rej : Bool) {h q : ℝ} (h0 : 0 < h) (q0 : 0 < q) :
    0 < C.proposal rej h q := by
  have hq : 0 < h / q := div_pos h0 q0
  have hx : 0 < capR C.mx (h / q) := by
    unfold capR
    split
    · rw [abs_of_pos hq]; exact hq
    · rename_i m hm
      exact lt_min (by rw [abs_of_pos hq]; exact hq) (H.dtmax_pos m hm)
  unfold Clock.proposal
  simp only [hd, one_mul]
  split
  · exact lt_min (abs_pos.2 hx.ne') (abs_pos.2 h0.ne')
  · exact hx

/-- A call of `step` during a forward run. -/
theorem fit_step (R : RealProblem b f jac u0) (T : Timed C b) (hn : n ≠ 0) (hS : C.Sane) (h1 : C.sf < 1) (h2 : 1 < C.fl)
    (ht : C.t0 < C.tf) (hG : ∀ t u, Spec.NoGrowth (jac t u)) (hb : b.build alg = .ok s0) {k : ℕ}
    (hs : SomeSteps alg none k s0 s) (hI : ∃ t h, s.t = fin t ∧ s.dt = fin h ∧ 0 < h ∧ t < C.tf) {fuel : ℕ}
    (hst : Radau.step fuel s = .ok s') :
    s'.sol.retcode ≠ .SingularMatrix ∧
      (s'.sol.retcode = .Continue → ∃ t h, s'.t = fin t ∧ s'.dt = fin h ∧ 0 < h ∧ t < C.tf) := by
  obtain ⟨t, h, et, eh, h0, htf⟩ := hI
  obtain ⟨ρ, σ, S⟩ := shrink_of (C := C) h1 h2
  have hfw : C.Sane ∧ C.t0 ≤ C.tf := ⟨hS, ht.le⟩
  have hRun := R.run (V := ⊤) T ⟨fun _ _ _ => trivial, fun t u _ => ⟨fun _ _ => trivial,
    fun lam h1 h2 h3 => (hG t u).first h3 lam h1 fun _ => h2 hfw⟩⟩ hb (.inl ⟨k, hs⟩)
  obtain ⟨hrd, ho⟩ := Radau.run_opts hb hs
  obtain ⟨t1, hi⟩ := hRun.idle hrd.retcode
  obtain ⟨l, hl, -⟩ := hRun.pts
  obtain ⟨h1', hid⟩ := hi.idle
  obtain rfl : t1 = t := fin_inj.1 (hid.time.symm.trans et)
  obtain rfl : h1' = h := fin_inj.1 (hid.step.symm.trans eh)
  have hj : JacInv b.dudt b.dfdu b.params s :=
    run_induct (I := fun s => JacInv b.dudt b.dfdu b.params s) hb (.build hb) (fun _ h3 h => h3.step h) (.inl ⟨k, hs⟩)
  have hd : C.d = 1 := hid.dir hfw
  have fr := Frame.clampLast s
  have hcl := clampLast_fields s
  have K := hid.unf.seg' hrd.retcode
  have hpos : 0 < C.tried t1 h1' := by
    unfold Clock.tried
    split
    · linarith
    · exact h0
  have F : Fit b f jac u0 C (C.Sane ∧ C.t0 ≤ C.tf) l t1 (clampLast s) (C.tried t1 h1') := by
    refine ⟨hi.head hrd.retcode, K.step, hpos, L_clampLast hrd.reject, ?_, ⟨fr.ts.trans hl.1, fr.us.trans hl.2⟩, fun hlast => ?_⟩
    · unfold clampLast; split <;> exact hj
    · have hnc : ¬ 0 ≤ t1 + h1' * 1.0001 - C.tf * C.d := fun hc => by
        rw [clampLast_last hid hc] at hlast; simp at hlast
      unfold Clock.tried
      rw [if_neg hnc]
      rw [hd] at hnc
      norm_num at hnc
      linarith
  obtain ⟨j, s1, -, hat, hfin⟩ := step_ok hst
  obtain ⟨h', F'⟩ := Fit.atts hn hfw R hG S hat F
  have hc1 : s1.sol.retcode = .Continue := by
    rw [(hat.spec (L_clampLast hrd.reject)).retcode, hcl.2.1, hrd.retcode]
  obtain ⟨q1, q2⟩ := F'.last hn R hG hc1 hfin
  refine ⟨q1, fun hc => ?_⟩
  obtain ⟨q3, q4⟩ := q2 hc
  obtain ⟨g, g', TS⟩ | hc' := hid.run_step hrd hst
  · obtain rfl : g = h' := fin_inj.1 (TS.dtprev.symm.trans q3)
    obtain ⟨q, rej, r1, r2, -, hN⟩ := TS.next hc
    have hq : 0 < q := TS.idle.ctl.facr_pos.trans_le r1
    refine ⟨_, g', TS.idle.time, TS.idle.step, ?_, q4⟩
    cases hN with
    | toEnd => linarith
    | keep => exact F'.pos
    | change => exact TS.idle.ctl.proposal_lt hd rej F'.pos hq
  · exact absurd hc hc'.1

end Radau

/-- **C83** A forward run of `Radau5` never ends with `SingularMatrix` if no Jacobian has an eigenvalue with positive
real part (dissipative problems). The options are sane, with `safe < 1` and `facl > 1`; the defaults are. -/
theorem C83_never_singular_radau {C : Radau.Clock} {b : Builder X n P} {f : ℝ → (Fin n → ℝ) → Fin n → ℝ}
    {jac : ℝ → (Fin n → ℝ) → Fin n → Fin n → ℝ} {u0 : Fin n → ℝ} {s0 : Radau.St X n P}
    (R : Radau.RealProblem b f jac u0) (T : Radau.Timed C b) (hn : n ≠ 0) (hS : C.Sane) (h1 : C.sf < 1) (h2 : 1 < C.fl)
    (ht : C.t0 < C.tf) (hG : ∀ t u, Spec.NoGrowth (jac t u)) (hb : b.build Radau.alg = .ok s0) {s : Radau.St X n P}
    (hs : IntegrateReturns Radau.alg none s0 s) :
    s.sol.retcode = .Success ∨ s.sol.retcode = .MaxIters ∨ s.sol.retcode = .DtLessThanMin := by
  have some : ∀ {k : ℕ} {s : Radau.St X n P}, SomeSteps Radau.alg none k s0 s →
      (∃ k, SomeSteps Radau.alg none k s0 s) ∧ ∃ t h, s.t = fin t ∧ s.dt = fin h ∧ 0 < h ∧ t < C.tf := by
    intro k s hs
    refine SomeSteps.induct (alg := Radau.alg) (I := fun _ s => (∃ k, SomeSteps Radau.alg none k s0 s) ∧
      ∃ t h, s.t = fin t ∧ s.dt = fin h ∧ 0 < h ∧ t < C.tf) ?_ ?_ hs
    · have I := T.idle hb
      exact ⟨⟨0, .zero (alg := Radau.alg) s0⟩, _, _, I.time, I.step, by norm_num, ht⟩
    · rintro k s o s' ⟨⟨k, h0⟩, hI⟩ h3
      obtain ⟨⟨fuel, h4⟩, ho⟩ := stepReturns_none_iff.1 h3
      have hc : s'.sol.retcode = .Continue := by
        by_contra hc
        simp [hc] at ho
      exact ⟨⟨k + 1, .succ (alg := Radau.alg) h0 h3⟩,
        (Radau.fit_step R T hn hS h1 h2 ht hG hb h0 hI h4).2 hc⟩
  obtain ⟨k, s1, h3, h4⟩ := (integrate_iff Radau.fuelMono).1 hs
  obtain ⟨⟨fuel, h4⟩, -⟩ := stepReturns_none_iff.1 h4
  have := (Radau.fit_step R T hn hS h1 h2 ht hG hb h3 (some h3).2 h4).1
  have := (C10_return_codes_radau hb).2 s hs
  tauto

/-- **C83** The same for dissipative problems. -/
theorem C83_dissipative_radau {C : Radau.Clock} {b : Builder X n P} {f : ℝ → (Fin n → ℝ) → Fin n → ℝ}
    {jac : ℝ → (Fin n → ℝ) → Fin n → Fin n → ℝ} {u0 : Fin n → ℝ} {s0 : Radau.St X n P}
    (R : Radau.RealProblem b f jac u0) (T : Radau.Timed C b) (hn : n ≠ 0) (hS : C.Sane) (h1 : C.sf < 1) (h2 : 1 < C.fl)
    (ht : C.t0 < C.tf) (hG : ∀ t u, Spec.Dissipative (jac t u)) (hb : b.build Radau.alg = .ok s0) {s : Radau.St X n P}
    (hs : IntegrateReturns Radau.alg none s0 s) : s.sol.retcode ≠ .SingularMatrix := by
  intro h
  have := C83_never_singular_radau R T hn hS h1 h2 ht (fun t u => (hG t u).noGrowth) hb hs
  simp [h] at this

/-! ### The other codes -/

section
variable {F : Type} [Add F] [Sub F] [Mul F] [Div F] [Neg F] [OfScientific F] [Fl F] [FlInf F]

/-- **C83** If `integrate()` ends with `MaxIters`, the step limit is reached; if it ends with `DtLessThanMin`, it is not,
and the step size is lost in the rounding of `t`; if it ends with `Success`, the limit is not reached and the last step
is not lost. In any arithmetic. -/
theorem C83_codes_radau {b : Builder F n P} {s0 s : Radau.St F n P} (hb : b.build Radau.alg = .ok s0)
    (hs : IntegrateReturns Radau.alg none s0 s) :
    (s.sol.retcode = .MaxIters → s.opts.max_steps ≤ s.stats.steps) ∧
    (s.sol.retcode = .DtLessThanMin → s.stats.steps < s.opts.max_steps ∧
      Fl.le (0.1 * Fl.abs s.dt) (Fl.abs s.t * Fl.eps) = true) ∧
    (s.sol.retcode = .Success → s.stats.steps < s.opts.max_steps ∧
      Fl.le (0.1 * Fl.abs s.dtprev) (Fl.abs s.tprev * Fl.eps) = false) := by
  obtain ⟨k, s1, h3, h4⟩ := (integrate_iff Radau.fuelMono).1 hs
  obtain ⟨⟨fuel, h4⟩, -⟩ := stepReturns_none_iff.1 h4
  have hrd : Radau.Ready s1 := Radau.SomeSteps.ready KeepsSol.none (Radau.build_ready hb) h3
  obtain ⟨j, s2, -, hat, hfin⟩ := Radau.step_ok h4
  have hL := Radau.L_clampLast hrd.reject
  have hc : s2.sol.retcode = .Continue := by
    rw [(hat.spec hL).retcode, (Radau.clampLast_fields s1).2.1, hrd.retcode]
  cases hfin with
  | singular h1 =>
    have := Radau.decPhase_retcode h1
    rw [hc] at this
    have h2 : s.sol.retcode = .SingularMatrix := by
      rcases this with h | ⟨-, h, h' | h'⟩
      · simp at h
      · exact absurd h' h
      · exact h'
    simp [h2]
  | maxIters h1 h2 => exact ⟨fun _ => h2, by simp [Radau.setCode], by simp [Radau.setCode]⟩
  | small h1 h2 h3 => exact ⟨by simp [Radau.setCode], fun _ => ⟨h2, h3⟩, by simp [Radau.setCode]⟩
  | @done s3 s4 fuel' h1 h2 h3 h6 h5 =>
    have fl := Radau.newton_flags h6
    simp only [if_true] at fl
    have n1 := Radau.newton_sol h6
    have r1 := Radau.decPhase_retcode h1
    simp at r1
    have fr := (Radau.Frame.newton h6).trans (Radau.Frame.decided s4)
    rw [Radau.control_eq] at h5 ⊢
    split at h5
    · rename_i hlt
      rw [if_pos hlt]
      have a := Radau.acceptStep_fields (Radau.decided s4) (Radau.stepQuot (Radau.decided s4))
      simp only at a
      obtain ⟨-, -, -, -, -, -, -, a8, a9, -, -, a12, -, -, a15, -, a17, -⟩ := a
      have e1 : (Radau.decided s4).sol.retcode = .Continue := by
        rw [Radau.decided_sol, n1.1]; exact r1.trans hc
      rw [e1] at a15
      refine ⟨fun h => ?_, fun h => ?_, fun _ => ⟨?_, ?_⟩⟩
      · rw [a15] at h; split at h <;> simp at h
      · rw [a15] at h; split at h <;> simp at h
      · rw [a17, a12, Radau.decided_steps, n1.2.1, fr.opts]
        exact h2
      · rw [a8, a9, Radau.decided_dt, fl.2.2, fr.t]
        exact h3
    · rw [(Radau.rejectStep_fields _ _).2.2.1] at h5; simp at h5

end

/-! ### A case that meets the hypotheses -/

/-- The harmonic oscillator `u₀' = u₁, u₁' = -u₀` on `[0, 10]` with the Jacobian of the user and default options. -/
def oscBuilder : Builder X 2 Unit :=
  (Builder.default Radau.alg (fun _ _ u _ => ![u 1, -(u 0)]) (fv ![1, 0]) (fin 0, fin 10) ()).set
    (.dfdu fun _ _ _ _ => ![![fin 0, fin 1], ![fin (-1), fin 0]])

/-- For C83: the oscillator is dissipative and its run ends. -/
example : ∃ s0 s : Radau.St X 2 Unit, oscBuilder.build Radau.alg = .ok s0 ∧ IntegrateReturns Radau.alg none s0 s ∧
    s.sol.retcode ≠ .SingularMatrix := by
  obtain ⟨s0, hb⟩ : ∃ s0 : Radau.St X 2 Unit, oscBuilder.build Radau.alg = .ok s0 := ⟨_, rfl⟩
  obtain ⟨s, hs⟩ := C12_integrate_terminates_radau two_ne_zero s0
  have R : Radau.RealProblem oscBuilder (fun _ u => ![u 1, -(u 0)]) (fun _ _ => ![![0, 1], ![-1, 0]]) ![1, 0] := by
    refine ⟨fun _ _ _ => ?_, rfl, fun _ _ _ => ?_⟩
    · funext i
      fin_cases i <;> rfl
    · funext i j
      fin_cases i <;> fin_cases j <;> rfl
  have T : Radau.Timed (Radau.defaultClock 0 10 none) oscBuilder := by
    have := Radau.default_timed (n := 2) (P := Unit) (fun _ _ u _ => ![u 1, -(u 0)]) () 0 10 (fv ![1, 0])
    exact ⟨this.1, this.2, this.3,
      ⟨this.4.1, this.4.2, this.4.3, this.4.4, this.4.5, this.4.6, this.4.7, this.4.8, this.4.9, this.4.10, this.4.11⟩⟩
  refine ⟨s0, s, hb, ⟨_, hs⟩, C83_dissipative_radau R T two_ne_zero (Radau.defaultClock_sane 0 10 none)
    (by norm_num [Radau.defaultClock]) (by norm_num [Radau.defaultClock]) (by norm_num [Radau.defaultClock]) (fun t u v => ?_)
    hb ⟨_, hs⟩⟩
  simp [Fin.sum_univ_two]
  linarith

end
end Cyphus
