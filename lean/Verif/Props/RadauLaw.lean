import Verif.Proofs.RadauLaw
import Verif.Props.RadauExamples
/-!
# C74: the step sizes of `Radau5` follow the published rules
-/

namespace Cyphus
open X
set_option linter.unusedSectionVars false
set_option autoImplicit false
noncomputable section
variable {n : ℕ} {P : Type} {C : Radau.Clock} {b : Builder X n P} {s0 : Radau.St X n P}

namespace Radau

/-- What the controller knows between two calls: after `k` accepted steps. -/
structure Knows (C : Clock) (N k : ℕ) (s : St X n P) : Prop where
  iter : s.opts.max_newt_iter = N
  accepts : s.stats.accepts = k
  first : s.cache.first = decide (k = 0)
  newt : s.cache.newt ≤ N
  cfac : s.cache.cfac = fin (C.sf * (1 + 2 * N))
  prev : 0 < k → ∃ hp ep, s.dtprev = fin hp ∧ s.cache.err = fin ep ∧
    (s.opts.modern_pred = true → s.cache.dtacc = fin hp ∧ s.cache.erracc = fin (max 1e-2 ep))

theorem tried_val {fwd : Prop} {s : St X n P} {t h : ℝ} (H : Idle C fwd s t h) : (clampLast s).dt = fin (C.tried t h) := by
  unfold clampLast Clock.tried
  simp only [H.time, H.step, H.tfinal, H.tdir]
  rw [show (1.0001 : X) = fin 1.0001 from rfl, show (0.0 : X) = fin 0.0 from rfl, mul_fin, mul_fin, add_fin, sub_fin,
    ge_fin]
  have e0 : (0.0 : ℝ) = 0 := by norm_num
  rw [e0]
  by_cases hc : 0 ≤ t + h * 1.0001 - C.tf * C.d
  · rw [if_pos (by simpa using hc), if_pos hc, sub_fin]
  · rw [if_neg (by simpa using hc), if_neg hc]
    exact H.step

theorem clampLast_flags (s : St X n P) : (clampLast s).cache.reject = s.cache.reject := by
  unfold clampLast; split <;> rfl

theorem clampLast_keeps (s : St X n P) : (clampLast s).cache.newt = s.cache.newt ∧ (clampLast s).cache.cfac = s.cache.cfac := by
  unfold clampLast; split <;> exact ⟨rfl, rfl⟩

theorem Idle.law {fwd : Prop} {s s' : St X n P} {t h : ℝ} {N k : ℕ} (H : Idle C fwd s t h) (hr : Ready s)
    (K : Knows C N k s) {fuel : ℕ} (hs : Radau.step fuel s = .ok s') (hc : s'.sol.retcode = .Continue) :
    Knows C N (k + 1) s' ∧ ∃ h1 h' e prev retried, s'.t = fin (t + h1) ∧ s'.dtprev = fin h1 ∧ s'.dt = fin h' ∧
      s'.cache.err = fin e ∧
      (prev = none ↔ ¬ (s.opts.modern_pred = true ∧ 0 < k)) ∧
      (∀ hp ep, prev = some (hp, ep) → s.dtprev = fin hp ∧ s.cache.err = fin ep) ∧
      (retried = false → s'.stats.steps = s.stats.steps + 1) ∧
      StepLaw C N (decide (k = 0)) t h h1 h' e s'.cache.newt (Fl.le s'.cache.theta s'.opts.theta) prev retried := by
  obtain ⟨j, s1, -, ha, hfin⟩ := step_ok hs
  have sp := ha.spec (L_clampLast hr.reject)
  have f1 := (Frame.clampLast s).trans sp.frame
  -- the step was accepted
  have hacc : s'.stats.accepts = s.stats.accepts + 1 := by
    obtain ⟨-, h1 | h1⟩ := step_cases hr hs
    · exact h1.accepts
    · have := h1.retcode
      simp [hc] at this
  obtain ⟨m1, m2, y, hy⟩ := hfin.bounds (by rw [hacc, f1.accepts]; omega)
  rw [f1.opts, K.iter] at m2
  have hN : 1 ≤ N := m1.trans m2
  obtain ⟨h2, H2⟩ := H.clamp hr.retcode
  have T0 : Tries C N (decide (k = 0)) (C.tried t h) (clampLast s) (C.tried t h) := by
    refine ⟨H2.ctl, by rw [(Frame.clampLast s).opts, K.iter], by rw [(Frame.clampLast s).first, K.first],
      by rw [(clampLast_keeps s).1]; exact K.newt, by rw [(clampLast_keeps s).2, K.cfac], tried_val H, .refl, fun _ => rfl,
      by rw [(clampLast_flags s), hr.reject]; simp⟩
  obtain ⟨x, hx⟩ : ∃ x, x = C.tried t h := ⟨_, rfl⟩
  rw [← hx] at T0
  obtain ⟨j, s1, -, sp, -, ⟨d, ⟨⟨h1, Hd⟩, ⟨h1', Td⟩⟩, hsm, hd⟩ | hf⟩ := step_specI
    (I := fun s => (∃ h, Clk C fwd s t h) ∧ ∃ h, Tries C N (decide (k = 0)) x s h) (Clk.closed.and Tries.closed)
    (fun ⟨h1, h, h2⟩ => ⟨Clk.tick h1, h, ⟨h2.1, h2.2, h2.3, h2.4, h2.5, h2.6, h2.7, h2.8, h2.9⟩⟩)
    (fun ⟨⟨_, h1⟩, ⟨_, h2⟩⟩ he => ⟨h1.reject he, h2.reject hN he⟩) hr.reject ⟨⟨h2, H2⟩, ⟨_, T0⟩⟩ hs
  · have f := (Frame.clampLast s).trans (sp.frame.trans hd.frame)
    have e1 : h1' = h1 := by
      have := Td.step
      rw [Hd.step, fin_inj] at this
      exact this.symm
    subst e1
    have hcode : d.sol.retcode = .Continue := by
      rw [hd.retcode, sp.retcode, (clampLast_fields s).2.1, hr.retcode]
    have a := acceptStep_fields d (stepQuot d)
    simp only at a
    obtain ⟨-, -, -, -, -, a6, -, -, a9, -, -, a12, -, -, a15, a16, a17, -, -, -, -, a22, -⟩ := a
    obtain ⟨b1, b2, b3, b4, b5⟩ := acceptStep_memory d (stepQuot d)
    have b6 := acceptStep_err d (stepQuot d)
    rw [← hd.eq] at a6 a9 a12 a15 a16 a17 a22 b1 b2 b3 b4 b5 b6
    have hl : d.cache.last = false := by
      cases h2 : d.cache.last with
      | false => rfl
      | true => rw [a15, h2] at hc; simp at hc
    -- the error
    obtain ⟨e, he, he0, he1⟩ : ∃ e, d.cache.err = fin e ∧ 1e-10 ≤ e ∧ e < 1 := by
      have hlt := hd.err
      rw [b6] at hy
      rw [hy] at hlt
      cases y with
      | nan => exact ⟨1.0e-10, hy.trans rfl, by norm_num, by norm_num⟩
      | ninf => exact ⟨1.0e-10, hy.trans rfl, by norm_num, by norm_num⟩
      | pinf => simp [show Fl.lt (Fl.max pinf (1.0e-10 : X)) 1.0 = false from rfl] at hlt
      | fin y =>
        rw [X.sci, X.sci, max_fin, lt_fin] at hlt
        rw [X.sci, max_fin] at hy
        refine ⟨_, hy, ?_, ?_⟩
        · refine le_trans ?_ (le_max_right _ _)
          norm_num
        · have : max y (1.0e-10) < 1.0 := by simpa using hlt
          norm_num at this ⊢
          exact this
    have e0 : 0 < e := lt_of_lt_of_le (by norm_num) he0
    rw [b1] at m1 m2
    have hrec : ∃ prev, Recalls d d.stats.accepts prev ∧ (prev = none ↔ ¬ (s.opts.modern_pred = true ∧ 0 < k)) ∧
        (∀ hp ep, prev = some (hp, ep) → s.dtprev = fin hp ∧ s.cache.err = fin ep) := by
      have ek : d.stats.accepts = k := by rw [f.accepts, K.accepts]
      rw [ek]
      by_cases hm : s.opts.modern_pred = true ∧ 0 < k
      · obtain ⟨hp, ep, p1, p2, p3⟩ := K.prev hm.2
        refine ⟨some (hp, ep), ⟨?_, ?_, ?_⟩, by simp [hm], ?_⟩
        · rw [f.opts]; simp [hm]
        · rw [f.dtacc, (p3 hm.1).1]
        · rw [f.erracc, (p3 hm.1).2]
        · rintro _ _ ⟨⟩
          exact ⟨p1, p2⟩
      · refine ⟨none, ?_, by simpa using hm, by simp⟩
        change (d.opts.modern_pred && decide (0 < k)) = false
        rw [f.opts, Bool.eq_false_iff]
        simpa using hm
    obtain ⟨prev, r1, r2, r3⟩ := hrec
    have hdt := Hd.accept_dt hsm Td.iter hN Td.cfac e0 he r1 hl
    rw [← hd.eq] at hdt
    refine ⟨⟨by rw [a12, Td.iter], by rw [hacc, K.accepts], by rw [a22]; simp, by rw [b1]; exact m2, by rw [b3, Td.cfac],
      fun _ => ⟨h1', e, by rw [a9, Hd.step], by rw [b6, he], fun hm => ?_⟩⟩, h1', _, e, prev, d.cache.reject,
      by rw [a6, Hd.time, Hd.step, add_fin], by rw [a9, Hd.step], hdt, by rw [b6, he], r2, r3, fun hj => ?_,
      ⟨fun hj => (Td.fresh hj).trans hx, fun hj => hx ▸ Td.again hj, ⟨he0, he1⟩, by rw [b1]; exact ⟨m1, m2⟩, by rw [b1, b2, a12]⟩⟩
    · rw [a12] at hm
      rw [b4, b5, if_pos hm, if_pos hm, Hd.step, he, X.sci, max_fin]
      exact ⟨rfl, rfl⟩
    · have hj0 : j = 0 := by
        by_contra hj0
        have := hd.mono (by rw [sp.reject, if_neg hj0])
        rw [hj] at this
        simp at this
      rw [a17, hd.steps, sp.steps, (clampLast_fields s).2.2.1, hj0]
  · exact absurd hc hf.retcode

theorem Timed.knows (H : Timed C b) (hb : b.build Radau.alg = .ok s0) : Knows C b.opts.max_newt_iter 0 s0 := by
  have h1 : s0.cache.cfac = b.opts.safe * Fl.ofNat (1 + 2 * b.opts.max_newt_iter) := by rw [← Res.ok.inj hb]
  have h2 : s0.opts.max_newt_iter = b.opts.max_newt_iter := by rw [← Res.ok.inj hb]; rfl
  have h3 : s0.cache.first = true := by rw [← Res.ok.inj hb]
  have h4 : s0.cache.newt = 0 := by rw [← Res.ok.inj hb]
  have h5 : s0.stats.accepts = 0 := by rw [← Res.ok.inj hb]; rfl
  refine ⟨h2, h5, by simp [h3], by omega, ?_, by simp⟩
  rw [h1, H.ctl.safe, ofNat_fin, mul_fin]
  push_cast
  rfl

theorem Timed.run_knows (H : Timed C b) (hb : b.build Radau.alg = .ok s0) {k : ℕ} {s : Radau.St X n P}
    (hs : SomeSteps Radau.alg none k s0 s) :
    Knows C b.opts.max_newt_iter k s ∧ Ready s ∧ ∃ t h, Idle C (C.Sane ∧ C.t0 ≤ C.tf) s t h := by
  refine SomeSteps.induct (alg := Radau.alg)
    (I := fun k s => Knows C b.opts.max_newt_iter k s ∧ Ready s ∧ ∃ t h, Idle C (C.Sane ∧ C.t0 ≤ C.tf) s t h) ?_ ?_ hs
  · exact ⟨H.knows hb, build_ready hb, _, _, H.idle hb⟩
  · rintro k s o s' ⟨hK, hr, t, h, hI⟩ h1
    obtain ⟨⟨fuel, h1⟩, ho⟩ := stepReturns_none_iff.1 h1
    have hc : s'.sol.retcode = .Continue := by
      by_contra hc
      simp [hc] at ho
    obtain ⟨h2, h3, T⟩ | hc' := hI.run_step hr h1
    · exact ⟨(hI.law hr hK h1 hc).1, hr.step h1 hc, _, _, T.idle⟩
    · exact absurd hc hc'.1

end Radau

/-- **C74** Every step of a run of `Radau5` obeys the step-size rules: after `k` calls that returned `Some`, a further
call which returns `Some` first tries the proposed step, reduces it after each failed attempt by the published factors,
accepts an attempt with an error below one, and proposes the next step by the classical controller or, if `modern_pred`
is set and a step was accepted before, by the larger quotient of the classical and the predictive one, with its
limits. -/
theorem C74_step_sizes_radau (H : Radau.Timed C b) (hb : b.build Radau.alg = .ok s0) {k i : ℕ} {s s' : Radau.St X n P}
    (hs : SomeSteps Radau.alg none k s0 s) (hr : StepReturns Radau.alg none s (some i) s') :
    ∃ t h h1 h' e prev retried, s.t = fin t ∧ s.dt = fin h ∧ s'.t = fin (t + h1) ∧ s'.dtprev = fin h1 ∧
      s'.dt = fin h' ∧ s'.cache.err = fin e ∧
      (prev = none ↔ ¬ (b.opts.modern_pred = true ∧ 0 < k)) ∧
      (∀ hp ep, prev = some (hp, ep) → s.dtprev = fin hp ∧ s.cache.err = fin ep) ∧
      (retried = false → s'.stats.steps = s.stats.steps + 1) ∧
      (s.stats.steps + 1 < s'.stats.steps → retried = true) ∧
      Radau.StepLaw C b.opts.max_newt_iter (decide (k = 0)) t h h1 h' e s'.cache.newt
        (Fl.le s'.cache.theta b.opts.theta) prev retried := by
  obtain ⟨K, hrd, t, h, hI⟩ := H.run_knows hb hs
  obtain ⟨⟨fuel, h2⟩, ho⟩ := stepReturns_none_iff.1 hr
  have hc : s'.sol.retcode = .Continue := by
    by_contra hc
    simp [hc] at ho
  have ho1 := (Radau.run_opts hb hs).2
  have ho2 := (Radau.run_opts hb (.succ (alg := Radau.alg) hs hr)).2
  have m1 : s0.opts.modern_pred = b.opts.modern_pred := by rw [← Res.ok.inj hb]; rfl
  have m2 : s0.opts.theta = b.opts.theta := by rw [← Res.ok.inj hb]; rfl
  obtain ⟨-, h1, h', e, prev, r, c1, c2, c3, c4, c5, c6, c7, c8⟩ := hI.law hrd K h2 hc
  rw [ho1, m1] at c5
  rw [ho2, m2] at c8
  refine ⟨t, h, h1, h', e, prev, r, hI.time, hI.step, c1, c2, c3, c4, c5, c6, c7, fun hst => ?_, c8⟩
  cases hr' : r with
  | true => rfl
  | false => have := c7 hr'; omega

/-- For C74: a call after a first accepted step, with the predictive controller. -/
example : ∃ (C : Radau.Clock) (b : Builder X 2 Unit) (s0 s s' : Radau.St X 2 Unit), Radau.Timed C b ∧
    b.opts.modern_pred = true ∧ b.build Radau.alg = .ok s0 ∧ SomeSteps Radau.alg none 1 s0 s ∧
    StepReturns Radau.alg none s (some 2) s' := by
  obtain ⟨s0, s1, s2, hb, h1, h2⟩ := Radau.const_run_long (n := 2) (by norm_num) ![1, -1] ![0, 3]
    (by simp [Fin.forall_fin_two])
  exact ⟨_, _, s0, s1, s2, Radau.const_timed _ _ _ _, rfl, hb,
    .succ (alg := Radau.alg) (.zero (alg := Radau.alg) s0) h1, h2⟩

end
end Cyphus
