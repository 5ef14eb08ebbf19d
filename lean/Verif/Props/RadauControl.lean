import Verif.Proofs.RadauEnd
import Verif.Proofs.RadauSpan
import Verif.Props.Run
/-!
# Times and step sizes of `Radau5` (C25, C27, C28, C29, C33, C58, C59)

Exact arithmetic with special values. Nothing is assumed about the right-hand side and the Jacobian, their values
may be NaN or infinite.

Cases that meet the hypotheses of the theorems are in `Verif/Props/RadauExamples.lean`.
-/

namespace Cyphus
open X
set_option linter.unusedSectionVars false
set_option autoImplicit false
noncomputable section
variable {n : ℕ} {P : Type} {C : Radau.Clock} {b : Builder X n P} {s0 : Radau.St X n P}

theorem Radau.Ctl.adjust {o : Opts X} (h : Radau.Ctl C o) : Radau.Ctl C (Radau.adjustOpts o) :=
  ⟨h.1, h.2, h.3, h.4, h.5, h.6, h.7, h.8, h.9, h.10, h.11⟩

/-- The integrator after `build()`. -/
theorem Radau.Timed.idle (H : Radau.Timed C b) (hb : b.build Radau.alg = .ok s0) :
    Radau.Idle C (C.Sane ∧ C.t0 ≤ C.tf) s0 C.t0 1e-6 := by
  have hd : s0.tdir = fin C.d := by
    have h' : s0.tdir = Fl.copysign 1.0 (b.tfinal - b.t) := by rw [← Res.ok.inj hb]
    rw [h', H.tfinal, H.t, sub_fin, X.sci, copysign_fin]
    unfold Radau.Clock.d
    congr 1
    split <;> norm_num
  have hcf : s0.cache.cfac = b.opts.safe * Fl.ofNat (1 + 2 * b.opts.max_newt_iter) := by
    rw [← Res.ok.inj hb]
  obtain ⟨-, -, h3, -, -, h6, h7, -, -, -, h11, -⟩ := Radau.build_fields hb
  have ht : s0.tfinal = b.tfinal := by rw [← Res.ok.inj hb]
  have hdt : s0.dt = b.dt := by rw [← Res.ok.inj hb]
  have hdo : s0.cache.dtopt = b.dt := by rw [← Res.ok.inj hb]
  refine ⟨h11 ▸ H.ctl.adjust, hd, ht.trans H.tfinal, h7.trans H.t, hdt.trans H.dt,
    ⟨1e-6, hdo.trans H.dt, fun _ => by norm_num⟩, ⟨_, by rw [hcf, H.ctl.safe]; rfl, ?_⟩, by simp [h6],
    fun h => h.1, fun _ => by norm_num, fun h => h.2, fun h => ?_⟩
  · have := H.ctl.safe_pos
    positivity
  · unfold Radau.Clock.d; rw [if_pos (by linarith [h.2])]

/-- During a run. -/
theorem Radau.Timed.run (H : Radau.Timed C b) (hb : b.build Radau.alg = .ok s0) {k : ℕ} {s : Radau.St X n P}
    (hs : SomeSteps Radau.alg none k s0 s) :
    Radau.Ready s ∧ ∃ t h, Radau.Idle C (C.Sane ∧ C.t0 ≤ C.tf) s t h := by
  refine SomeSteps.induct (alg := Radau.alg)
    (I := fun _ s => Radau.Ready s ∧ ∃ t h, Radau.Idle C (C.Sane ∧ C.t0 ≤ C.tf) s t h) ?_ ?_ hs
  · exact ⟨Radau.build_ready hb, _, _, H.idle hb⟩
  · rintro k s o s' ⟨hr, t, h, hI⟩ h1
    obtain ⟨⟨fuel, h1⟩, ho⟩ := stepReturns_none_iff.1 h1
    have hc : s'.sol.retcode = .Continue := by
      by_contra hc
      simp [hc] at ho
    obtain ⟨h2, h3, T⟩ | hc' := hI.run_step hr h1
    · exact ⟨hr.step h1 hc, _, _, T.idle⟩
    · exact absurd hc hc'.1

theorem Radau.run_opts (hb : b.build Radau.alg = .ok s0) {k : ℕ} {s : Radau.St X n P}
    (hs : SomeSteps Radau.alg none k s0 s) : Radau.Ready s ∧ s.opts = s0.opts := by
  refine SomeSteps.induct (alg := Radau.alg) (I := fun _ s => Radau.Ready s ∧ s.opts = s0.opts) ?_ ?_ hs
  · exact ⟨Radau.build_ready hb, rfl⟩
  · rintro k s o s' ⟨hr, ho'⟩ h1
    obtain ⟨⟨fuel, h1⟩, ho⟩ := stepReturns_none_iff.1 h1
    have hc : s'.sol.retcode = .Continue := by
      by_contra hc
      simp [hc] at ho
    exact ⟨hr.step h1 hc, (Radau.step_cases hr h1).1.opts.trans ho'⟩

/-- **C25** `Success` means `tfinal` was reached: when `integrate()` returns with `Success`, the current time and
the last recorded time are `tfinal`. (Any direction, any finite positive options, any right-hand side.) -/
theorem C25_success_radau (H : Radau.Timed C b) (hb : b.build Radau.alg = .ok s0) {s : Radau.St X n P}
    (hs : IntegrateReturns Radau.alg none s0 s) (hc : s.sol.retcode = .Success) :
    s.t = fin C.tf ∧ s.sol.ts.getLast? = some (fin C.tf) := by
  obtain ⟨k, s1, h1, h2⟩ := (integrate_iff Radau.fuelMono).1 hs
  obtain ⟨hr, t, h, hI⟩ := H.run hb h1
  obtain ⟨⟨fuel, h2⟩, -⟩ := stepReturns_none_iff.1 h2
  obtain ⟨h3, h4, T⟩ | hc' := hI.run_step hr h2
  · have ht : s.t = fin C.tf := by
      rw [T.idle.time]
      obtain h5 | h5 := T.code
      · rw [hc] at h5; simp at h5
      · rw [h5.2]
    refine ⟨ht, ?_⟩
    obtain ⟨-, ha | hf⟩ := Radau.step_cases hr h2
    · rw [ha.ts, ht]; simp
    · have := hf.retcode
      simp [hc] at this
  · exact absurd hc hc'.2

/-- **C58** Forward runs with sane options: the recorded times increase strictly and lie in `[t0, tfinal]`. -/
theorem C58_times_increase_radau (H : Radau.Timed C b) (hS : C.Sane) (ht : C.t0 ≤ C.tf)
    (hb : b.build Radau.alg = .ok s0) {s : Radau.St X n P}
    (hs : (∃ k, SomeSteps Radau.alg none k s0 s) ∨ IntegrateReturns Radau.alg none s0 s) :
    ∃ l : List ℝ, s.sol.ts = l.map fin ∧ l.Pairwise (· < ·) ∧ ∀ t ∈ l, C.t0 ≤ t ∧ t ≤ C.tf := by
  let J : Radau.St X n P → Prop := fun s => ∃ (l : List ℝ) (t : ℝ), s.sol.ts = l.map fin ∧ l.Pairwise (· < ·) ∧
    (∀ x ∈ l, C.t0 ≤ x ∧ x ≤ t) ∧ s.t = fin t ∧ C.t0 ≤ t ∧ t ≤ C.tf
  have step : ∀ {s s' : Radau.St X n P} {fuel : ℕ} {t h : ℝ}, Radau.Ready s →
      Radau.Idle C (C.Sane ∧ C.t0 ≤ C.tf) s t h → J s → Radau.step fuel s = .ok s' → J s' := by
    rintro s s' fuel t h hr hI ⟨l, t', h1, h2, h3, h4, h5, h6⟩ hst
    obtain ⟨hfr, ha | hf⟩ := Radau.step_cases hr hst
    · have e : t' = t := by rw [hI.time] at h4; injection h4 with h4; exact h4.symm
      subst e
      obtain ⟨g, g', T⟩ | hc := hI.run_step hr hst
      · obtain ⟨p1, p2⟩ := T.pos ⟨hS, ht⟩
        refine ⟨l ++ [t' + g], t' + g, by rw [ha.ts, h1, T.idle.time]; simp, ?_, ?_, T.idle.time,
          by linarith, p2⟩
        · rw [List.pairwise_append]
          refine ⟨h2, by simp, fun x hx y hy => ?_⟩
          simp at hy
          have := (h3 x hx).2
          linarith
        · intro x hx
          rcases List.mem_append.1 hx with hx | hx
          · exact ⟨(h3 x hx).1, by linarith [(h3 x hx).2]⟩
          · simp at hx
            exact ⟨by linarith, by linarith⟩
      · have := ha.retcode
        obtain h7 | h7 := this
        · exact absurd h7 hc.1
        · exact absurd h7 hc.2
    · exact ⟨l, t', hf.frame.ts ▸ h1, h2, h3, hf.frame.t ▸ h4, h5, h6⟩
  have some : ∀ {k : ℕ} {s : Radau.St X n P}, SomeSteps Radau.alg none k s0 s → J s := by
    intro k s hs
    have : (∃ k, SomeSteps Radau.alg none k s0 s) ∧ J s := by
      refine SomeSteps.induct (alg := Radau.alg)
        (I := fun _ s => (∃ k, SomeSteps Radau.alg none k s0 s) ∧ J s) ?_ ?_ hs
      · obtain ⟨h1, -, -, -, -, -, h7, -⟩ := Radau.build_fields hb
        refine ⟨⟨0, .zero (alg := Radau.alg) s0⟩, [C.t0], C.t0, by rw [h1, H.t]; rfl, by simp, by simp,
          h7.trans H.t, le_rfl, ht⟩
      · rintro k s o s' ⟨⟨k, h0⟩, hj⟩ h1
        obtain ⟨hr, t, h, hI⟩ := H.run hb h0
        obtain ⟨⟨fuel, h2⟩, -⟩ := stepReturns_none_iff.1 h1
        exact ⟨⟨k + 1, .succ (alg := Radau.alg) h0 h1⟩, step hr hI hj h2⟩
    exact this.2
  have fin : J s := by
    rcases hs with ⟨k, hs⟩ | hs
    · exact some hs
    · obtain ⟨k, s1, h1, h2⟩ := (integrate_iff Radau.fuelMono).1 hs
      obtain ⟨hr, t, h, hI⟩ := H.run hb h1
      obtain ⟨⟨fuel, h2⟩, -⟩ := stepReturns_none_iff.1 h2
      exact step hr hI (some h1) h2
  obtain ⟨l, t, h1, h2, h3, -, -, h6⟩ := fin
  exact ⟨l, h1, h2, fun x hx => ⟨(h3 x hx).1, (h3 x hx).2.trans h6⟩⟩

/-! ### C27, C28, C29 -/

/-- **C27** After a step accepted during a run, unless it was the last one: with `h` the step taken and `t` the time
reached, there is a quotient `q` in `[facr, max(facr, facl)]` such that the next step results from the proposal `h / q`
by the rules of `Clock.proposal` (direction, `dtmax`, rejected attempts) and `Clock.Next` (end of the interval, small
changes ignored). -/
theorem C27_step_ratio_radau (H : Radau.Timed C b) (hb : b.build Radau.alg = .ok s0) {k i : ℕ} {s s' : Radau.St X n P}
    (hs : SomeSteps Radau.alg none k s0 s) (hr : StepReturns Radau.alg none s (some i) s') :
    ∃ t h h' q rej, s'.t = fin t ∧ s'.dtprev = fin h ∧ s'.dt = fin h' ∧ C.fr ≤ q ∧ q ≤ max C.fr C.fl ∧
      (s.stats.steps + 1 < s'.stats.steps → rej = true) ∧ C.Next t h (C.proposal rej h q) h' := by
  obtain ⟨hrd, t, h, hI⟩ := H.run hb hs
  obtain ⟨⟨fuel, h2⟩, ho⟩ := stepReturns_none_iff.1 hr
  have hc : s'.sol.retcode = .Continue := by
    by_contra hc
    simp [hc] at ho
  obtain ⟨h3, h4, T⟩ | hc' := hI.run_step hrd h2
  · obtain ⟨q, rej, q1, q2, q3, q4⟩ := T.next hc
    exact ⟨_, h3, h4, q, rej, T.idle.time, T.dtprev, T.idle.step, q1, q2, q3, q4⟩
  · exact absurd hc hc'.1

theorem Radau.capR_le {mx : Option ℝ} {y : ℝ} : Radau.capR mx y ≤ |y| := by
  unfold Radau.capR; cases mx <;> simp

theorem Radau.capR_le_max {m y : ℝ} : Radau.capR (some m) y ≤ m := by simp [Radau.capR]

theorem Radau.proposal_le_max {m : ℝ} (hC : C.mx = some m) (hp : 0 < m) (rej : Bool) (h q : ℝ) :
    |C.proposal rej h q| ≤ m := by
  have h1 : |C.d * Radau.capR C.mx (h / q)| ≤ m := by
    have : 0 ≤ Radau.capR C.mx (h / q) := by rw [hC]; exact le_min (abs_nonneg _) hp.le
    rw [abs_mul, abs_of_nonneg this, hC]
    obtain e | e := C.d_cases <;> rw [e] <;> simp [Radau.capR]
  unfold Radau.Clock.proposal
  simp only
  split
  · rw [abs_mul, abs_of_nonneg (by positivity : (0:ℝ) ≤ min _ _)]
    have := (min_le_left _ _).trans h1 (b := |C.d * Radau.capR C.mx (h / q)|) (a := min |C.d * Radau.capR C.mx (h / q)| |h|)
    obtain e | e := C.d_cases <;> rw [e] at this ⊢ <;> simpa using this
  · exact h1

theorem Radau.proposal_le_old (h q : ℝ) : |C.proposal true h q| ≤ |h| := by
  unfold Radau.Clock.proposal
  simp only [if_true]
  rw [abs_mul, abs_of_nonneg (by positivity : (0:ℝ) ≤ min _ _)]
  have := min_le_right |C.d * Radau.capR C.mx (h / q)| |h|
  obtain e | e := C.d_cases <;> rw [e] at this ⊢ <;> simpa using this

/-- The next step is at most the proposal, if `quot1 >= 1` and `tfinal` has not been passed. -/
theorem Radau.Clock.Next.le {t h x h' : ℝ} (hn : C.Next t h x h') (hq : 1 ≤ C.q1) (ht : 0 ≤ (C.tf - t) * C.d) :
    |h'| ≤ |x| := by
  cases hn with
  | change => exact le_rfl
  | keep _ h2 _ =>
    have : 1 ≤ |x / h| := (hq.trans h2).trans (le_abs_self _)
    rw [abs_div] at this
    by_cases hh : |h| = 0
    · rw [hh, div_zero] at this; linarith
    · have hp : 0 < |h| := lt_of_le_of_ne (abs_nonneg _) (Ne.symm hh)
      rwa [le_div_iff₀ hp, one_mul] at this
  | toEnd h1 =>
    have hx : x / C.q1 * C.d ≤ |x| := by
      have : |x / C.q1 * C.d| ≤ |x| := by
        have hd : |C.d| = 1 := by obtain e | e := C.d_cases <;> rw [e] <;> simp
        rw [abs_mul, hd, mul_one, abs_div, abs_of_pos (by linarith : 0 < C.q1)]
        exact div_le_self (abs_nonneg _) hq
      exact (le_abs_self _).trans this
    have e : |C.tf - t| = (C.tf - t) * C.d := by
      obtain e | e := C.d_cases
      · rw [e, mul_one] at ht ⊢; exact abs_of_nonneg ht
      · rw [e] at ht ⊢
        rw [abs_of_nonpos (by linarith)]; ring
    rw [e]
    nlinarith

/-- **C28** In a forward run with sane options the step proposed after an accepted step is at most `dtmax`. -/
theorem C28_dtmax_radau (H : Radau.Timed C b) (hS : C.Sane) (ht : C.t0 ≤ C.tf) (hb : b.build Radau.alg = .ok s0)
    {m : ℝ} (hm : C.mx = some m) {k i : ℕ} {s s' : Radau.St X n P}
    (hs : SomeSteps Radau.alg none k s0 s) (hr : StepReturns Radau.alg none s (some i) s') :
    ∃ h', s'.dt = fin h' ∧ 0 ≤ h' ∧ h' ≤ m := by
  obtain ⟨hrd, t, h, hI⟩ := H.run hb hs
  obtain ⟨⟨fuel, h2⟩, ho⟩ := stepReturns_none_iff.1 hr
  have hc : s'.sol.retcode = .Continue := by
    by_contra hc
    simp [hc] at ho
  obtain ⟨h3, h4, T⟩ | hc' := hI.run_step hrd h2
  · obtain ⟨q, rej, -, -, -, q4⟩ := T.next hc
    have hd := T.idle.dir ⟨hS, ht⟩
    refine ⟨h4, T.idle.step, T.idle.pos ⟨hS, ht⟩, (le_abs_self _).trans ((q4.le hS.quot1 ?_).trans
      (Radau.proposal_le_max hm (H.ctl.dtmax_pos m hm) _ _ _))⟩
    rw [hd, mul_one]
    have := (T.pos ⟨hS, ht⟩).2
    linarith
  · exact absurd hc hc'.1

/-- **C29** If the call made more than one attempt, the next step is not larger than the one taken (forward runs with
sane options). -/
theorem C29_no_growth_after_reject_radau (H : Radau.Timed C b) (hS : C.Sane) (ht : C.t0 ≤ C.tf)
    (hb : b.build Radau.alg = .ok s0) {k i : ℕ} {s s' : Radau.St X n P}
    (hs : SomeSteps Radau.alg none k s0 s) (hr : StepReturns Radau.alg none s (some i) s')
    (hrej : s'.stats.steps ≠ s.stats.steps + 1) :
    ∃ h h', s'.dtprev = fin h ∧ s'.dt = fin h' ∧ 0 < h ∧ 0 ≤ h' ∧ h' ≤ h := by
  obtain ⟨hrd, t, h, hI⟩ := H.run hb hs
  obtain ⟨⟨fuel, h2⟩, ho⟩ := stepReturns_none_iff.1 hr
  have hc : s'.sol.retcode = .Continue := by
    by_contra hc
    simp [hc] at ho
  obtain ⟨h3, h4, T⟩ | hc' := hI.run_step hrd h2
  · obtain ⟨q, rej, -, -, q3, q4⟩ := T.next hc
    have hd := T.idle.dir ⟨hS, ht⟩
    have hp := T.pos ⟨hS, ht⟩
    obtain rfl : rej = true := q3 (by
      obtain ⟨k, s1, ha, sp, ⟨d, hd⟩ | hf⟩ := Radau.step_spec hrd.reject h2
      · have := Radau.acceptStep_fields d (Radau.stepQuot d)
        simp only at this
        rw [← hd.eq] at this
        have := this.2.2.2.2.2.2.2.2.2.2.2.2.2.2.2.2.1
        rw [hd.steps, sp.steps, (Radau.clampLast_fields s).2.2.1] at this
        omega
      · exact absurd hc hf.retcode)
    refine ⟨h3, h4, T.dtprev, T.idle.step, hp.1, T.idle.pos ⟨hS, ht⟩, (le_abs_self _).trans ?_⟩
    rw [← abs_of_pos hp.1]
    refine (q4.le hS.quot1 ?_).trans (Radau.proposal_le_old _ _)
    rw [hd, mul_one]
    linarith
  · exact absurd hc hc'.1

/-! ### C33: calling `step()` after the end -/

/-- **C33** After a forward run ended with `Success`, any number of further `step()` calls return, record nothing,
leave time and state alone, and the code changes to `MaxIters` or `DtLessThanMin`, depending on the number of steps
made. -/
theorem C33_after_success_radau (H : Radau.Timed C b) (hS : C.Sane) (ht : C.t0 ≤ C.tf) (hn : 0 < n)
    (hb : b.build Radau.alg = .ok s0) {s : Radau.St X n P} (hs : IntegrateReturns Radau.alg none s0 s)
    (hc : s.sol.retcode = .Success) (j : ℕ) :
    ∃ s', Steps Radau.alg none (j + 1) s s' ∧ s'.t = s.t ∧ s'.u = s.u ∧ s'.sol.ts = s.sol.ts ∧ s'.sol.us = s.sol.us ∧
      s'.stats.steps = s.stats.steps + (j + 1) ∧
      s'.sol.retcode = if b.opts.max_steps ≤ s.stats.steps + (j + 1) then .MaxIters else .DtLessThanMin := by
  have key : Radau.AtEnd C.tf s ∧ s.opts.max_steps = b.opts.max_steps := by
    obtain ⟨k, s1, h1, h2⟩ := (integrate_iff Radau.fuelMono).1 hs
    obtain ⟨hr, t, h, hI⟩ := H.run hb h1
    obtain ⟨⟨fuel, h2⟩, -⟩ := stepReturns_none_iff.1 h2
    obtain ⟨h3, h4, T⟩ | hc' := hI.run_step hr h2
    · obtain h5 | h5 := T.code
      · rw [hc] at h5; simp at h5
      · refine ⟨⟨by rw [T.idle.time, h5.2], T.idle.tfinal, by rw [T.idle.tdir, T.idle.dir ⟨hS, ht⟩], h4, T.idle.step,
          T.idle.pos ⟨hS, ht⟩⟩, ?_⟩
        rw [(Radau.step_cases hr h2).1.opts, (Radau.run_opts hb h1).2, ← Res.ok.inj hb]
        rfl
    · exact absurd hc hc'.2
  have run : ∀ j, ∃ s', Steps Radau.alg none (j + 1) s s' ∧ Radau.AtEnd C.tf s' ∧ s'.opts = s.opts ∧ s'.u = s.u ∧
      s'.sol.ts = s.sol.ts ∧ s'.sol.us = s.sol.us ∧ s'.stats.steps = s.stats.steps + (j + 1) ∧
      s'.sol.retcode = if s.opts.max_steps ≤ s.stats.steps + (j + 1) then .MaxIters else .DtLessThanMin := by
    intro j
    induction j with
    | zero =>
      obtain ⟨s', h1, h2, h3, h4, h5, h6, -, h8, h9⟩ := key.1.run_step hn.ne'
      exact ⟨s', .succ (alg := Radau.alg) (.zero (alg := Radau.alg) s) (stepReturns_none_iff.2 ⟨⟨1, h1⟩, rfl⟩), h2, h8,
        h3, h4, h5, h6, h9⟩
    | succ j ih =>
      obtain ⟨s1, g1, g2, g3, g4, g5, g6, g7, -⟩ := ih
      obtain ⟨s', h1, h2, h3, h4, h5, h6, -, h8, h9⟩ := g2.run_step hn.ne'
      refine ⟨s', .succ (alg := Radau.alg) g1 (stepReturns_none_iff.2 ⟨⟨1, h1⟩, rfl⟩), h2, h8.trans g3, h3.trans g4,
        h4.trans g5, h5.trans g6, by rw [h6, g7]; rfl, ?_⟩
      rw [h9, g3, g7]; rfl
  obtain ⟨s', h1, h2, -, h4, h5, h6, h7, h8⟩ := run j
  exact ⟨s', h1, by rw [h2.time, key.1.time], h4, h5, h6, h7, by rw [h8, key.2]⟩

/-! ### C59: where user code is evaluated -/

/-- **C59** Forward runs with sane options call the right-hand side and the Jacobian only at times in
`[t0, tfinal]`. -/
theorem C59_calls_in_span_radau (H : Radau.Timed C b) (hS : C.Sane) (ht : C.t0 ≤ C.tf)
    (hb : b.build Radau.alg = .ok s0) {s : Radau.St X n P}
    (hs : (∃ k, SomeSteps Radau.alg none k s0 s) ∨ IntegrateReturns Radau.alg none s0 s) :
    ∀ c ∈ s.trace, ∃ t, c.time = fin t ∧ C.t0 ≤ t ∧ t ≤ C.tf := by
  have hf : C.Sane ∧ C.t0 ≤ C.tf := ⟨hS, ht⟩
  have some : ∀ {k : ℕ} {s : Radau.St X n P}, SomeSteps Radau.alg none k s0 s →
      Radau.Ready s ∧ (∃ t h, Radau.Idle C True s t h ∧ C.t0 ≤ t) ∧ Radau.InSpan C s := by
    intro k s hs
    refine SomeSteps.induct (alg := Radau.alg) (I := fun _ s => Radau.Ready s ∧
      (∃ t h, Radau.Idle C True s t h ∧ C.t0 ≤ t) ∧ Radau.InSpan C s) ?_ ?_ hs
    · refine ⟨Radau.build_ready hb, ⟨_, _, (H.idle hb).fwd hf, le_rfl⟩, ?_⟩
      have e : s0.trace = Call.rhs b.t b.u :: (jacobian_u b.dudt b.dfdu (fun _ _ => 0.0) b.u b.t b.params).2 := by
        rw [← Res.ok.inj hb]
      intro c hc
      rw [e] at hc
      rcases List.mem_cons.1 hc with rfl | hc
      · exact ⟨_, H.t, le_rfl, ht⟩
      · exact ⟨_, (Radau.jacobian_u_time _ _ _ _ _ _ c hc).trans H.t, le_rfl, ht⟩
    · rintro k s o s' ⟨hr, ⟨t, h, hI, h0⟩, hsp⟩ h1
      obtain ⟨⟨fuel, h1⟩, ho⟩ := stepReturns_none_iff.1 h1
      have hc : s'.sol.retcode = .Continue := by
        by_contra hc
        simp [hc] at ho
      refine ⟨hr.step h1 hc, ?_, hsp.step hI hr h0 h1⟩
      obtain ⟨g, g', T⟩ | hc' := hI.run_step hr h1
      · have := (T.pos trivial).1
        exact ⟨_, _, T.idle, by linarith⟩
      · exact absurd hc hc'.1
  rcases hs with ⟨k, hs⟩ | hs
  · exact (some hs).2.2
  · obtain ⟨k, s1, h1, h2⟩ := (integrate_iff Radau.fuelMono).1 hs
    obtain ⟨hr, ⟨t, h, hI, h0⟩, hsp⟩ := some h1
    obtain ⟨⟨fuel, h2⟩, -⟩ := stepReturns_none_iff.1 h2
    exact hsp.step hI hr h0 h2

end
end Cyphus
